import Verif.Model.OrderMap


set_option autoImplicit false
namespace TTGraph

theorem alGet_eq_some_iff {κ ν : Type} [DecidableEq κ] (k : κ) (v : ν) (l : List (κ × ν))
    (h : (l.map Prod.fst).Nodup) : alGet k l = some v ↔ (k, v) ∈ l := by
  induction l with
  | nil => simp [alGet]
  | cons e r ih =>
    obtain ⟨k', v'⟩ := e
    simp only [List.map_cons, List.nodup_cons] at h
    by_cases hk : k' = k
    · subst hk
      simp only [alGet, if_true, List.mem_cons, Prod.mk.injEq, true_and, Option.some.injEq]
      constructor
      · intro e; exact Or.inl e.symm
      · rintro (e | e)
        · exact e.symm
        · exact absurd (List.mem_map_of_mem (f := Prod.fst) e) h.1
    · have hk' : ¬ k = k' := fun e => hk e.symm
      simp only [alGet, hk, if_false, List.mem_cons, Prod.mk.injEq, hk', false_and, false_or]
      exact ih h.2

theorem alGet_eq_none_iff {κ ν : Type} [DecidableEq κ] (k : κ) (l : List (κ × ν)) :
    alGet k l = none ↔ k ∉ l.map Prod.fst := by
  induction l with
  | nil => simp [alGet]
  | cons e r ih =>
    obtain ⟨k', v'⟩ := e
    by_cases hk : k' = k
    · subst hk; simp [alGet]
    · have hk' : ¬ k = k' := fun e => hk e.symm
      simp only [alGet, hk, if_false, List.map_cons, List.mem_cons, hk', false_or]
      exact ih

theorem alGet_alSet {κ ν : Type} [DecidableEq κ] (k j : κ) (v : ν) (l : List (κ × ν)) :
    alGet j (alSet k v l) = if k = j then some v else alGet j l := by
  induction l with
  | nil => simp [alSet, alGet]
  | cons e r ih =>
    obtain ⟨k', v'⟩ := e
    by_cases hk : k' = k
    · subst hk
      by_cases hj : k' = j <;> simp [alSet, alGet, hj]
    · by_cases hj : k' = j
      · subst hj
        have : ¬ k = k' := fun e => hk e.symm
        simp [alSet, alGet, hk, this]
      · simp [alSet, alGet, hk, hj, ih]

namespace OrderMap
variable {κ ν : Type} [DecidableEq κ]

@[simp] theorem get?_empty (k : κ) : (empty : OrderMap κ ν).get? k = none := rfl

theorem get?_eq_some {m : OrderMap κ ν} {k : κ} {v : ν} : m.get? k = some v ↔ (k, v) ∈ m.entries :=
  alGet_eq_some_iff k v m.entries m.nodup

theorem get?_eq_none {m : OrderMap κ ν} {k : κ} : m.get? k = none ↔ k ∉ m.keys :=
  alGet_eq_none_iff k m.entries

theorem get?_insert (m : OrderMap κ ν) (k j : κ) (v : ν) :
    (m.insert k v).get? j = if k = j then some v else m.get? j :=
  alGet_alSet k j v m.entries

@[simp] theorem get?_insert_self (m : OrderMap κ ν) (k : κ) (v : ν) : (m.insert k v).get? k = some v := by
  simp [get?_insert]

theorem get?_insert_ne (m : OrderMap κ ν) {k j : κ} (v : ν) (h : k ≠ j) : (m.insert k v).get? j = m.get? j := by
  simp [get?_insert, h]

theorem get?_swapRemove (m : OrderMap κ ν) (k j : κ) :
    (m.swapRemove k).get? j = if k = j then none else m.get? j := by
  have hp := alSwapRemove_perm k m.entries m.nodup
  have hmem : ∀ e, e ∈ (m.swapRemove k).entries ↔ e ∈ m.entries ∧ e.1 ≠ k := by
    intro e
    show e ∈ alSwapRemove k m.entries ↔ _
    rw [hp.mem_iff]; simp
  by_cases h : k = j
  · subst h
    simp only [if_true]
    cases hg : (m.swapRemove k).get? k with
    | none => rfl
    | some v => rw [get?_eq_some, hmem] at hg; exact absurd rfl hg.2
  · simp only [h, if_false]
    ext v
    rw [get?_eq_some, get?_eq_some, hmem]
    have : j ≠ k := fun e => h e.symm
    simp [this]

theorem mem_entries_swapRemove (m : OrderMap κ ν) (k : κ) (e : κ × ν) :
    e ∈ (m.swapRemove k).entries ↔ e ∈ m.entries ∧ e.1 ≠ k := by
  show e ∈ alSwapRemove k m.entries ↔ _
  rw [(alSwapRemove_perm k m.entries m.nodup).mem_iff]; simp

theorem get?_foldl_insert (l : List (κ × ν)) (hl : (l.map Prod.fst).Nodup) (m : OrderMap κ ν) (j : κ) :
    (l.foldl (fun acc e => acc.insert e.1 e.2) m).get? j = (alGet j l <|> m.get? j) := by
  induction l generalizing m with
  | nil => simp [alGet]
  | cons e r ih =>
    obtain ⟨k, v⟩ := e
    simp only [List.map_cons, List.nodup_cons] at hl
    simp only [List.foldl_cons]
    rw [ih hl.2, get?_insert]
    by_cases h : k = j
    · subst h
      have : alGet k r = none := (alGet_eq_none_iff k r).2 hl.1
      simp [alGet, this]
    · simp [alGet, h]

theorem get?_append (m o : OrderMap κ ν) (j : κ) : (m.append o).get? j = (o.get? j <|> m.get? j) :=
  get?_foldl_insert o.entries o.nodup m j

theorem get?_orInsert (m : OrderMap κ ν) (k j : κ) (v : ν) :
    (m.orInsert k v).get? j = if k = j then some ((m.get? k).getD v) else m.get? j := by
  unfold orInsert
  cases h : m.get? k with
  | some w =>
    by_cases hk : k = j
    · subst hk; simp [h]
    · simp [hk]
  | none => simp [get?_insert]

theorem contains_iff {m : OrderMap κ ν} {k : κ} : m.contains k = true ↔ ∃ v, m.get? k = some v := by
  simp [contains, Option.isSome_iff_exists]

theorem mem_keys {m : OrderMap κ ν} {k : κ} : k ∈ m.keys ↔ ∃ v, m.get? k = some v := by
  have := get?_eq_none (m := m) (k := k)
  cases h : m.get? k with
  | none => simp [h] at this; simp [this]
  | some v =>
    simp [h] at this; simp [this]

theorem keys_nodup (m : OrderMap κ ν) : m.keys.Nodup := m.nodup

theorem entries_nodup (m : OrderMap κ ν) : m.entries.Nodup := List.Nodup.of_map _ m.nodup

end OrderMap

namespace OrderSet
variable {α : Type} [DecidableEq α]

theorem mem_def {s : OrderSet α} {a : α} : a ∈ s ↔ a ∈ s.elems := Iff.rfl

@[simp] theorem not_mem_empty (a : α) : a ∉ (empty : OrderSet α) := by
  rw [mem_def]; simp [empty]

@[simp] theorem mem_insert {s : OrderSet α} {a b : α} : b ∈ s.insert a ↔ b = a ∨ b ∈ s := by
  simp only [mem_def]
  unfold insert
  split
  · rename_i h
    constructor
    · exact Or.inr
    · rintro (rfl | h')
      · exact h
      · exact h'
  · simp [or_comm]

@[simp] theorem mem_swapRemove {s : OrderSet α} {a b : α} : b ∈ s.swapRemove a ↔ b ∈ s ∧ b ≠ a := by
  simp only [mem_def]
  show b ∈ lSwapRemove a s.elems ↔ _
  rw [(lSwapRemove_perm a s.elems s.nodup).mem_iff]; simp

theorem isEmpty_iff {s : OrderSet α} : s.isEmpty = true ↔ ∀ a, a ∉ s := by
  simp [isEmpty, mem_def, List.eq_nil_iff_forall_not_mem]

end OrderSet
end TTGraph
