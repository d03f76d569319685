import Verif.Model.Sorted

/-!
# Lemmas on `BTreeMap`s
-/

set_option autoImplicit false

namespace TTGraph
namespace Sorted

variable {β : Type}

theorem get?_eq_some {m : Sorted β} {k : Ident} {v : β} : m.get? k = some v ↔ (k, v) ∈ m.entries := by
  obtain ⟨l, hl⟩ := m
  simp only [get?]
  induction l with
  | nil => simp
  | cons a l ih =>
    obtain ⟨h1, h2⟩ := List.pairwise_cons.1 hl
    rw [List.find?_cons]
    by_cases hk : a.1 = k
    · subst hk
      simp only [BEq.rfl, Option.map_some, Option.some.injEq, List.mem_cons]
      constructor
      · rintro rfl; exact .inl rfl
      · rintro (h | h)
        · rw [← h]
        · exact absurd (h1 _ h) (Nat.lt_irrefl _)
    · have : (a.1 == k) = false := by simpa using hk
      rw [this]
      simp only [List.mem_cons, ih h2]
      constructor
      · exact .inr
      · rintro (h | h)
        · exact absurd (congrArg Prod.fst h).symm hk
        · exact h

theorem mem_put_iff {k : Ident} {v : β} {l : List (Ident × β)} (h : l.Pairwise fun a b => a.1 < b.1) {e : Ident × β} :
    e ∈ put k v l ↔ e = (k, v) ∨ (e.1 ≠ k ∧ e ∈ l) := by
  induction l with
  | nil => simp [put]
  | cons a l ih =>
    obtain ⟨h1, h2⟩ := List.pairwise_cons.1 h
    rw [put]
    split
    · rename_i hk
      constructor
      · intro he
        rcases List.mem_cons.1 he with he | he
        · exact .inl he
        · refine .inr ⟨fun hc => ?_, he⟩
          rcases List.mem_cons.1 he with rfl | he
          · exact Nat.lt_irrefl _ (hc ▸ hk)
          · exact Nat.lt_irrefl _ (Nat.lt_trans hk (hc ▸ h1 e he))
      · rintro (rfl | he)
        · exact List.mem_cons_self
        · exact List.mem_cons_of_mem _ he.2
    · split
      · rename_i hk
        constructor
        · intro he
          rcases List.mem_cons.1 he with he | he
          · exact .inl he
          · exact .inr ⟨fun hc => Nat.lt_irrefl _ (hk ▸ hc ▸ h1 e he), List.mem_cons_of_mem _ he⟩
        · rintro (rfl | ⟨hne, he⟩)
          · exact List.mem_cons_self
          · rcases List.mem_cons.1 he with rfl | he
            · exact absurd hk.symm hne
            · exact List.mem_cons_of_mem _ he
      · rename_i hk hk2
        rw [List.mem_cons, ih h2, List.mem_cons]
        constructor
        · rintro (rfl | rfl | ⟨h3, h4⟩)
          · exact .inr ⟨fun hc => hk2 hc.symm, .inl rfl⟩
          · exact .inl rfl
          · exact .inr ⟨h3, .inr h4⟩
        · rintro (rfl | ⟨h3, rfl | h4⟩)
          · exact .inr (.inl rfl)
          · exact .inl rfl
          · exact .inr (.inr ⟨h3, h4⟩)

@[simp] theorem get?_empty (k : Ident) : (empty : Sorted β).get? k = none := rfl

theorem get?_insert (m : Sorted β) (k : Ident) (v : β) (j : Ident) : (m.insert k v).get? j = if k = j then some v else m.get? j := by
  refine Option.ext fun b => ?_
  rw [get?_eq_some]
  show (j, b) ∈ put k v m.entries ↔ _
  rw [mem_put_iff m.sorted]
  by_cases h : k = j
  · subst h
    simp [eq_comm]
  · simp [h, Ne.symm h, ← get?_eq_some]

theorem get?_remove (m : Sorted β) (k j : Ident) : (m.remove k).get? j = if k = j then none else m.get? j := by
  refine Option.ext fun b => ?_
  rw [get?_eq_some]
  show (j, b) ∈ m.entries.filter _ ↔ _
  rw [List.mem_filter]
  by_cases h : k = j
  · subst h
    simp
  · simp [h, Ne.symm h, ← get?_eq_some]

/-- Lists in ascending order of keys are determined by their elements. -/
theorem entries_unique {l l2 : List (Ident × β)} (h : l.Pairwise fun a b => a.1 < b.1) (h2 : l2.Pairwise fun a b => a.1 < b.1)
    (he : ∀ e, e ∈ l ↔ e ∈ l2) : l = l2 := by
  induction l generalizing l2 with
  | nil =>
    cases l2 with
    | nil => rfl
    | cons b l2 => exact absurd ((he b).2 List.mem_cons_self) (by simp)
  | cons a l ih =>
    cases l2 with
    | nil => exact absurd ((he a).1 List.mem_cons_self) (by simp)
    | cons b l2 =>
      obtain ⟨ha, hl⟩ := List.pairwise_cons.1 h
      obtain ⟨hb, hl2⟩ := List.pairwise_cons.1 h2
      have hab : a = b := by
        rcases List.mem_cons.1 ((he a).1 List.mem_cons_self) with hab | h3
        · exact hab
        · rcases List.mem_cons.1 ((he b).2 List.mem_cons_self) with hba | h4
          · exact hba.symm
          · exact absurd (Nat.lt_trans (ha b h4) (hb a h3)) (Nat.lt_irrefl _)
      subst hab
      rw [ih hl hl2 fun e => ?_]
      constructor
      · intro h5
        rcases List.mem_cons.1 ((he e).1 (List.mem_cons_of_mem _ h5)) with rfl | h6
        · exact absurd (ha e h5) (Nat.lt_irrefl _)
        · exact h6
      · intro h5
        rcases List.mem_cons.1 ((he e).2 (List.mem_cons_of_mem _ h5)) with rfl | h6
        · exact absurd (hb e h5) (Nat.lt_irrefl _)
        · exact h6

theorem ext_get? {m m2 : Sorted β} (h : ∀ k v, m.get? k = some v ↔ m2.get? k = some v) : m = m2 := by
  have : m.entries = m2.entries := entries_unique m.sorted m2.sorted fun e => by
    rw [← get?_eq_some (k := e.1) (v := e.2), ← get?_eq_some (k := e.1) (v := e.2)]; exact h _ _
  cases m; cases m2; cases this; rfl

end Sorted
end TTGraph
