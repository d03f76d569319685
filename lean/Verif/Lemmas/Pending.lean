import Verif.Lemmas.TransOps
import Verif.Lemmas.Switch
import Verif.Spec.Pending

/-!
# Transactions and their pending operations
-/

set_option autoImplicit false

namespace TTGraph
open Spec
variable {S : Schema}

theorem upd_ext {v v' : View} {i : NodeIndex} {o : Option Node} (h : ∀ j, v' j = if i = j then o else v j) : v' = upd v i o := by
  funext j
  rw [h j, upd]
  by_cases e : j = i
  · simp [e]
  · rw [if_neg (fun h => e h.symm), if_neg e]

namespace Trans

theorem effect_extend (l : List Node) (hl : ∀ n ∈ l, S.WT n) : ∀ {t t' : Trans} {cnt cnt' : Nat} {acc acc' : List NodeIndex}, t.Ready S →
    (∀ i : Nat, t.Owns i → i ≤ cnt) → foldE (fun (st : Trans × Nat × List NodeIndex) n =>
      match st.1.insert st.2.1 n with
      | .error e => .error e
      | .ok (i, t', cnt') => .ok (t', cnt', st.2.2 ++ [i])) (t, cnt, acc) l = .ok (t', cnt', acc') →
    ∃ l' v, acc' = acc ++ l' ∧ Adds l l' t.inc.get? v ∧ t'.pending = { t.pending with new := v } := by
  induction l with
  | nil =>
    intro t t' cnt cnt' acc acc' _ _ h
    simp only [foldE, Except.ok.injEq, Prod.mk.injEq] at h
    obtain ⟨rfl, rfl, rfl⟩ := h
    exact ⟨[], t.inc.get?, by simp, rfl, rfl⟩
  | cons n l ih =>
    intro t t' cnt cnt' acc acc' h hb he
    have g1 := insert_grown h hb (hl n (by simp))
    simp only [foldE, insert_ok h hb n] at he
    obtain ⟨l', v, h1, h2, h3⟩ := ih (fun m hm => hl m (by simp [hm])) g1.ready (g1.bound hb) he
    have e : (t.inc.store (cnt + 1) n).get? = upd t.inc.get? (cnt + 1) (some n) := upd_ext (Arena.store_get? _ _ _)
    refine ⟨(cnt + 1) :: l', v, by rw [h1]; simp, ⟨Arena.get?_of_disp_none (fresh_none h hb).1, by rw [← e]; exact h2⟩, ?_⟩
    rw [h3]
    rfl

theorem effect_run {t t' : Trans} {cnt cnt' : Nat} {l : List NodeIndex} {o : TOp} (h : t.Ready S)
    (hb : ∀ i : Nat, t.Owns i → i ≠ emptyIdx ∧ i ≤ cnt) (ho : o.Allowed S t) (hr : o.run t cnt = .ok (t', cnt', l)) :
    Effect o l t.pending t'.pending := by
  have hb' : ∀ i : Nat, t.Owns i → i ≤ cnt := fun i hi => (hb i hi).2
  have hfresh := fresh_none h hb'
  cases o with
  | insert n =>
    simp only [TOp.run, insert_ok h hb' n, Except.map, Except.ok.injEq, Prod.mk.injEq] at hr
    obtain ⟨rfl, rfl, rfl⟩ := hr
    exact ⟨cnt + 1, rfl, Arena.get?_of_disp_none hfresh.1, by
      simp only [pending, Pending.mk.injEq, and_true]; exact upd_ext (Arena.store_get? _ _ _)⟩
  | extend ns =>
    obtain ⟨l', v, h1, h2, h3⟩ := effect_extend ns ho h hb' hr
    simp only [List.nil_append] at h1
    subst h1
    exact ⟨v, h2, h3⟩
  | alloc d =>
    simp only [TOp.run, alloc_ok h hb' d, Except.map, Except.ok.injEq, Prod.mk.injEq] at hr
    obtain ⟨rfl, rfl, rfl⟩ := hr
    refine ⟨cnt + 1, rfl, ?_, Arena.get?_of_disp_none hfresh.1, ?_⟩
    · intro hm
      have := hb' _ (Or.inr hm)
      omega
    · simp only [pending, Pending.mk.injEq, and_true]
      exact ⟨funext fun j => alloc_get? h hb' d j, funext fun j => propext OrderSet.mem_insert⟩
  | allocUntyped =>
    simp only [TOp.run, Except.ok.injEq, Prod.mk.injEq] at hr
    obtain ⟨rfl, rfl, rfl⟩ := hr
    refine ⟨cnt + 1, rfl, ?_, Arena.get?_of_disp_none hfresh.1, ?_⟩
    · intro hm
      have := hb' _ (Or.inr hm)
      omega
    · simp only [pending, allocUntyped, Arena.allocUntyped, idAlloc, Pending.mk.injEq, and_true, true_and]
      exact funext fun j => propext OrderSet.mem_insert
  | fillBack i n =>
    simp only [TOp.run, fillBack] at hr
    rcases Arena.fillBack_cases t.inc i n with ⟨_, e⟩ | ⟨d, _, _, e⟩ | ⟨_, _, e⟩ | ⟨h1, h2, a, e, h3, h4⟩
    · rw [e] at hr; exact absurd hr (by simp [Except.map])
    · rw [e] at hr; exact absurd hr (by simp [Except.map])
    · rw [e] at hr; exact absurd hr (by simp [Except.map])
    · rw [e] at hr
      simp only [Except.map, Except.ok.injEq, Prod.mk.injEq] at hr
      obtain ⟨rfl, rfl, rfl⟩ := hr
      refine ⟨rfl, h2, ?_⟩
      simp only [pending, Pending.mk.injEq, and_true]
      exact ⟨upd_ext (Arena.eq_store h3 h4 h1), funext fun j => propext OrderSet.mem_swapRemove⟩
  | fillBackUntyped i n =>
    simp only [TOp.run, fillBackUntyped] at hr
    rcases Arena.fillBackUntyped_cases t.inc i n with ⟨_, e⟩ | ⟨h2, e⟩
    · rw [e] at hr; exact absurd hr (by simp [Except.map])
    · rw [e] at hr
      simp only [Except.map, Except.ok.injEq, Prod.mk.injEq] at hr
      obtain ⟨rfl, rfl, rfl⟩ := hr
      refine ⟨rfl, h.allocs i ho.2, ?_⟩
      simp only [pending, Pending.mk.injEq, and_true]
      exact ⟨upd_ext (Arena.store_get? _ _ _), funext fun j => propext OrderSet.mem_swapRemove⟩
  | remove i =>
    simp only [TOp.run, Except.ok.injEq, Prod.mk.injEq] at hr
    obtain ⟨rfl, rfl, rfl⟩ := hr
    refine ⟨rfl, ?_⟩
    have e1 : (t.inc.remove i).2.get? = upd t.inc.get? i none := upd_ext (Arena.remove_get? t.inc i)
    have e2 : t.inc.get? i = none → (t.inc.remove i).2.get? = t.inc.get? := by
      intro h0
      funext j
      rw [Arena.remove_get?]
      split
      · rename_i e; rw [← e, h0]
      · rfl
    rcases remove_cases t i with ⟨h1, e⟩ | ⟨h1, h2, e⟩ | ⟨h1, h2, e⟩
    · exact Or.inl ⟨h1, by rw [e]; simp [pending, e1]⟩
    · exact Or.inr (Or.inl ⟨h1, h2, by
        rw [e]
        simp only [pending, e2 h1, Pending.mk.injEq, and_true, true_and]
        exact funext fun j => propext OrderSet.mem_swapRemove⟩)
    · exact Or.inr (Or.inr ⟨h1, h2, by
        rw [e]
        simp only [pending, e2 h1, Pending.mk.injEq, and_true, true_and]
        exact funext fun j => propext OrderSet.mem_insert⟩)
  | mutate i f =>
    simp only [TOp.run] at hr
    rcases mutate_cases t i f with ⟨h1, e⟩ | ⟨n, p, _, _, e⟩ | ⟨n, n', a, h1, h2, e, h3, _⟩
    · rw [e] at hr
      simp only [Except.map, Except.ok.injEq, Prod.mk.injEq] at hr
      obtain ⟨rfl, rfl, rfl⟩ := hr
      exact ⟨rfl, Or.inl ⟨h1, rfl⟩⟩
    · rw [e] at hr; exact absurd hr (by simp [Except.map])
    · rw [e] at hr
      simp only [Except.map, Except.ok.injEq, Prod.mk.injEq] at hr
      obtain ⟨rfl, rfl, rfl⟩ := hr
      exact ⟨rfl, Or.inr ⟨n, n', h1, h2, by simp only [pending, Pending.mk.injEq, and_true]; exact upd_ext h3⟩⟩
  | update i f =>
    simp only [TOp.run] at hr
    rcases update_cases t i f with ⟨h1, e⟩ | ⟨n, p, _, _, e⟩ | ⟨n, n', a, h1, h2, e, h3, _⟩
    · rw [e] at hr
      simp only [Except.map, Except.ok.injEq, Prod.mk.injEq] at hr
      obtain ⟨rfl, rfl, rfl⟩ := hr
      exact ⟨rfl, Or.inl ⟨h1, rfl⟩⟩
    · rw [e] at hr; exact absurd hr (by simp [Except.map])
    · rw [e] at hr
      simp only [Except.map, Except.ok.injEq, Prod.mk.injEq] at hr
      obtain ⟨rfl, rfl, rfl⟩ := hr
      exact ⟨rfl, Or.inr ⟨n, n', h1, h2, by simp only [pending, Pending.mk.injEq, and_true]; exact upd_ext h3⟩⟩
  | redirectAllLinks o n =>
    simp only [TOp.run, Except.ok.injEq, Prod.mk.injEq] at hr
    obtain ⟨rfl, rfl, rfl⟩ := hr
    exact ⟨rfl, rfl⟩
  | redirectLinks o n =>
    simp only [TOp.run, Except.ok.injEq, Prod.mk.injEq] at hr
    obtain ⟨rfl, rfl, rfl⟩ := hr
    exact ⟨rfl, rfl⟩

end Trans

/-! ### Adding at the end and removing again -/

theorem alSwapRemove_last {κ ν : Type} [DecidableEq κ] {k : κ} {v : ν} {l : List (κ × ν)} (h : k ∉ l.map Prod.fst) :
    alSwapRemove k (l ++ [(k, v)]) = l := by
  induction l with
  | nil => simp [alSwapRemove, lastToFront]
  | cons e r ih =>
    simp only [List.map_cons, List.mem_cons, not_or] at h
    have h1 : ¬ e.1 = k := fun e' => h.1 e'.symm
    simp only [List.cons_append, alSwapRemove, h1, if_false, ih h.2]

theorem lSwapRemove_last {α : Type} [DecidableEq α] {a : α} {l : List α} (h : a ∉ l) : lSwapRemove a (l ++ [a]) = l := by
  induction l with
  | nil => simp [lSwapRemove, lastToFront]
  | cons e r ih =>
    simp only [List.mem_cons, not_or] at h
    have h1 : ¬ e = a := fun e' => h.1 e'.symm
    simp only [List.cons_append, lSwapRemove, h1, if_false, ih h.2]

theorem OrderMap.ext_entries {κ ν : Type} [DecidableEq κ] {m o : OrderMap κ ν} (h : m.entries = o.entries) : m = o := by
  cases m; cases o; simp only at h; subst h; rfl

theorem OrderSet.ext_elems {α : Type} [DecidableEq α] {m o : OrderSet α} (h : m.elems = o.elems) : m = o := by
  cases m; cases o; simp only at h; subst h; rfl

theorem OrderMap.swapRemove_insert {κ ν : Type} [DecidableEq κ] {m : OrderMap κ ν} {k : κ} (v : ν) (h : m.get? k = none) :
    (m.insert k v).swapRemove k = m := by
  have hk : k ∉ m.entries.map Prod.fst := OrderMap.get?_eq_none.1 h
  refine OrderMap.ext_entries ?_
  show alSwapRemove k (alSet k v m.entries) = m.entries
  rw [alSet_absent _ hk, alSwapRemove_last hk]

theorem OrderSet.swapRemove_insert {α : Type} [DecidableEq α] {s : OrderSet α} {a : α} (h : a ∉ s) : (s.insert a).swapRemove a = s := by
  refine OrderSet.ext_elems ?_
  have h' : a ∉ s.elems := h
  simp only [OrderSet.insert, h', dif_neg, not_false_iff, OrderSet.swapRemove]
  exact lSwapRemove_last h'

theorem OrderMap.swapRemove_absent {κ ν : Type} [DecidableEq κ] {m : OrderMap κ ν} {k : κ} (h : m.get? k = none) : m.swapRemove k = m := by
  have hk : k ∉ m.entries.map Prod.fst := OrderMap.get?_eq_none.1 h
  refine OrderMap.ext_entries ?_
  show alSwapRemove k m.entries = m.entries
  generalize m.entries = l at hk
  induction l with
  | nil => rfl
  | cons e r ih =>
    simp only [List.map_cons, List.mem_cons, not_or] at hk
    have h1 : ¬ e.1 = k := fun e' => hk.1 e'.symm
    simp only [alSwapRemove, h1, if_false, ih hk.2]

theorem OrderMap.insert_insert {κ ν : Type} [DecidableEq κ] (m : OrderMap κ ν) (k : κ) (v v' : ν) : (m.insert k v).insert k v' = m.insert k v' := by
  refine OrderMap.ext_entries ?_
  show alSet k v' (alSet k v m.entries) = alSet k v' m.entries
  generalize m.entries = l
  induction l with
  | nil => simp [alSet]
  | cons e r ih =>
    by_cases h : e.1 = k
    · simp [alSet, h]
    · simp [alSet, h, ih]

theorem OrderSet.insert_insert {α : Type} [DecidableEq α] (s : OrderSet α) (a : α) : (s.insert a).insert a = s.insert a := by
  have h : a ∈ (s.insert a).elems := OrderSet.mem_insert.2 (Or.inl rfl)
  generalize s.insert a = s' at h
  unfold OrderSet.insert
  rw [dif_pos h]

end TTGraph
