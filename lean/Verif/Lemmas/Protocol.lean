import Verif.Spec.Protocol
import Verif.Lemmas.History
import Verif.Lemmas.Pending

/-!
# The transaction agrees with the protocol
-/

set_option autoImplicit false

namespace TTGraph
open Spec
variable [SetImpl] {S : Schema} {dbg : Bool} {R : World → Call → Prop}

theorem Traced.reaches {w : World} {tr : Nat → List Event} (h : Traced S dbg R w tr) : Reaches S dbg R w := by
  induction h with
  | init => exact .init
  | step _ h1 h2 ih => exact ih.step h1 h2

/-- The stored data of the transaction agree with the state of the index. -/
def SlotOk (t : Trans) (i : NodeIndex) : Slot → Prop
  | .unknown => t.inc.disp.get? i = none ∧ i ∉ t.allocs
  | .untyped => t.inc.disp.get? i = none ∧ i ∈ t.allocs
  | .reserved d => t.inc.disp.get? i = some d ∧ i ∈ t.allocs
  | .filled => t.inc.get? i ≠ none

omit [SetImpl] in
theorem SlotOk.congr {t t' : Trans} {i : NodeIndex} {s : Slot} (h : SlotOk t i s) (h1 : t'.inc.disp.get? i = t.inc.disp.get? i)
    (h2 : t'.inc.get? i ≠ none ↔ t.inc.get? i ≠ none) (h3 : i ∈ t'.allocs ↔ i ∈ t.allocs) : SlotOk t' i s := by
  cases s with
  | filled => exact h2.2 h
  | _ => simpa only [SlotOk, h1, h3] using h

omit [SetImpl] in
theorem slotOk_store {t : Trans} {j : NodeIndex} {n : Node} {s : NodeIndex → Slot} (h : ∀ i, SlotOk t i (s i)) (i : NodeIndex) :
    SlotOk { t with inc := t.inc.store j n } i (if i ∈ [j] then .filled else s i) := by
  by_cases e : i = j
  · rw [if_pos (List.mem_singleton.2 e)]
    simp [SlotOk, Arena.store_get?, e]
  · rw [if_neg (fun h => e (List.mem_singleton.1 h))]
    refine (h i).congr ?_ ?_ Iff.rfl
    · simp only [Arena.store_disp]; rw [if_neg (fun h => e h.symm)]
    · simp only [Arena.store_get?]; rw [if_neg (fun h => e h.symm)]

omit [SetImpl] in
theorem slotOk_extend (l : List Node) (hl : ∀ n ∈ l, S.WT n) : ∀ {t t' : Trans} {cnt cnt' : Nat} {acc acc' : List NodeIndex}
    {s : NodeIndex → Slot}, t.Ready S → (∀ i : Nat, t.Owns i → i ≤ cnt) → (∀ i, SlotOk t i (s i)) →
    foldE (fun (st : Trans × Nat × List NodeIndex) n =>
      match st.1.insert st.2.1 n with
      | .error e => .error e
      | .ok (i, t', cnt') => .ok (t', cnt', st.2.2 ++ [i])) (t, cnt, acc) l = .ok (t', cnt', acc') →
    ∃ l', acc' = acc ++ l' ∧ ∀ i, SlotOk t' i (if i ∈ l' then .filled else s i) := by
  induction l with
  | nil =>
    intro t t' cnt cnt' acc acc' s _ _ hf h
    simp only [foldE, Except.ok.injEq, Prod.mk.injEq] at h
    obtain ⟨rfl, rfl, rfl⟩ := h
    exact ⟨[], by simp, by simpa using hf⟩
  | cons n l ih =>
    intro t t' cnt cnt' acc acc' s h hb hf he
    have g1 := Trans.insert_grown h hb (hl n (by simp))
    simp only [foldE, Trans.insert_ok h hb n] at he
    obtain ⟨l', h1, h2⟩ := ih (fun m hm => hl m (by simp [hm])) g1.ready (g1.bound hb) (fun i => slotOk_store hf i) he
    refine ⟨(cnt + 1) :: l', by simp [h1], fun i => ?_⟩
    have := h2 i
    by_cases e : i ∈ l'
    · simpa [e] using this
    · by_cases e' : i = cnt + 1
      · simpa [e, e'] using this
      · simpa [e, e'] using this

omit [SetImpl] in
theorem slotOk_run {t t' : Trans} {cnt cnt' : Nat} {l : List NodeIndex} {o : TOp} (h : t.Ready S)
    (hb : ∀ i : Nat, t.Owns i → i ≠ emptyIdx ∧ i ≤ cnt) (ho : o.Allowed S t) {s : NodeIndex → Slot} (hs : ∀ i, SlotOk t i (s i))
    (hr : o.run t cnt = .ok (t', cnt', l)) : ∀ i, SlotOk t' i (Event.slot i (s i) (.op o l)) := by
  have hb' : ∀ i : Nat, t.Owns i → i ≤ cnt := fun i hi => (hb i hi).2
  have hn : ∀ {i : NodeIndex}, i ≠ cnt + 1 → ¬ cnt + 1 = i := fun h e => h e.symm
  cases o with
  | insert n =>
    simp only [TOp.run, Trans.insert_ok h hb' n, Except.map, Except.ok.injEq, Prod.mk.injEq] at hr
    obtain ⟨rfl, rfl, rfl⟩ := hr
    exact slotOk_store hs
  | extend ns =>
    obtain ⟨l', h1, h2⟩ := slotOk_extend ns ho h hb' hs hr
    simp only [List.nil_append] at h1
    subst h1
    exact h2
  | alloc d =>
    simp only [TOp.run, Trans.alloc_ok h hb' d, Except.map, Except.ok.injEq, Prod.mk.injEq] at hr
    obtain ⟨rfl, rfl, rfl⟩ := hr
    intro i
    simp only [Event.slot, List.mem_singleton]
    by_cases e : i = cnt + 1
    · rw [if_pos e]
      simp [SlotOk, e]
    · rw [if_neg e]
      refine (hs i).congr ?_ ?_ ?_
      · simp only [OrderMap.get?_insert]; rw [if_neg (hn e)]
      · simp only [Trans.alloc_get? h hb' d i]
      · simp only [OrderSet.mem_insert]
        exact ⟨fun h => h.resolve_left e, Or.inr⟩
  | allocUntyped =>
    simp only [TOp.run, Except.ok.injEq, Prod.mk.injEq] at hr
    obtain ⟨rfl, rfl, rfl⟩ := hr
    intro i
    simp only [Event.slot, List.mem_singleton]
    by_cases e : i = (t.allocUntyped cnt).1
    · rw [if_pos e]
      have e' : i = cnt + 1 := e
      subst e'
      exact ⟨(Trans.fresh_none h hb').1, OrderSet.mem_insert.2 (Or.inl rfl)⟩
    · rw [if_neg e]
      exact (hs i).congr rfl Iff.rfl (OrderSet.mem_insert.trans ⟨fun h => h.resolve_left e, Or.inr⟩)
  | fillBack j n =>
    simp only [TOp.run, Trans.fillBack] at hr
    rcases Arena.fillBack_cases t.inc j n with ⟨_, e⟩ | ⟨d, _, _, e⟩ | ⟨_, _, e⟩ | ⟨h1, h2, a, e, h3, h4⟩
    · rw [e] at hr; exact absurd hr (by simp [Except.map])
    · rw [e] at hr; exact absurd hr (by simp [Except.map])
    · rw [e] at hr; exact absurd hr (by simp [Except.map])
    · rw [e] at hr
      simp only [Except.map, Except.ok.injEq, Prod.mk.injEq] at hr
      obtain ⟨rfl, rfl, rfl⟩ := hr
      intro i
      simp only [Event.slot]
      have hg := Arena.eq_store h3 h4 h1
      by_cases e : i = j
      · rw [if_pos e]
        simp [SlotOk, hg, e]
      · rw [if_neg e]
        refine (hs i).congr (by simp only [h4]) ?_ ?_
        · simp only [hg]; rw [if_neg (fun h => e h.symm)]
        · simp only [OrderSet.mem_swapRemove]
          exact ⟨And.left, fun h => ⟨h, e⟩⟩
  | fillBackUntyped j n =>
    simp only [TOp.run, Trans.fillBackUntyped] at hr
    rcases Arena.fillBackUntyped_cases t.inc j n with ⟨_, e⟩ | ⟨h2, e⟩
    · rw [e] at hr; exact absurd hr (by simp [Except.map])
    · rw [e] at hr
      simp only [Except.map, Except.ok.injEq, Prod.mk.injEq] at hr
      obtain ⟨rfl, rfl, rfl⟩ := hr
      intro i
      simp only [Event.slot]
      by_cases e : i = j
      · rw [if_pos e]
        simp [SlotOk, Arena.store_get?, e]
      · rw [if_neg e]
        refine (hs i).congr ?_ ?_ ?_
        · simp only [Arena.store_disp]; rw [if_neg (fun h => e h.symm)]
        · simp only [Arena.store_get?]; rw [if_neg (fun h => e h.symm)]
        · simp only [OrderSet.mem_swapRemove]
          exact ⟨And.left, fun h => ⟨h, e⟩⟩
  | remove j =>
    simp only [TOp.run, Except.ok.injEq, Prod.mk.injEq] at hr
    obtain ⟨rfl, rfl, rfl⟩ := hr
    intro i
    simp only [Event.slot]
    have hd := Arena.remove_disp t.inc j i
    have hg := Arena.remove_get? t.inc j i
    rcases Trans.remove_cases t j with ⟨h1, e⟩ | ⟨h1, h2, e⟩ | ⟨h1, h2, e⟩
    · rw [e]
      by_cases e' : i = j
      · rw [if_pos e']
        refine ⟨by simp only [hd]; rw [if_pos e'.symm], fun hm => h1 ?_⟩
        rw [← e']; exact h.allocs i hm
      · rw [if_neg (fun h => e' h.symm)] at hd hg
        rw [if_neg e']
        exact (hs i).congr hd (by simp only [hg]) Iff.rfl
    · rw [e]
      by_cases e' : i = j
      · rw [if_pos e']
        exact ⟨by simp only [hd]; rw [if_pos e'.symm], by simp [e']⟩
      · rw [if_neg (fun h => e' h.symm)] at hd hg
        rw [if_neg e']
        exact (hs i).congr hd (by simp only [hg]) (OrderSet.mem_swapRemove.trans ⟨And.left, fun h => ⟨h, e'⟩⟩)
    · rw [e]
      by_cases e' : i = j
      · rw [if_pos e']
        exact ⟨by simp only [hd]; rw [if_pos e'.symm], by simpa [e'] using h2⟩
      · rw [if_neg (fun h => e' h.symm)] at hd hg
        rw [if_neg e']
        exact (hs i).congr hd (by simp only [hg]) Iff.rfl
  | mutate j f =>
    simp only [TOp.run] at hr
    rcases Trans.mutate_cases t j f with ⟨h1, e⟩ | ⟨n, p, _, _, e⟩ | ⟨n, n', a, h1, h2, e, h3, h4, _⟩
    · rw [e] at hr
      simp only [Except.map, Except.ok.injEq, Prod.mk.injEq] at hr
      obtain ⟨rfl, rfl, rfl⟩ := hr
      exact hs
    · rw [e] at hr; exact absurd hr (by simp [Except.map])
    · rw [e] at hr
      simp only [Except.map, Except.ok.injEq, Prod.mk.injEq] at hr
      obtain ⟨rfl, rfl, rfl⟩ := hr
      refine fun i => (hs i).congr (by simp only [h4]) ?_ Iff.rfl
      simp only [h3]
      split
      · rename_i e; simp [← e, h1]
      · exact Iff.rfl
  | update j f =>
    simp only [TOp.run] at hr
    rcases Trans.update_cases t j f with ⟨h1, e⟩ | ⟨n, p, _, _, e⟩ | ⟨n, n', a, h1, h2, e, h3, h4, _⟩
    · rw [e] at hr
      simp only [Except.map, Except.ok.injEq, Prod.mk.injEq] at hr
      obtain ⟨rfl, rfl, rfl⟩ := hr
      exact hs
    · rw [e] at hr; exact absurd hr (by simp [Except.map])
    · rw [e] at hr
      simp only [Except.map, Except.ok.injEq, Prod.mk.injEq] at hr
      obtain ⟨rfl, rfl, rfl⟩ := hr
      refine fun i => (hs i).congr (by simp only [h4]) ?_ Iff.rfl
      simp only [h3]
      split
      · rename_i e; simp [← e, h1]
      · exact Iff.rfl
  | redirectAllLinks o n =>
    simp only [TOp.run, Except.ok.injEq, Prod.mk.injEq] at hr
    obtain ⟨rfl, rfl, rfl⟩ := hr
    exact hs
  | redirectLinks o n =>
    simp only [TOp.run, Except.ok.injEq, Prod.mk.injEq] at hr
    obtain ⟨rfl, rfl, rfl⟩ := hr
    exact hs

omit [SetImpl] in
theorem slotAfter_append (tr : List Event) (e : Event) (i : NodeIndex) : slotAfter (tr ++ [e]) i = e.slot i (slotAfter tr i) := by
  simp [slotAfter]

/-- All transactions of a world agree with their traces. -/
def Slots (w : World) (tr : Nat → List Event) : Prop := ∀ k c t, w.trans k = some (c, t) → ∀ i, SlotOk t i (slotAfter (tr k) i)

omit [SetImpl] in
theorem Slots.drop {w : World} {tr : Nat → List Event} (h : Slots w tr) (k : Nat) : Slots (w.setTrans k none) tr := by
  intro k' c t ht
  simp only [World.setTrans, World.put] at ht
  split at ht
  · exact absurd ht (by simp)
  · exact h k' c t ht

omit [SetImpl] in
theorem Slots.set {w : World} {tr : Nat → List Event} (h : Slots w tr) {k c : Nat} {t : Trans} {l : List Event}
    (ht : ∀ i, SlotOk t i (slotAfter l i)) : Slots (w.setTrans k (some (c, t))) (World.put tr k l) := by
  intro k' c' t' ht'
  simp only [World.setTrans, World.put] at ht' ⊢
  split at ht'
  · simp only [Option.some.injEq, Prod.mk.injEq] at ht'
    obtain ⟨rfl, rfl⟩ := ht'
    rename_i e
    simpa [e] using ht
  · rename_i e
    simpa [e] using h k' c' t' ht'

theorem Traced.slots (hw : WellNamed S) (hR : ∀ w k g, R w (.merge k g) → dbg = true) {w : World} {tr : Nat → List Event}
    (h : Traced S dbg R w tr) : Slots w tr := by
  induction h with
  | init => exact fun k c t ht => absurd ht (by simp [World.init])
  | @step w tr call ht0 ha hr ih =>
    have hreach := ht0.reaches
    cases call with
    | newContext c u => exact ih
    | defaultContext c => exact ih
    | newGraph g c => simp only [World.exec]; split <;> exact ih
    | newTrans k c =>
      simp only [World.exec, record]
      split
      · exact ih.set fun i => by simp [slotAfter, SlotOk, Trans.new, Arena.new]
      · intro k' c' t' ht'
        have hk : k' ≠ k := by
          rintro rfl
          have : w.trans k' = none := ha
          rw [this] at ht'
          exact absurd ht' (by simp)
        simpa [World.put, hk] using ih k' c' t' ht'
    | op k o =>
      simp only [World.exec, record]
      cases ht : w.trans k with
      | none => exact ih
      | some ct =>
        obtain ⟨c, t⟩ := ct
        cases hx : w.ctx c with
        | none => simp only [hx]; exact ih
        | some x =>
          cases hrun : o.run t x.cnt with
          | error e => simp only [hx, hrun]; exact ih.drop k
          | ok r =>
            obtain ⟨t', cnt, l⟩ := r
            simp only [hx, hrun]
            obtain ⟨h1, h2⟩ := Building.ready hw ⟨w, k, c, x, hreach, ht, hx, rfl⟩
            have := slotOk_run h1 h2 (ha c t ht) (ih k c t ht) hrun
            exact Slots.set (w := w.issue c x cnt l) ih fun i => by rw [slotAfter_append]; exact this i
    | merge k g =>
      simp only [World.exec, record]
      cases ht : w.trans k with
      | none =>
        cases hg : w.graph g with
        | none => exact ih
        | some cg =>
          intro k' c' t' ht'
          have hk : k' ≠ k := by
            rintro rfl
            have ht'' : w.trans k' = some (c', t') := ht'
            rw [ht] at ht''
            exact absurd ht'' (by simp)
          simpa [World.put, hk] using ih k' c' t' ht'
      | some ct =>
        obtain ⟨c, t⟩ := ct
        cases hg : w.graph g with
        | none => exact ih
        | some cg =>
          obtain ⟨c', gr⟩ := cg
          have := ha c t c' gr ht hg
          subst this
          cases hm : t.merge gr with
          | error e =>
            simp only [hm]
            intro k' c' t' ht'
            have hk : k' ≠ k := by
              rintro rfl
              exact absurd ht' (by simp [World.setGraph, World.setTrans, World.put])
            simp only [World.setGraph, World.setTrans, World.put, if_neg hk] at ht'
            simpa [World.put, hk] using ih k' c' t' ht'
          | ok t' =>
            simp only [hm]
            have hd := hR w k g hr
            subst hd
            have hmeet : Meets S true R gr t := ⟨w, g, k, c, hreach, hg, ht⟩
            have hfull := (full_closed hw).meets hmeet
            unfold Trans.merge at hm
            split at hm
            · simp only [Except.ok.injEq] at hm
              subst hm
              obtain ⟨_, _, h3⟩ := hmeet.disjoint hw
              have hdis : t.inc.Disjoint gr.nodes := by
                intro i hi
                by_contra hne
                exact h3 i (Or.inl hne) hi
              refine Slots.set (w := w.setGraph g none) ih fun i => ?_
              rw [slotAfter_append]
              simp only [Event.slot]
              cases hgi : gr.nodes.disp.get? i with
              | some d =>
                obtain ⟨n, hn⟩ := Option.ne_none_iff_exists'.1 (hfull.1 i (by simp [hgi]))
                rw [if_pos (by simp [hn])]
                simp only [SlotOk, Arena.merge_get? (hmeet.ready hw).good.inv (hmeet.inv hw).arena hdis]
                simp only [Graph.get?] at hn
                simp [hn]
              | none =>
                have : gr.get? i = none := Arena.get?_of_disp_none hgi
                rw [if_neg (by simp [this])]
                refine (ih k c t ht i).congr ?_ ?_ Iff.rfl
                · simp only [Arena.merge_disp, hgi, none_alt]
                · simp only [Arena.merge_get? (hmeet.ready hw).good.inv (hmeet.inv hw).arena hdis]
                  simp only [Graph.get?] at this
                  rw [this, none_alt]
            · exact absurd hm (by simp)
    | commit g k =>
      simp only [World.exec, record]
      split
      · split <;> exact ih.drop k
      · exact ih
    | commitChecked g k checks =>
      simp only [World.exec, record]
      split
      · split <;> exact ih.drop k
      · exact ih
    | commitCaught g k =>
      simp only [World.exec, record]
      split
      · exact ih.drop k
      · exact ih
    | dropTrans k => exact ih.drop k
    | dropGraph g => exact ih
    | switchContext g c =>
      simp only [World.exec, record]
      split
      · split
        · exact ih
        · split <;> exact ih
      · exact ih
    | deserialize g c input =>
      simp only [World.exec, record]
      split <;> exact ih

end TTGraph
