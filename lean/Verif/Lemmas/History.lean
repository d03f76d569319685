import Verif.Lemmas.Meets
import Verif.Lemmas.Frame

/-!
# Induction over histories
-/

set_option autoImplicit false

namespace TTGraph
open Spec
variable [SetImpl] {S : Schema} {dbg : Bool} {R : World → Call → Prop}

theorem Building.ready (hw : WellNamed S) {t : Trans} {cnt : Nat} (h : Building S dbg R t cnt) :
    t.Ready S ∧ ∀ i : Nat, t.Owns i → i ≠ emptyIdx ∧ i ≤ cnt := by
  obtain ⟨w, k, c, x, hr, ht, hx, rfl⟩ := h
  have hi := hr.inv hw
  obtain ⟨_, _, _, h1⟩ := hi.trans k c t ht
  refine ⟨h1, fun i hi' => ?_⟩
  obtain ⟨x', hx', h2⟩ := hi.bound (.inr k) c i ⟨t, ht, hi'⟩
  rw [hx] at hx'
  simp only [Option.some.injEq] at hx'
  subst hx'
  exact h2

/-- Properties of graphs and transactions that every call preserves. -/
structure Closed (S : Schema) (dbg : Bool) (R : World → Call → Prop) (PG : Graph → Prop) (PT : Trans → Prop) : Prop where
  newGraph : ∀ u, PG (Graph.new u)
  newTrans : ∀ u, PT (Trans.new u)
  op : ∀ {w k o t t' cnt cnt' l}, Reaches S dbg R w → Building S dbg R t cnt → (∃ c, w.trans k = some (c, t)) → R w (.op k o) → o.Allowed S t →
    PT t → o.run t cnt = .ok (t', cnt', l) → PT t'
  merge : ∀ {w k h g t t'}, Reaches S dbg R w → Meets S dbg R g t → R w (.merge k h) → (∃ c, w.graph h = some (c, g)) →
    (∃ c, w.trans k = some (c, t)) → PG g → PT t → t.merge g = .ok t' → PT t'
  commit : ∀ {w k h g g' t}, Reaches S dbg R w → Meets S dbg R g t → R w (.commit h k) ∨ (∃ cs, R w (.commitChecked h k cs)) →
    (∃ c, w.graph h = some (c, g)) → (∃ c, w.trans k = some (c, t)) → PG g → PT t → g.commit S dbg t = .ok g' → PG g'
  caught : ∀ {w k h g g' t}, Reaches S dbg R w → Meets S dbg R g t → R w (.commitCaught h k) → (∃ c, w.graph h = some (c, g)) →
    (∃ c, w.trans k = some (c, t)) → PG g → PT t → g.commitLeft S dbg t = some g' → PG g'
  switch : ∀ {w h c g g' u cnt cnt'}, Reaches S dbg R w → Reachable S dbg R g → R w (.switchContext h c) → (∃ c, w.graph h = some (c, g)) →
    PG g → g.switchContext S u cnt = .ok (g', cnt') → PG g'
  deserialize : ∀ {w h c input cnt g}, Reaches S dbg R w → R w (.deserialize h c input) → (∀ e ∈ input.nodes, e.1 ≠ emptyIdx ∧ S.WT e.2) →
    Graph.deserializeGraph S input = .ok (cnt, g) → PG g

/-- The two properties in a world. -/
def Everywhere (PG : Graph → Prop) (PT : Trans → Prop) (w : World) : Prop :=
  (∀ h c g, w.graph h = some (c, g) → PG g) ∧ ∀ k c t, w.trans k = some (c, t) → PT t

omit [SetImpl] in
theorem Everywhere.setGraph {PG : Graph → Prop} {PT : Trans → Prop} {w : World} (h : Everywhere PG PT w) (k : Nat) (o : Option (Nat × Graph))
    (ho : ∀ p, o = some p → PG p.2) : Everywhere PG PT (w.setGraph k o) := by
  refine ⟨fun j c g hg => ?_, h.2⟩
  simp only [World.setGraph, World.put] at hg
  split at hg
  · exact ho _ hg
  · exact h.1 j c g hg

omit [SetImpl] in
theorem Everywhere.setTrans {PG : Graph → Prop} {PT : Trans → Prop} {w : World} (h : Everywhere PG PT w) (k : Nat) (o : Option (Nat × Trans))
    (ho : ∀ p, o = some p → PT p.2) : Everywhere PG PT (w.setTrans k o) := by
  refine ⟨h.1, fun j c t ht => ?_⟩
  simp only [World.setTrans, World.put] at ht
  split at ht
  · exact ho _ ht
  · exact h.2 j c t ht

omit [SetImpl] in
theorem some_inj {α : Type} {P : α → Prop} {a : α} (h : P a) : ∀ p, some a = some p → P p := by
  intro p hp
  simp only [Option.some.injEq] at hp
  exact hp ▸ h

omit [SetImpl] in
theorem none_inj {α : Type} {P : α → Prop} : ∀ p, none = some p → P p := fun _ h => absurd h (by simp)

/-- Induction over histories. -/
theorem Closed.reaches {PG : Graph → Prop} {PT : Trans → Prop} (hc : Closed S dbg R PG PT) {w : World} (h : Reaches S dbg R w) :
    Everywhere PG PT w := by
  induction h with
  | init => exact ⟨fun h c g hg => absurd hg (by simp [World.init]), fun h c g hg => absurd hg (by simp [World.init])⟩
  | @step w call hr ha hR ih =>
    cases call with
    | newContext c u => exact ih
    | defaultContext c => exact ih
    | newGraph g c =>
      simp only [World.exec]
      split
      · exact ih.setGraph _ _ (some_inj (hc.newGraph _))
      · exact ih
    | newTrans k c =>
      simp only [World.exec]
      split
      · exact ih.setTrans _ _ (some_inj (hc.newTrans _))
      · exact ih
    | op k o =>
      simp only [World.exec]
      split
      · rename_i c t ht
        split
        · rename_i x hx
          split
          · rename_i t' cnt l hrun
            exact Everywhere.setTrans (w := w.issue c x cnt l) ih _ _
              (some_inj (hc.op hr ⟨w, k, c, x, hr, ht, hx, rfl⟩ ⟨c, ht⟩ hR (ha c t ht) (ih.2 k c t ht) hrun))
          · exact ih.setTrans _ _ none_inj
        · exact ih
      · exact ih
    | merge k g =>
      simp only [World.exec]
      split
      · rename_i c t c' gr ht hg
        have := ha c t c' gr ht hg
        subst this
        split
        · rename_i t' hm
          exact (ih.setTrans _ _ (some_inj (hc.merge hr ⟨w, g, k, c, hr, hg, ht⟩ hR ⟨c, hg⟩ ⟨c, ht⟩ (ih.1 g c gr hg) (ih.2 k c t ht) hm))).setGraph _ _ none_inj
        · exact (ih.setTrans _ _ none_inj).setGraph _ _ none_inj
      · exact ih
    | commit g k =>
      simp only [World.exec]
      split
      · rename_i c t c' gr ht hg
        have := ha c t c' gr ht hg
        subst this
        split
        · rename_i gr' hm
          exact (ih.setTrans _ _ none_inj).setGraph _ _ (some_inj (hc.commit hr ⟨w, g, k, c, hr, hg, ht⟩ (Or.inl hR) ⟨c, hg⟩ ⟨c, ht⟩ (ih.1 g c gr hg) (ih.2 k c t ht) hm))
        · exact (ih.setTrans _ _ none_inj).setGraph _ _ none_inj
      · exact ih
    | commitChecked g k checks =>
      simp only [World.exec]
      split
      · rename_i c t c' gr ht hg
        have := ha c t c' gr ht hg
        subst this
        split
        · rename_i gr' hm
          exact (ih.setTrans _ _ none_inj).setGraph _ _ (some_inj (hc.commit hr ⟨w, g, k, c, hr, hg, ht⟩ (Or.inr ⟨checks, hR⟩) ⟨c, hg⟩ ⟨c, ht⟩ (ih.1 g c gr hg) (ih.2 k c t ht)
            (Graph.commit_of_checked hm)))
        · exact (ih.setTrans _ _ none_inj).setGraph _ _ none_inj
      · exact ih
    | commitCaught g k =>
      simp only [World.exec]
      split
      · rename_i c t c' gr ht hg
        have := ha c t c' gr ht hg
        subst this
        refine (ih.setTrans _ _ none_inj).setGraph _ _ fun p hp => ?_
        obtain ⟨gr', hl, rfl⟩ := Option.map_eq_some_iff.1 hp
        exact hc.caught hr ⟨w, g, k, c, hr, hg, ht⟩ hR ⟨c, hg⟩ ⟨c, ht⟩ (ih.1 g c gr hg) (ih.2 k c t ht) hl
      · exact ih
    | dropTrans k => exact ih.setTrans _ _ none_inj
    | dropGraph g => exact ih.setGraph _ _ none_inj
    | switchContext g c =>
      simp only [World.exec]
      split
      · rename_i c0 gr x hg hx
        split
        · exact ih.setGraph _ _ none_inj
        · rename_i a idMap cnt _
          have ih' : Everywhere PG PT (w.issue c x cnt (idMap.entries.map Prod.snd)) := ih
          split
          · rename_i gr' cnt' hs
            exact ih'.setGraph _ _ (some_inj (hc.switch hr ⟨w, g, c0, hr, hg⟩ hR ⟨c0, hg⟩ (ih.1 g c0 gr hg) hs))
          · exact ih'.setGraph _ _ none_inj
      · exact ih
    | deserialize g c input =>
      simp only [World.exec]
      split
      · rename_i cnt gr hd
        exact Everywhere.setGraph (w := w.addCtx c input.ctxId cnt) ih _ _ (some_inj (hc.deserialize hr hR ha.2.2 hd))
      · exact ih

theorem Closed.reachable {PG : Graph → Prop} {PT : Trans → Prop} (hc : Closed S dbg R PG PT) {g : Graph} (h : Reachable S dbg R g) : PG g := by
  obtain ⟨w, k, c, hr, hg⟩ := h
  exact (hc.reaches hr).1 k c g hg

theorem Closed.meets {PG : Graph → Prop} {PT : Trans → Prop} (hc : Closed S dbg R PG PT) {g : Graph} {t : Trans} (h : Meets S dbg R g t) :
    PG g ∧ PT t := by
  obtain ⟨w, k, k', c, hr, hg, ht⟩ := h
  exact ⟨(hc.reaches hr).1 k c g hg, (hc.reaches hr).2 k' c t ht⟩

theorem Closed.building {PG : Graph → Prop} {PT : Trans → Prop} (hc : Closed S dbg R PG PT) {t : Trans} {cnt : Nat}
    (h : Building S dbg R t cnt) : PT t := by
  obtain ⟨w, k, c, x, hr, ht, _, _⟩ := h
  exact (hc.reaches hr).2 k c t ht

/-- `switch_context` that returns. -/
theorem switch_ok (hw : WellNamed S) {g g' : Graph} {e0 : Prop} (h : g.Inv S e0) {u cnt cnt' : Nat}
    (hs : g.switchContext S u cnt = .ok (g', cnt')) :
    ∃ a0 idMap a, Graph.SwitchIn S (g.iter S) cnt (a0, idMap, cnt + (g.iter S).length) ∧ (∀ i, idMap.get? i ≠ none ↔ g.get? i ≠ none) ∧
      (∀ i i' j, idMap.get? i = some j → idMap.get? i' = some j → i = i') ∧ (∀ i j : Nat, idMap.get? i = some j → cnt < j ∧ j ≤ cnt') ∧
      Graph.Moved S g idMap a0 (Graph.LostIn g idMap idMap.keys) (fun _ _ u => idMap.get? u ≠ none) a ∧ Graph.LoadOut S u a g' ∧ cnt' = cnt + (g.iter S).length ∧
      (∀ x m y n, y ≠ emptyIdx → View.Link a.get? x m y → S.kind? m ≠ some .vec → a.get? y = some n → S.checkLinkType n.disc m = true) := by
  obtain ⟨a0, idMap, a, h1, h2, h3, h4, h5, h6, h7⟩ := Graph.switchNodes_ok hw.variants h cnt
  obtain ⟨rfl, h9, h10⟩ := Graph.switchContext_ok hw h h2 h3 h7 hs
  exact ⟨a0, idMap, a, h2, h4, h5, h6, h7, h9, rfl, h10⟩

/-- `deserialize_graph` that returns. -/
theorem deserialize_ok (hw : WellNamed S) {input : GraphSerializer} (hin : ∀ e ∈ input.nodes, e.1 ≠ emptyIdx ∧ S.WT e.2)
    {cnt : Nat} {g : Graph} (hd : Graph.deserializeGraph S input = .ok (cnt, g)) :
    (input.nodes.map Prod.fst).Nodup ∧ cnt = Graph.maxIndex input.nodes ∧ ∃ a, Arena.FromIter S input.nodes a ∧ a.Inv S ∧
      Graph.LoadOut S input.ctxId a g := Graph.deserializeGraph_ok hw hin hd

/-! ### In the debug profile, allocated indices of a graph are nodes -/

/-- Every index that the dispatcher of the graph knows is a node. -/
def Graph.Full (g : Graph) : Prop := ∀ i, g.nodes.disp.get? i ≠ none → g.get? i ≠ none

/-- Every index that the dispatcher of the transaction knows is a node or unfilled. -/
def Trans.Full (t : Trans) : Prop := ∀ i, t.inc.disp.get? i ≠ none → t.inc.get? i ≠ none ∨ i ∈ t.allocs

omit [SetImpl] in
theorem Trans.insert_full {t : Trans} (h : t.Full) (i : NodeIndex) (n : Node) : ({ t with inc := t.inc.store i n } : Trans).Full := by
  intro j hj
  simp only [Arena.store_disp] at hj
  rw [Arena.store_get?]
  by_cases e : i = j
  · left; simp [e]
  · rw [if_neg e] at hj ⊢; exact h j hj

omit [SetImpl] in
theorem Trans.extend_full (l : List Node) (hl : ∀ n ∈ l, S.WT n) : ∀ {t t' : Trans} {cnt cnt' : Nat} {acc acc' : List NodeIndex}, t.Ready S →
    (∀ i : Nat, t.Owns i → i ≤ cnt) → t.Full → foldE (fun (st : Trans × Nat × List NodeIndex) n =>
      match st.1.insert st.2.1 n with
      | .error e => .error e
      | .ok (i, t', cnt') => .ok (t', cnt', st.2.2 ++ [i])) (t, cnt, acc) l = .ok (t', cnt', acc') → t'.Full := by
  induction l with
  | nil =>
    intro t t' cnt cnt' acc acc' _ _ hf h
    simp only [foldE, Except.ok.injEq, Prod.mk.injEq] at h
    obtain ⟨rfl, rfl, rfl⟩ := h
    exact hf
  | cons n l ih =>
    intro t t' cnt cnt' acc acc' h hb hf he
    have g1 := insert_grown h hb (hl n (by simp))
    simp only [foldE, insert_ok h hb n] at he
    exact ih (fun m hm => hl m (by simp [hm])) g1.ready (g1.bound hb) (insert_full hf _ _) he

omit [SetImpl] in
theorem Trans.run_full {t t' : Trans} {cnt cnt' : Nat} {l : List NodeIndex} {o : TOp} (h : t.Ready S)
    (hb : ∀ i : Nat, t.Owns i → i ≠ emptyIdx ∧ i ≤ cnt) (ho : o.Allowed S t) (hf : t.Full) (hr : o.run t cnt = .ok (t', cnt', l)) : t'.Full := by
  have hb' : ∀ i : Nat, t.Owns i → i ≤ cnt := fun i hi => (hb i hi).2
  cases o with
  | insert n =>
    simp only [TOp.run, insert_ok h hb' n, Except.map, Except.ok.injEq, Prod.mk.injEq] at hr
    obtain ⟨rfl, rfl, rfl⟩ := hr
    exact insert_full hf _ _
  | extend ns => exact extend_full ns ho h hb' hf hr
  | alloc d =>
    simp only [TOp.run, alloc_ok h hb' d, Except.map, Except.ok.injEq, Prod.mk.injEq] at hr
    obtain ⟨rfl, rfl, rfl⟩ := hr
    intro j hj
    simp only [OrderMap.get?_insert] at hj
    show _ ∨ j ∈ t.allocs.insert (cnt + 1)
    rw [alloc_get? h hb' d j, OrderSet.mem_insert]
    by_cases e : cnt + 1 = j
    · exact Or.inr (Or.inl e.symm)
    · rw [if_neg e] at hj
      exact (hf j hj).imp id Or.inr
  | allocUntyped =>
    simp only [TOp.run, Except.ok.injEq, Prod.mk.injEq] at hr
    obtain ⟨rfl, rfl, rfl⟩ := hr
    exact fun j hj => (hf j hj).imp id fun h => OrderSet.mem_insert.2 (Or.inr h)
  | fillBack i n =>
    simp only [TOp.run, fillBack] at hr
    rcases Arena.fillBack_cases t.inc i n with ⟨_, e⟩ | ⟨d, _, _, e⟩ | ⟨_, _, e⟩ | ⟨h1, h2, a, e, h3, h4⟩
    · rw [e] at hr; exact absurd hr (by simp [Except.map])
    · rw [e] at hr; exact absurd hr (by simp [Except.map])
    · rw [e] at hr; exact absurd hr (by simp [Except.map])
    · rw [e] at hr
      simp only [Except.map, Except.ok.injEq, Prod.mk.injEq] at hr
      obtain ⟨rfl, rfl, rfl⟩ := hr
      intro j hj
      show _ ∨ j ∈ t.allocs.swapRemove i
      simp only [h4] at hj
      rw [Arena.eq_store h3 h4 h1, OrderSet.mem_swapRemove]
      by_cases e : i = j
      · left; simp [e]
      · rw [if_neg e]
        exact (hf j hj).imp id fun h => ⟨h, fun e' => e e'.symm⟩
  | fillBackUntyped i n =>
    simp only [TOp.run, fillBackUntyped] at hr
    rcases Arena.fillBackUntyped_cases t.inc i n with ⟨_, e⟩ | ⟨h2, e⟩
    · rw [e] at hr; exact absurd hr (by simp [Except.map])
    · rw [e] at hr
      simp only [Except.map, Except.ok.injEq, Prod.mk.injEq] at hr
      obtain ⟨rfl, rfl, rfl⟩ := hr
      intro j hj
      show _ ∨ j ∈ t.allocs.swapRemove i
      simp only [Arena.store_disp] at hj
      rw [Arena.store_get?, OrderSet.mem_swapRemove]
      by_cases e : i = j
      · left; simp [e]
      · rw [if_neg e] at hj ⊢
        exact (hf j hj).imp id fun h => ⟨h, fun e' => e e'.symm⟩
  | remove i =>
    simp only [TOp.run, Except.ok.injEq, Prod.mk.injEq] at hr
    obtain ⟨rfl, rfl, rfl⟩ := hr
    have key : ∀ j, (t.inc.remove i).2.disp.get? j ≠ none → j ≠ i ∧ ((t.inc.remove i).2.get? j ≠ none ∨ j ∈ t.allocs) := by
      intro j hj
      rw [Arena.remove_disp] at hj
      rw [Arena.remove_get?]
      by_cases e : i = j
      · simp [e] at hj
      · rw [if_neg e] at hj ⊢
        exact ⟨fun e' => e e'.symm, hf j hj⟩
    rcases remove_cases t i with ⟨_, e⟩ | ⟨_, _, e⟩ | ⟨_, _, e⟩
    · rw [e]; exact fun j hj => (key j hj).2
    · rw [e]; exact fun j hj => (key j hj).2.imp id fun h => OrderSet.mem_swapRemove.2 ⟨h, (key j hj).1⟩
    · rw [e]; exact fun j hj => (key j hj).2
  | mutate i f =>
    simp only [TOp.run] at hr
    rcases mutate_cases t i f with ⟨h1, e⟩ | ⟨n, p, _, _, e⟩ | ⟨n, n', a, h1, h2, e, h3, h4, _⟩
    · rw [e] at hr
      simp only [Except.map, Except.ok.injEq, Prod.mk.injEq] at hr
      obtain ⟨rfl, rfl, rfl⟩ := hr
      exact hf
    · rw [e] at hr; exact absurd hr (by simp [Except.map])
    · rw [e] at hr
      simp only [Except.map, Except.ok.injEq, Prod.mk.injEq] at hr
      obtain ⟨rfl, rfl, rfl⟩ := hr
      intro j hj
      show a.get? j ≠ none ∨ _
      simp only [h4] at hj
      rw [h3]
      split
      · left; simp
      · exact hf j hj
  | update i f =>
    simp only [TOp.run] at hr
    rcases update_cases t i f with ⟨h1, e⟩ | ⟨n, p, _, _, e⟩ | ⟨n, n', a, h1, h2, e, h3, h4, _⟩
    · rw [e] at hr
      simp only [Except.map, Except.ok.injEq, Prod.mk.injEq] at hr
      obtain ⟨rfl, rfl, rfl⟩ := hr
      exact hf
    · rw [e] at hr; exact absurd hr (by simp [Except.map])
    · rw [e] at hr
      simp only [Except.map, Except.ok.injEq, Prod.mk.injEq] at hr
      obtain ⟨rfl, rfl, rfl⟩ := hr
      intro j hj
      show a.get? j ≠ none ∨ _
      simp only [h4] at hj
      rw [h3]
      split
      · left; simp
      · exact hf j hj
  | redirectAllLinks o n =>
    simp only [TOp.run, Except.ok.injEq, Prod.mk.injEq] at hr
    obtain ⟨rfl, rfl, rfl⟩ := hr
    exact hf
  | redirectLinks o n =>
    simp only [TOp.run, Except.ok.injEq, Prod.mk.injEq] at hr
    obtain ⟨rfl, rfl, rfl⟩ := hr
    exact hf

theorem perform_debug {g g' : Graph} {t : Trans} (hc : g.commit S true t = .ok g') (i : NodeIndex) : i ∉ t.allocs :=
  OrderSet.isEmpty_iff.1 ((Graph.perform_of_commit hc).2.1 rfl) i

omit [SetImpl] in
theorem LoadOut.none_iff {c : Nat} {a : Arena} {g : Graph} (h : Graph.LoadOut S c a g) (j : NodeIndex) : g.get? j = none ↔ a.get? j = none :=
  h.same.none_iff j

omit [SetImpl] in
theorem CommitOut.none_iff {e0 : Prop} {t : Trans} {g g' : Graph} {v6 : View} (h : Graph.CommitOut S e0 t g g' v6) (j : NodeIndex) :
    g'.get? j = none ↔ (g.get? j = none ∧ t.inc.get? j = none) ∨ j ∈ t.dec.elems :=
  (h.same.none_iff j).trans (performed_none h.performed j)

theorem full_closed (hw : WellNamed S) : Closed S true R Graph.Full Trans.Full where
  newGraph u i hi := absurd hi (by simp [Graph.new, Arena.new])
  newTrans u i hi := absurd hi (by simp [Trans.new, Arena.new])
  op := by
    intro w k o t t' cnt cnt' l _ hb _ _ ho hf hr
    obtain ⟨h1, h2⟩ := hb.ready hw
    exact Trans.run_full h1 h2 ho hf hr
  merge := by
    intro w k h g t t' _ hm _ _ _ hg ht he
    unfold Trans.merge at he
    split at he
    · simp only [Except.ok.injEq] at he
      subst he
      obtain ⟨h1, _, h3⟩ := hm.disjoint hw
      have hdis : t.inc.Disjoint g.nodes := by
        intro i hi
        by_contra hne
        exact h3 i (Or.inl hne) hi
      intro i hi
      simp only [Arena.merge_disp] at hi
      simp only [Arena.merge_get? (hm.ready hw).good.inv (hm.inv hw).arena hdis]
      cases hgi : g.nodes.disp.get? i with
      | some d =>
        have := hg i (by simp [hgi])
        obtain ⟨n, hn⟩ := Option.ne_none_iff_exists'.1 this
        exact Or.inl (by simp only [Graph.get?] at hn; simp [hn])
      | none =>
        rw [hgi, none_alt] at hi
        rw [Arena.get?_of_disp_none hgi, none_alt]
        exact ht i hi
    · exact absurd he (by simp)
  commit := by
    intro w k h g g' t _ hm _ _ _ hg ht he
    obtain ⟨v6, out⟩ := hm.commit hw he
    intro i hi
    rw [out.disp] at hi
    intro hn
    rw [CommitOut.none_iff out] at hn
    rcases hn with ⟨h1, h2⟩ | h1
    · split at hi
      · exact hi rfl
      · cases hti : t.inc.disp.get? i with
        | some d =>
          rcases ht i (by simp [hti]) with h3 | h3
          · exact h3 h2
          · exact perform_debug he i h3
        | none =>
          rw [hti, none_alt] at hi
          exact hg i hi h1
    · rw [if_pos h1] at hi; exact hi rfl
  caught := by
    intro w k h g g' t _ hm _ _ _ hg ht he
    obtain ⟨out, hal⟩ := hm.left hw he
    rcases hal with rfl | hal | hal
    · exact hg
    · exact absurd hal (by simp)
    · intro i hi hn
      rcases out.full i hi hn with ⟨h1, h2⟩ | ⟨h1, h2⟩
      · rcases ht i h1 with h3 | h3
        · exact h3 h2
        · have h4 : i ∈ t.allocs.elems := h3
          simp only [OrderSet.isEmpty, List.isEmpty_iff] at hal
          rw [hal] at h4
          exact absurd h4 (by simp)
      · exact hg i h1 h2
  switch := by
    intro w h c g g' u cnt cnt' _ hr _ _ _ he
    obtain ⟨a0, idMap, a, h1, h2, h3, h4, h5, h6, h7, _⟩ := switch_ok hw (hr.inv hw) he
    intro j hj
    rw [h6.disp, h5.disp] at hj
    obtain ⟨hj1, hj2⟩ := (h1.disp j).1 hj
    rw [Ne, LoadOut.none_iff h6, h5.absent]
    simp only at hj2
    obtain ⟨p, hp⟩ : ∃ p : Nat, j = Graph.newIndex cnt p := Nat.exists_eq_add_of_le hj1
    have hlt : p < (g.iter S).length := by
      rw [hp] at hj2
      have h2 : cnt + 1 + p ≤ cnt + (g.iter S).length := hj2
      omega
    have := (h1.get j _).2 ⟨p, ((g.iter S)[p]).1, List.getElem?_eq_getElem hlt, hp⟩
    simp only at this
    rw [this]
    simp
  deserialize := by
    intro w h c input cnt g _ _ hin hd
    obtain ⟨_, _, a, h1, h2, h3⟩ := deserialize_ok hw hin hd
    intro j hj
    rw [h3.disp, h1.disp] at hj
    rw [Ne, LoadOut.none_iff h3]
    obtain ⟨⟨j', n⟩, hm, rfl⟩ := List.mem_map.1 hj
    rw [(h1.get j' n).2 hm]
    simp

/-! ### If closures keep variants, every node is in the container of its variant -/

/-- Every node of the transaction is in the container of its variant and the stored closures keep variants. -/
def Trans.Typed (t : Trans) : Prop := t.inc.Typed ∧ ∀ p ∈ t.muts ++ t.upds, Closure.KeepsVariant p.2

omit [SetImpl] in
theorem Trans.extend_typed (l : List Node) (hl : ∀ n ∈ l, S.WT n) : ∀ {t t' : Trans} {cnt cnt' : Nat} {acc acc' : List NodeIndex}, t.Ready S →
    (∀ i : Nat, t.Owns i → i ≤ cnt) → t.Typed → foldE (fun (st : Trans × Nat × List NodeIndex) n =>
      match st.1.insert st.2.1 n with
      | .error e => .error e
      | .ok (i, t', cnt') => .ok (t', cnt', st.2.2 ++ [i])) (t, cnt, acc) l = .ok (t', cnt', acc') → t'.Typed := by
  induction l with
  | nil =>
    intro t t' cnt cnt' acc acc' _ _ hf h
    simp only [foldE, Except.ok.injEq, Prod.mk.injEq] at h
    obtain ⟨rfl, rfl, rfl⟩ := h
    exact hf
  | cons n l ih =>
    intro t t' cnt cnt' acc acc' h hb hf he
    have g1 := insert_grown h hb (hl n (by simp))
    simp only [foldE, insert_ok h hb n] at he
    exact ih (fun m hm => hl m (by simp [hm])) g1.ready (g1.bound hb) ⟨Arena.store_typed hf.1 _ _, hf.2⟩ he

omit [SetImpl] in
theorem Trans.run_typed {w : World} {k : Nat} {t t' : Trans} {cnt cnt' : Nat} {l : List NodeIndex} {o : TOp} (h : t.Ready S)
    (hb : ∀ i : Nat, t.Owns i → i ≠ emptyIdx ∧ i ≤ cnt) (ho : o.Allowed S t) (hk : KeepVariants w (.op k o)) (hf : t.Typed)
    (hr : o.run t cnt = .ok (t', cnt', l)) : t'.Typed := by
  have hb' : ∀ i : Nat, t.Owns i → i ≤ cnt := fun i hi => (hb i hi).2
  cases o with
  | insert n =>
    simp only [TOp.run, insert_ok h hb' n, Except.map, Except.ok.injEq, Prod.mk.injEq] at hr
    obtain ⟨rfl, rfl, rfl⟩ := hr
    exact ⟨Arena.store_typed hf.1 _ _, hf.2⟩
  | extend ns => exact extend_typed ns ho h hb' hf hr
  | alloc d =>
    simp only [TOp.run, alloc_ok h hb' d, Except.map, Except.ok.injEq, Prod.mk.injEq] at hr
    obtain ⟨rfl, rfl, rfl⟩ := hr
    exact hf
  | allocUntyped =>
    simp only [TOp.run, Except.ok.injEq, Prod.mk.injEq] at hr
    obtain ⟨rfl, rfl, rfl⟩ := hr
    exact hf
  | fillBack i n =>
    simp only [TOp.run, fillBack] at hr
    rcases Arena.fillBack_cases t.inc i n with ⟨_, e⟩ | ⟨d, _, _, e⟩ | ⟨_, _, e⟩ | ⟨h1, h2, a, e, h3, h4⟩
    · rw [e] at hr; exact absurd hr (by simp [Except.map])
    · rw [e] at hr; exact absurd hr (by simp [Except.map])
    · rw [e] at hr; exact absurd hr (by simp [Except.map])
    · rw [e] at hr
      simp only [Except.map, Except.ok.injEq, Prod.mk.injEq] at hr
      obtain ⟨rfl, rfl, rfl⟩ := hr
      refine ⟨?_, hf.2⟩
      intro d i n hn
      simp only [h3] at hn
      exact Arena.store_typed hf.1 _ _ d i n hn
  | fillBackUntyped i n =>
    simp only [TOp.run, fillBackUntyped] at hr
    rcases Arena.fillBackUntyped_cases t.inc i n with ⟨_, e⟩ | ⟨h2, e⟩
    · rw [e] at hr; exact absurd hr (by simp [Except.map])
    · rw [e] at hr
      simp only [Except.map, Except.ok.injEq, Prod.mk.injEq] at hr
      obtain ⟨rfl, rfl, rfl⟩ := hr
      exact ⟨Arena.store_typed hf.1 _ _, hf.2⟩
  | remove i =>
    simp only [TOp.run, Except.ok.injEq, Prod.mk.injEq] at hr
    obtain ⟨rfl, rfl, rfl⟩ := hr
    have := Arena.remove_typed hf.1 i
    rcases remove_cases t i with ⟨_, e⟩ | ⟨_, _, e⟩ | ⟨_, _, e⟩ <;> (rw [e]; exact ⟨this, hf.2⟩)
  | mutate i f =>
    simp only [TOp.run] at hr
    rcases mutate_cases t i f with ⟨h1, e⟩ | ⟨n, p, _, _, e⟩ | ⟨n, n', a, h1, h2, e, h3, h4, h5, h6⟩
    · rw [e] at hr
      simp only [Except.map, Except.ok.injEq, Prod.mk.injEq] at hr
      obtain ⟨rfl, rfl, rfl⟩ := hr
      refine ⟨hf.1, fun p hp => ?_⟩
      simp only [List.mem_append, List.mem_singleton] at hp
      rcases hp with (hp | rfl) | hp
      · exact hf.2 p (List.mem_append_left _ hp)
      · exact hk
      · exact hf.2 p (List.mem_append_right _ hp)
    · rw [e] at hr; exact absurd hr (by simp [Except.map])
    · rw [e] at hr
      simp only [Except.map, Except.ok.injEq, Prod.mk.injEq] at hr
      obtain ⟨rfl, rfl, rfl⟩ := hr
      exact ⟨h6 hf.1 (hk _ _ h2), hf.2⟩
  | update i f =>
    simp only [TOp.run] at hr
    rcases update_cases t i f with ⟨h1, e⟩ | ⟨n, p, _, _, e⟩ | ⟨n, n', a, h1, h2, e, h3, h4, h5, h6⟩
    · rw [e] at hr
      simp only [Except.map, Except.ok.injEq, Prod.mk.injEq] at hr
      obtain ⟨rfl, rfl, rfl⟩ := hr
      refine ⟨hf.1, fun p hp => ?_⟩
      simp only [List.mem_append, List.mem_singleton] at hp
      rcases hp with hp | hp | rfl
      · exact hf.2 p (List.mem_append_left _ hp)
      · exact hf.2 p (List.mem_append_right _ hp)
      · exact hk
    · rw [e] at hr; exact absurd hr (by simp [Except.map])
    · rw [e] at hr
      simp only [Except.map, Except.ok.injEq, Prod.mk.injEq] at hr
      obtain ⟨rfl, rfl, rfl⟩ := hr
      exact ⟨h6 hf.1 (hk _ _ h2), hf.2⟩
  | redirectAllLinks o n =>
    simp only [TOp.run, Except.ok.injEq, Prod.mk.injEq] at hr
    obtain ⟨rfl, rfl, rfl⟩ := hr
    exact hf
  | redirectLinks o n =>
    simp only [TOp.run, Except.ok.injEq, Prod.mk.injEq] at hr
    obtain ⟨rfl, rfl, rfl⟩ := hr
    exact hf

theorem typed_closed (hw : WellNamed S) (hR : ∀ w c, R w c → KeepVariants w c) :
    Closed S dbg R (fun g => g.nodes.Typed) Trans.Typed where
  newGraph u := Arena.new_typed
  newTrans u := ⟨Arena.new_typed, fun p hp => absurd hp (by simp [Trans.new])⟩
  op := by
    intro w k o t t' cnt cnt' l _ hb _ hr' ho hf hr
    obtain ⟨h1, h2⟩ := hb.ready hw
    exact Trans.run_typed h1 h2 ho (hR _ _ hr') hf hr
  merge := by
    intro w k h g t t' _ hm _ _ _ hg ht he
    unfold Trans.merge at he
    split at he
    · simp only [Except.ok.injEq] at he
      subst he
      exact ⟨Arena.merge_typed ht.1 hg, ht.2⟩
    · exact absurd he (by simp)
  commit := by
    intro w k h g g' t _ hm _ _ _ hg ht he
    obtain ⟨v6, out⟩ := hm.commit hw he
    exact out.typed hg ht.1 ht.2
  caught := by
    intro w k h g g' t _ hm _ _ _ hg ht he
    exact (hm.left hw he).1.typed ht.2 hg ht.1
  switch := by
    intro w h c g g' u cnt cnt' _ hr _ _ _ he
    obtain ⟨a0, idMap, a, h1, h2, h3, h4, h5, h6, h7, _⟩ := switch_ok hw (hr.inv hw) he
    exact h6.typed h5.typed
  deserialize := by
    intro w h c input cnt g _ _ hin hd
    obtain ⟨_, _, a, h1, h2, h3⟩ := deserialize_ok hw hin hd
    exact h3.typed h1.typed

end TTGraph
