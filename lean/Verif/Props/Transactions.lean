import Verif.Lemmas.Commute
import Verif.Lemmas.Unique
import Verif.Lemmas.History
import Verif.Demo.Traced
import Verif.Demo.Decls

/-!
# C16, C17, C35, C42, C45: building a transaction
-/

set_option autoImplicit false

namespace TTGraph
open Spec
variable [SetImpl] {S : Schema} {dbg : Bool} {R : World → Call → Prop}

/-! ## C45: every method of a transaction has exactly its documented effect -/

/-- In every program, a call that returns changes the pending operations of the transaction as `Effect` says, and nothing else. -/
theorem C45_effect (hw : WellNamed S) {t t' : Trans} {cnt cnt' : Nat} {l : List NodeIndex} {o : TOp} (h : Building S dbg R t cnt)
    (ho : o.Allowed S t) (hr : o.run t cnt = .ok (t', cnt', l)) : Effect o l t.pending t'.pending :=
  Trans.effect_run (h.ready hw).1 (h.ready hw).2 ho hr

/-- Which calls can panic: filling an index that is not waiting for that node, and changing a pending node with a closure that panics
itself.  All others return. -/
theorem C45_panics (hw : WellNamed S) {t : Trans} {cnt : Nat} {o : TOp} {e : Panic} (h : Building S dbg R t cnt)
    (ho : o.Allowed S t) (hr : o.run t cnt = .error e) :
    (∃ i n, o = .fillBack i n ∧ e ∈ [Panic.fillNonexisting, .fillType, .fillOccupied]) ∨
    (∃ i f n, (o = .mutate i f ∨ o = .update i f) ∧ t.pending.new i = some n ∧ f n = .error e) := by
  obtain ⟨h1, hb⟩ := h.ready hw
  have hb1 : ∀ i : Nat, t.Owns i → i ≤ cnt := fun i hi => (hb i hi).2
  cases o with
  | insert n => simp only [TOp.run, Trans.insert_ok h1 hb1 n, Except.map] at hr; exact absurd hr (by simp)
  | extend ns =>
    obtain ⟨_, _, _, e, _⟩ := Trans.extend_ok h1 hb1 (l := ns) ho
    simp only [TOp.run, e] at hr
    exact absurd hr (by simp)
  | alloc d => simp only [TOp.run, Trans.alloc_ok h1 hb1 d, Except.map] at hr; exact absurd hr (by simp)
  | allocUntyped => exact absurd hr (by simp [TOp.run])
  | fillBack i n =>
    left
    refine ⟨i, n, rfl, ?_⟩
    simp only [TOp.run, Trans.fillBack] at hr
    rcases Arena.fillBack_cases t.inc i n with ⟨_, x⟩ | ⟨_, _, _, x⟩ | ⟨_, _, x⟩ | ⟨_, _, _, x, _⟩ <;>
      simp only [x, Except.map, Except.error.injEq, reduceCtorEq] at hr <;> subst hr <;> simp
  | fillBackUntyped i n =>
    simp only [TOp.run, Trans.fillBackUntyped] at hr
    rcases Arena.fillBackUntyped_cases t.inc i n with ⟨h2, _⟩ | ⟨_, x⟩
    · exact absurd (h1.good.inv.cont_none_of_get? (h1.allocs i ho.2) _) h2
    · simp only [x, Except.map, reduceCtorEq] at hr
  | remove i => exact absurd hr (by simp [TOp.run])
  | mutate i f =>
    right
    simp only [TOp.run] at hr
    rcases Trans.mutate_cases t i f with ⟨_, x⟩ | ⟨n, e', h2, h3, x⟩ | ⟨_, _, _, _, _, x, _⟩ <;>
      simp only [x, Except.map, Except.error.injEq, reduceCtorEq] at hr
    subst hr
    exact ⟨i, f, n, Or.inl rfl, h2, h3⟩
  | update i f =>
    right
    simp only [TOp.run] at hr
    rcases Trans.update_cases t i f with ⟨_, x⟩ | ⟨n, e', h2, h3, x⟩ | ⟨_, _, _, _, _, x, _⟩ <;>
      simp only [x, Except.map, Except.error.injEq, reduceCtorEq] at hr
    subst hr
    exact ⟨i, f, n, Or.inr rfl, h2, h3⟩
  | redirectAllLinks a b => exact absurd hr (by simp [TOp.run])
  | redirectLinks a b => exact absurd hr (by simp [TOp.run])

/-! ## C16: insert and remove inside one transaction cancel out -/

/-- A node is inserted (or an index allocated) and removed again after any number of other calls that are not made on it.  What is pending
then is what would be pending without the two calls: the same other calls return the same indices. -/
theorem C16_withdraw (hw : WellNamed S) {t t1 t2 : Trans} {cnt cnt1 cnt2 : Nat} {i : NodeIndex} {o : TOp}
    {ls : List (List NodeIndex)} (h : Building S dbg R t cnt) (ho : (∃ n, o = .insert n) ∨ (∃ d, o = .alloc d) ∨ o = .allocUntyped)
    (ha : o.Allowed S t) (hr : o.run t cnt = .ok (t1, cnt1, [i])) {os : List TOp} (hos : OpsAllowed S t1 cnt1 os)
    (hi : ∀ o ∈ os, target o ≠ some i) (hr2 : runOps t1 cnt1 os = .ok (t2, cnt2, ls)) :
    ∃ t3, runOps t cnt1 os = .ok (t3, cnt2, ls) ∧ (t2.remove i).pending = t3.pending := by
  obtain ⟨h1, hb⟩ := h.ready hw
  have hg := Trans.run_grown h1 hb ha hr
  have hb' : ∀ i : Nat, t1.Owns i → i ≠ emptyIdx ∧ i ≤ cnt1 := by
    intro i hi
    rcases hg.owns i hi with h2 | h2
    · exact ⟨(hb i h2).1, Nat.le_trans (hb i h2).2 hg.le⟩
    · refine ⟨?_, h2.2⟩
      rintro rfl
      exact absurd h2.1 (Nat.not_lt_zero _)
  obtain ⟨t3, e, hr3, _, hx⟩ := Trans.Extra.runOps os hg.ready hb' h1 (Trans.extra_new h1 hb ho hr) hos hi hr2
  exact ⟨t3, e, hx.remove hr3⟩

/-- Removing the same node of the graph twice is the same as removing it once. -/
theorem C16_twice (hw : WellNamed S) {g : Graph} {t : Trans} (h : Meets S dbg R g t) {i : NodeIndex} (hi : g.get? i ≠ none) :
    (t.remove i).remove i = t.remove i := by
  have hn : ¬ t.Owns i := fun ho => (h.disjoint hw).2.2 i ho (fun hd => hi (Arena.get?_of_disp_none hd))
  have e1 := Trans.run_outer (o := .remove i) (by simp [kind]) (t := t) (fun j hj => by
    simp only [target, Option.some.injEq] at hj
    exact hj ▸ hn) 0
  have hn2 : ¬ (t.later (.remove i)).Owns i := by
    simpa only [Trans.Owns, Trans.later_inc, Trans.later_allocs] using hn
  have e2 := Trans.run_outer (o := .remove i) (by simp [kind]) (t := t.later (.remove i)) (fun j hj => by
    simp only [target, Option.some.injEq] at hj
    exact hj ▸ hn2) 0
  simp only [TOp.run, Except.ok.injEq, Prod.mk.injEq, and_true] at e1 e2
  rw [e1, e2]
  simp only [Trans.later, OrderSet.insert_insert]

/-- After the commit the withdrawn index is absent, and the graph is as if it had never been inserted: the commit without the two calls
succeeds exactly when the commit with them does, and the resulting graphs have the same nodes.  (For declarations in which a field has at
most one opposite, unless an annotated or bidirectional `Vec` holds a node twice during the commit.) -/
theorem C16_commit_partial (hw : WellNamed S) (hd : DeclaredOnce S) (hone : OneOpposite S)
    {w : World} (h : Reaches S dbg R w) {hh k c : Nat} {g : Graph} {t t1 t2 : Trans} {x : Ctx} (hg : w.graph hh = some (c, g))
    (ht : w.trans k = some (c, t)) (hx : w.ctx c = some x) {cnt1 cnt2 : Nat} {i : NodeIndex} {o : TOp} {ls : List (List NodeIndex)}
    (ho : (∃ n, o = .insert n) ∨ (∃ d, o = .alloc d) ∨ o = .allocUntyped)
    (ha : o.Allowed S t) (hr : o.run t x.cnt = .ok (t1, cnt1, [i])) {os : List TOp} (hos : OpsAllowed S t1 cnt1 os)
    (hi : ∀ o ∈ os, target o ≠ some i) (hr2 : runOps t1 cnt1 os = .ok (t2, cnt2, ls)) (hst : SteadyBidir S (t2.remove i) g.get?)
    (hva : SteadyAnnos S (t2.remove i) g.get?) :
    ∃ t3, runOps t cnt1 os = .ok (t3, cnt2, ls) ∧
      (∀ g', g.commit S dbg (t2.remove i) = .ok g' → g'.get? i = none ∧ ∃ g'', g.commit S dbg t3 = .ok g'' ∧ View.Same g''.get? g'.get?) ∧
      (∀ g'', g.commit S dbg t3 = .ok g'' → ∃ g', g.commit S dbg (t2.remove i) = .ok g' ∧ View.Same g''.get? g'.get?) := by
  have hwi := h.inv hw
  have hB : Building S dbg R t x.cnt := ⟨w, k, c, x, h, ht, hx, rfl⟩
  have hM : Meets S dbg R g t := ⟨w, hh, k, c, h, hg, ht⟩
  obtain ⟨h1, hb⟩ := hB.ready hw
  have hgr := Trans.run_grown h1 hb ha hr
  have hb' : ∀ i : Nat, t1.Owns i → i ≠ emptyIdx ∧ i ≤ cnt1 := by
    intro i hi
    rcases hgr.owns i hi with h2 | h2
    · exact ⟨(hb i h2).1, Nat.le_trans (hb i h2).2 hgr.le⟩
    · refine ⟨?_, h2.2⟩
      rintro rfl
      exact absurd h2.1 (Nat.not_lt_zero _)
  obtain ⟨t3, e, hr3, hr3', hxx⟩ := Trans.Extra.runOps os hgr.ready hb' h1 (Trans.extra_new h1 hb ho hr) hos hi hr2
  have hp := hxx.remove hr3
  refine ⟨t3, e, ?_⟩
  obtain ⟨_, hctx, _, hown⟩ := Trans.runOps_grown os hgr.ready hb' hos hr2
  have hfresh : ∀ j : Nat, g.Owns j → j ≤ x.cnt := by
    intro j hj
    obtain ⟨x', hx', h4⟩ := hwi.bound (.inl hh) c j ⟨g, hg, hj⟩
    rw [hx, Option.some.injEq] at hx'
    exact hx' ▸ h4.2
  have hno : ∀ j : Nat, t2.Owns j → ¬ g.Owns j := by
    intro j hj hgj
    rcases hown j hj with h5 | h5
    · rcases hgr.owns j h5 with h6 | h6
      · exact (hM.disjoint hw).2.2 j h6 hgj
      · exact absurd (hfresh j hgj) (Nat.not_le_of_lt h6.1)
    · exact absurd (hfresh j hgj) (Nat.not_le_of_lt (Nat.lt_of_le_of_lt hgr.le h5.1))
  have hrem : (t2.remove i).Ready S := (Trans.remove_grown hr3 i cnt2).ready
  have hremown : ∀ j : Nat, (t2.remove i).Owns j → t2.Owns j := by
    intro j hj
    rcases (Trans.remove_grown hr3 i cnt2).owns j hj with h5 | h5
    · exact h5
    · exact absurd (Nat.lt_of_lt_of_le h5.1 h5.2) (Nat.lt_irrefl _)
  have hdis : ∀ t' : Trans, (∀ j : Nat, t'.Owns j → t2.Owns j) → g.nodes.Disjoint t'.inc := by
    intro t' hs j hj
    by_contra hc
    exact hno j (hs j (Or.inl hj)) hc
  have d1 := hdis _ hremown
  have d3 := hdis t3 (fun j hj => hxx.owns hj)
  have hc3 : t3.ctxId = t2.ctxId := by rw [Trans.runOps_ctx os e, Trans.runOps_ctx os hr2, Trans.run_ctx hr]
  have hcr : (t2.remove i).ctxId = t2.ctxId := (Trans.remove_grown hr3 i cnt2).ctx
  have hinv := hM.inv hw
  constructor
  · intro g' hc
    obtain ⟨g'', e1, hs⟩ := commit_congr hw hd hone hst hva (hva.pending hp) hinv hrem hr3' d1 d3 (hc3.trans hcr.symm) hp hc
    refine ⟨?_, g'', e1, hs.symm⟩
    obtain ⟨v6, out⟩ := Graph.commit_ok hw hinv hr3'.good d3 hr3'.noFrom e1
    rw [hs.symm.none_iff, CommitOut.none_iff out]
    left
    constructor
    · have hi' : i = x.cnt + 1 := by
        have := hgr.list
        cases hn : cnt1 - x.cnt with
        | zero => rw [hn] at this; simp at this
        | succ n =>
          rw [hn, List.range'_succ, List.cons.injEq] at this
          exact this.1
      by_contra hc'
      have := hfresh i (fun hd => hc' (Arena.get?_of_disp_none hd))
      rw [hi'] at this
      exact absurd this (Nat.not_succ_le_self _)
    · by_contra hc'
      exact hxx.absent (Or.inl (fun hd => hc' (Arena.get?_of_disp_none hd)))
  · intro g'' hc
    exact commit_congr hw hd hone (hst.pending hp) (hva.pending hp) hva hinv hr3' hrem d3 d1 (hcr.trans hc3.symm) hp.symm hc

/-! ## C17: mutating a node inserted in the same transaction -/

/-- `insert(n)` followed by `mutate(i, f)` or `update(i, f)`: if `f` panics on `n`, so does the call; otherwise the same is pending as after
`insert(f(n))`, and if `f` keeps the variant, the transaction is literally the same. -/
theorem C17_insert_change (hw : WellNamed S) {t t1 : Trans} {cnt cnt1 : Nat} {i : NodeIndex} {n : Node} (h : Building S dbg R t cnt)
    (hr : t.insert cnt n = .ok (i, t1, cnt1)) (f : Closure) :
    (∀ e, f n = .error e → t1.mutate i f = .error e ∧ t1.update i f = .error e) ∧
    (∀ n', f n = .ok n' → ∃ t2 t2' t3, t1.mutate i f = .ok t2 ∧ t1.update i f = .ok t2' ∧ t.insert cnt n' = .ok (i, t3, cnt1) ∧
      t2.pending = t3.pending ∧ t2'.pending = t3.pending ∧ (n'.disc = n.disc → t2 = t3 ∧ t2' = t3)) := by
  obtain ⟨h1, hb⟩ := h.ready hw
  have hb1 : ∀ i : Nat, t.Owns i → i ≤ cnt := fun i hi => (hb i hi).2
  rw [Trans.insert_ok h1 hb1 n, Except.ok.injEq, Prod.mk.injEq, Prod.mk.injEq] at hr
  obtain ⟨rfl, rfl, rfl⟩ := hr
  have hn : ({ t with inc := t.inc.store (cnt + 1) n } : Trans).inc.get? (cnt + 1) = some n := by
    show (t.inc.store (cnt + 1) n).get? (cnt + 1) = some n
    rw [Arena.store_get?, if_pos rfl]
  constructor
  · intro e hf
    constructor
    · rcases Trans.mutate_cases { t with inc := t.inc.store (cnt + 1) n } (cnt + 1) f with ⟨h2, _⟩ | ⟨n1, e', h2, h3, x⟩ | ⟨n1, _, _, h2, h3, _⟩
      · rw [hn] at h2; exact absurd h2 (by simp)
      · rw [hn, Option.some.injEq] at h2
        subst h2
        rw [hf, Except.error.injEq] at h3
        rw [x, h3]
      · rw [hn, Option.some.injEq] at h2
        subst h2
        rw [hf] at h3
        exact absurd h3 (by simp)
    · rcases Trans.update_cases { t with inc := t.inc.store (cnt + 1) n } (cnt + 1) f with ⟨h2, _⟩ | ⟨n1, e', h2, h3, x⟩ | ⟨n1, _, _, h2, h3, _⟩
      · rw [hn] at h2; exact absurd h2 (by simp)
      · rw [hn, Option.some.injEq] at h2
        subst h2
        rw [hf, Except.error.injEq] at h3
        rw [x, h3]
      · rw [hn, Option.some.injEq] at h2
        subst h2
        rw [hf] at h3
        exact absurd h3 (by simp)
  · intro n' hf
    have hd : (t.inc.store (cnt + 1) n).disp.get? (cnt + 1) = some n.disc := by rw [Arena.store_disp, if_pos rfl]
    have hcn : ((t.inc.store (cnt + 1) n).cont n.disc).get? (cnt + 1) = some n := by
      have := hn
      rwa [show ({ t with inc := t.inc.store (cnt + 1) n } : Trans).inc = t.inc.store (cnt + 1) n from rfl, Arena.get?_of_disp hd] at this
    have hfresh := (Trans.fresh_none h1 hb1).2 n.disc
    have hm : (t.inc.store (cnt + 1) n).modifyAt (cnt + 1) (fun n => (f n).map (·, ())) =
        .ok ((t.inc.store (cnt + 1) n).setCont n.disc (((t.inc.store (cnt + 1) n).cont n.disc).insert (cnt + 1) n'), ()) := by
      simp only [Arena.modifyAt, hd, hcn, hf, Except.map]
    have hu : (t.inc.store (cnt + 1) n).updateWith (cnt + 1) f =
        .ok ((t.inc.store (cnt + 1) n).setCont n.disc ((((t.inc.store (cnt + 1) n).cont n.disc).swapRemove (cnt + 1)).insert (cnt + 1) n')) := by
      simp only [Arena.updateWith, hd, hcn, hf]
    have hc : (t.inc.store (cnt + 1) n).contains (cnt + 1) = true := by
      rw [Arena.contains_iff]
      exact ⟨n, hn⟩
    have hcont : (t.inc.store (cnt + 1) n).cont n.disc = (t.inc.cont n.disc).insert (cnt + 1) n := by
      simp [Arena.store]
    refine ⟨_, _, _, by simp only [Trans.mutate, hc, if_true, hm]; rfl, by simp only [Trans.update, hc, if_true, hu]; rfl, Trans.insert_ok h1 hb1 n', ?_, ?_, ?_⟩
    · simp only [Trans.pending, Pending.mk.injEq, and_true]
      funext j
      rw [Arena.setCont_get? hd (n := n') (fun j => by rw [OrderMap.get?_insert]), Arena.store_get?, Arena.store_get?]
      split <;> simp_all
    · simp only [Trans.pending, Pending.mk.injEq, and_true]
      funext j
      rw [Arena.setCont_get? hd (n := n') (fun j => by
        rw [OrderMap.get?_insert, OrderMap.get?_swapRemove]
        split <;> simp_all), Arena.store_get?, Arena.store_get?]
      split <;> simp_all
    · intro hv'
      rw [hcont, OrderMap.insert_insert, OrderMap.swapRemove_insert _ hfresh]
      have : (t.inc.store (cnt + 1) n).setCont n.disc ((t.inc.cont n.disc).insert (cnt + 1) n') = t.inc.store (cnt + 1) n' := by
        simp only [Arena.store, Arena.setCont, hv', Arena.mk.injEq, true_and]
        funext d
        split <;> simp_all
      rw [this]
      exact ⟨rfl, rfl⟩

/-! ## C35: empty transactions -/

/-- `is_empty` says whether anything is pending. -/
theorem C35_is_empty (hw : WellNamed S) {t : Trans} {cnt : Nat} (h : Building S dbg R t cnt) :
    t.isEmpty S = true ↔ (∀ i, t.pending.new i = none) ∧ (∀ i, ¬ t.pending.unfilled i) ∧ (∀ i, ¬ t.pending.removed i) ∧ t.pending.muts = [] ∧
      t.pending.upds = [] ∧ t.pending.redirAll = [] ∧ t.pending.redir = [] := by
  have hi := (h.ready hw).1.good.inv
  have hlen : t.inc.len S = 0 ↔ ∀ i, t.inc.get? i = none := by
    rw [Arena.len_eq, List.length_eq_zero_iff]
    constructor
    · intro he i
      cases hn : t.inc.get? i with
      | none => rfl
      | some n =>
        have := (Arena.mem_entries hi).2 hn
        rw [he] at this
        exact absurd this (by simp)
    · intro hn
      rw [List.eq_nil_iff_forall_not_mem]
      rintro ⟨i, n⟩ hm
      rw [Arena.mem_entries hi, hn] at hm
      exact absurd hm (by simp)
  simp only [Trans.isEmpty, Bool.and_eq_true, decide_eq_true_eq, OrderSet.isEmpty_iff, List.isEmpty_iff, hlen, Trans.pending]
  tauto

/-- Committing a transaction with nothing pending succeeds and leaves every observation of the graph as it was. -/
theorem C35_commit_empty (hw : WellNamed S) {g : Graph} {t : Trans} (h : Meets S dbg R g t) (he : t.isEmpty S = true) :
    ∃ g', g.commit S dbg t = .ok g' ∧ (∀ i, g'.get? i = g.get? i) ∧ g'.iter S = g.iter S ∧ (∀ d, g'.iterType d = g.iterType d) ∧
      (∀ x, g'.iterGroup S x = g.iterGroup S x) ∧ g'.len S = g.len S ∧ g'.ctxId = g.ctxId ∧ g'.back = g.back := by
  have hready := h.ready hw
  obtain ⟨hdis, hctx, _⟩ := h.disjoint hw
  have hinv := h.inv hw
  simp only [Trans.isEmpty, Bool.and_eq_true, decide_eq_true_eq, List.isEmpty_iff] at he
  obtain ⟨⟨⟨⟨⟨⟨h1, h2⟩, h3⟩, h4⟩, h5⟩, h6⟩, h7⟩ := he
  have hdec : t.dec.elems = [] := by
    rw [List.eq_nil_iff_forall_not_mem]
    exact OrderSet.isEmpty_iff.1 h3
  have hent : t.inc.entries S = [] := by rw [← List.length_eq_zero_iff, ← Arena.len_eq]; exact h2
  have hget : ∀ i, t.inc.get? i = none := by
    intro i
    cases hn : t.inc.get? i with
    | none => rfl
    | some n =>
      have := (Arena.mem_entries hready.good.inv).2 hn
      rw [hent] at this
      exact absurd this (by simp)
  have hcont : ∀ d, (g.nodes.cont d).append (t.inc.cont d) = g.nodes.cont d := by
    intro d
    have : (t.inc.cont d).entries = [] := OrderMap.get?_some_entries.2 (fun i => hready.good.inv.cont_none_of_get? (hget i) d)
    simp [OrderMap.append, this]
  let g' : Graph := { g with nodes := g.nodes.merge t.inc }
  have hg' : g'.nodes.cont = g.nodes.cont := funext hcont
  refine ⟨g', ?_, ?_, ?_, ?_, ?_, ?_, rfl, rfl⟩
  · simp [Graph.commit, Graph.doCommit, hctx, h1, h4, h5, h6, h7, hdec, hent, Graph.redirectLinksVec, foldE, Graph.applyClosures, Graph.mergeNodes,
      Graph.applyBidirectional, Lcr.new, OrderSet.empty, Graph.checkLinkType, g']
  · intro i
    show (g.nodes.merge t.inc).get? i = g.nodes.get? i
    rw [Arena.merge_get? hinv.arena hready.good.inv hdis, hget]
    exact none_alt _
  · simp only [Graph.iter, Arena.entries, hg']
  · intro d; simp only [Graph.iterType, hg']
  · intro x; simp only [Graph.iterGroup, Graph.iter, Arena.entries, hg']
  · simp only [Graph.len, Arena.len, hg']

/-! ## C42: calls of different kinds commute -/

/-- Two sequences of calls, in which `remove`, `mutate` and `update` are called on nodes of a graph of the same context, with the same
building calls, the same removals, and so on, each kind in the same order, but interleaved differently: they leave the same transaction
(so that it has the same effect on every graph), and return the same indices; or they panic with the same error. -/
theorem C42_commute (hw : WellNamed S) {w : World} (h : Reaches S dbg R w) {k c : Nat} {t : Trans} {x : Ctx}
    (ht : w.trans k = some (c, t)) (hx : w.ctx c = some x) {os os' : List TOp}
    (hk : ∀ k, ofKind k os = ofKind k os') (ha : OpsAllowed S t x.cnt os) (ha' : OpsAllowed S t x.cnt os')
    (hg : ∀ o ∈ os, kind o ≠ .build → ∀ i, target o = some i → ∃ hh g, w.graph hh = some (c, g) ∧ g.get? i ≠ none) :
    (runOps t x.cnt os).map (fun r => (r.1, r.2.1, r.2.2.flatten)) = (runOps t x.cnt os').map (fun r => (r.1, r.2.1, r.2.2.flatten)) := by
  have hwi := h.inv hw
  obtain ⟨h1, hb⟩ := (show Building S dbg R t x.cnt from ⟨w, k, c, x, h, ht, hx, rfl⟩).ready hw
  have hnode : ∀ o ∈ os, kind o ≠ .build → ∀ i : Nat, target o = some i → ¬ t.Owns i ∧ i ≤ x.cnt := by
    intro o ho hne i hi
    obtain ⟨hh, g, hgr, hgi⟩ := hg o ho hne i hi
    have hgo : g.Owns i := fun hd => hgi (Arena.get?_of_disp_none hd)
    refine ⟨fun hc => ?_, ?_⟩
    · exact ((show Meets S dbg R g t from ⟨w, hh, k, c, h, hgr, ht⟩).disjoint hw).2.2 i hc hgo
    · obtain ⟨x', hx', h4⟩ := hwi.bound (.inl hh) c i ⟨g, hgr, hgo⟩
      rw [hx, Option.some.injEq] at hx'
      exact hx' ▸ h4.2
  have hmem : ∀ o, o ∈ os' → o ∈ os := by
    intro o ho
    have : o ∈ ofKind (kind o) os' := List.mem_filter.2 ⟨ho, by simp⟩
    rw [← hk] at this
    exact (List.mem_filter.1 this).1
  have e1 := Trans.result_split os h1 hb ha hnode
  have e2 := Trans.result_split os' h1 hb ha' (fun o ho => hnode o (hmem o ho))
  simp only [Trans.result] at e1 e2
  rw [e1, e2, hk .build]
  congr 1
  funext r
  rw [Trans.foldl_later_eq hk]

end TTGraph

namespace TTGraph.Demo
open Spec

/-- A graph with the nodes 1 and 2, and a transaction with a pending node 3. -/
def build1 : List Step :=
  [.call (.newContext 0 77), .call (.newGraph 0 0), .call (.newTrans 0 0), .call (.op 0 (.insert (nA 2 [2] [] 5))), .call (.op 0 (.insert (nB 0))),
   .call (.commit 0 0), .call (.newTrans 1 0), .call (.op 1 (.insert (nB 1)))]

/-- C45: every kind of effect occurs, e.g. removing a pending node and removing a node of the graph. -/
example :
    let w := run plain true World.init build1
    Building plain true AnyCall (transAt w 1) (cntAt w 1) ∧ (transAt w 1).pending.new 3 = some (nB 1) ∧ (transAt w 1).pending.new 1 = none ∧
    (TOp.run (transAt w 1) (cntAt w 1) (.remove 3)).toOption.isSome = true ∧ (TOp.run (transAt w 1) (cntAt w 1) (.fillBack 3 (nB 0))).toOption.isNone = true :=
  ⟨building_of (reaches build1 (by decide +kernel)) 1 (by decide +kernel), by decide +kernel⟩

/-- The calls between the insertion of a node and its removal: nodes are inserted, one is linked to the node to be withdrawn, and so on. -/
def between : List TOp := [.insert (nA 4 [] [4] 7), .alloc 2, .redirectLinks 2 1, .remove 1, .fillBack 6 (nB 2), .remove 5]

theorem between_allowed : let w := run plain true World.init build1
    let t1 := got (Trans.new 0, 0, []) (TOp.run (transAt w 1) (cntAt w 1) (.insert (nB 3)))
    OpsAllowed plain t1.1 t1.2.1 between := by
  refine ⟨wt_sound (by decide +kernel), fun _ _ _ _ => ⟨?_, fun _ _ _ _ => ⟨?_, fun _ _ _ _ => ⟨trivial, fun _ _ _ _ => ⟨wt_sound (by decide +kernel), fun _ _ _ _ =>
    ⟨trivial, fun _ _ _ _ => trivial⟩⟩⟩⟩⟩⟩ <;> simp only [TOp.Allowed] <;> decide +kernel

/-- C16: the hypotheses are met by withdrawing node 4 after those calls; both commits succeed. -/
example :
    let w := run plain true World.init build1
    let r1 := got (Trans.new 0, 0, []) (TOp.run (transAt w 1) (cntAt w 1) (.insert (nB 3)))
    let r2 := got (Trans.new 0, 0, []) (runOps r1.1 r1.2.1 between)
    (Building plain true AnyCall (transAt w 1) (cntAt w 1) ∧ OpsAllowed plain r1.1 r1.2.1 between) ∧
    r1.2 = (4, [4]) ∧ (∀ o ∈ between, target o ≠ some 4) ∧ r2.2 = (6, [[5], [6], [], [], [], []]) ∧
    ((graphAt w 0).commit plain true (r2.1.remove 4)).toOption.isSome = true :=
  ⟨⟨building_of (reaches build1 (by decide +kernel)) 1 (by decide +kernel), between_allowed⟩, by decide +kernel⟩

/-- `A { x: NodeIndex, u: NodeIndex }` (1: 10, 11), `B { y: Set, z: Set }` (2: 20, 21), both in the link group 30, with `A.x <-> B.30` and
`A.u <-> B.y`. -/
def choice : Schema :=
  { variants := [(1, ⟨[lnk 10 .direct, lnk 11 .direct], []⟩), (2, ⟨[⟨20, .link .set, [[30]]⟩, ⟨21, .link .set, [[30]]⟩], []⟩)],
    bidirs := [⟨1, 10, 2, 30⟩, ⟨1, 11, 2, 20⟩] }

/-- Nodes of `choice`. -/
def cA (x u : NodeIndex) : Node := ⟨1, [.direct x, .direct u], []⟩
def cB : Node := ⟨2, [.set (setOf []), .set (setOf [])], []⟩

theorem choice_named : WellNamed choice := wellNamed_sound (by decide)
theorem choice_noVec : NoVec choice := noVec_sound choice_named (by decide)
theorem choice_once : DeclaredOnce choice := declaredOnce_sound choice_named (by decide +kernel)

/-- The nodes 1 of variant B and 2 of variant A, and a new transaction. -/
def choice3 : List Step :=
  [.call (.newContext 0 77), .call (.newGraph 0 0), .call (.newTrans 0 0), .call (.op 0 (.insert cB)), .call (.op 0 (.insert (cA 0 0))),
   .call (.commit 0 0), .call (.newTrans 1 0)]

/-- The calls after the insertion of node 3. -/
def choiceOps : List TOp := [.insert (cA 0 2), .insert (cA 1 1), .remove 2]

/-- C16, full statement: the commit with the withdrawn node returns if the one without it does.  False when a field has several possible
opposites: withdrawing node 3 changes the order in which the other new nodes are inserted, hence the order in which links are completed.
Without node 3 the link `u` of node 5 gets its opposite first and answers for the link `x` too; with it, `x` comes first and finds two
possible opposites. -/
theorem C16_commit_fails :
    let w := run choice true World.init choice3
    let r1 := got (Trans.new 0, 0, []) (TOp.run (transAt w 1) (cntAt w 1) (.insert (cA 0 0)))
    let r2 := got (Trans.new 0, 0, []) (runOps r1.1 r1.2.1 choiceOps)
    let r3 := got (Trans.new 0, 0, []) (runOps (transAt w 1) r1.2.1 choiceOps)
    Reaches choice true AnyCall w ∧ hasBoth w 0 1 = true ∧ (TOp.insert (cA 0 0)).Allowed choice (transAt w 1) ∧ r1.2 = (3, [3]) ∧
    OpsAllowed choice r1.1 r1.2.1 choiceOps ∧ (∀ o ∈ choiceOps, target o ≠ some 3) ∧ r2.2 = (5, [[4], [5], []]) ∧ r3.2 = r2.2 ∧
    (r2.1.remove 3).pending = r3.1.pending ∧ (graphAt w 0).commit choice true (r2.1.remove 3) = .error .multiChoice ∧
    ((graphAt w 0).commit choice true r3.1).toOption.isSome = true := by
  intro w r1 r2 r3
  have hr : Reaches choice true AnyCall w := reaches choice3 (by decide +kernel)
  have hB : Building choice true AnyCall (transAt w 1) (cntAt w 1) := building_of hr 1 (by decide +kernel)
  have ha : (TOp.insert (cA 0 0)).Allowed choice (transAt w 1) := wt_sound (by decide +kernel)
  have hos : OpsAllowed choice r1.1 r1.2.1 choiceOps :=
    ⟨wt_sound (by decide +kernel), fun _ _ _ _ => ⟨wt_sound (by decide +kernel), fun _ _ _ _ => ⟨trivial, fun _ _ _ _ => trivial⟩⟩⟩
  have hi : ∀ o ∈ choiceOps, target o ≠ some 3 := by decide
  have h1 : r1.2 = (3, [3]) := by decide +kernel
  have e1 : TOp.run (transAt w 1) (cntAt w 1) (.insert (cA 0 0)) = .ok (r1.1, r1.2.1, [3]) :=
    (got_ok (d := (Trans.new 0, 0, [])) (by decide +kernel)).trans (congrArg Except.ok (Prod.ext rfl (Prod.ext rfl (congrArg Prod.snd h1))))
  have e2 : runOps r1.1 r1.2.1 choiceOps = .ok r2 := got_ok (by decide +kernel)
  have e4 : runOps (transAt w 1) r1.2.1 choiceOps = .ok r3 := got_ok (by decide +kernel)
  refine ⟨hr, by decide +kernel, ha, h1, hos, hi, by decide +kernel, by decide +kernel, ?_, panic_of (by decide +kernel), by decide +kernel⟩
  obtain ⟨t3, e3, hp⟩ := C16_withdraw choice_named hB (.inl ⟨_, rfl⟩) ha e1 hos hi (t2 := r2.1) (cnt2 := r2.2.1) (ls := r2.2.2) e2
  rw [hp]
  rw [e4, Except.ok.injEq] at e3
  rw [e3]

/-- C16: a node of the graph can be removed twice. -/
example : let w := run plain true World.init build1
    Meets plain true AnyCall (graphAt w 0) (transAt w 1) ∧ (graphAt w 0).get? 2 ≠ none :=
  ⟨meets_of (reaches build1 (by decide +kernel)) 0 1 (by decide +kernel), by decide +kernel⟩

/-- C17: there is a transaction to insert into (and to see that variants matter: `nA` and `nB` are of different variants). -/
example : let w := run plain true World.init build1
    Building plain true AnyCall (transAt w 1) (cntAt w 1) ∧ ((transAt w 1).insert (cntAt w 1) (nB 5)).toOption.isSome = true ∧ (nB 6).disc = (nB 5).disc :=
  ⟨building_of (reaches build1 (by decide +kernel)) 1 (by decide +kernel), by decide +kernel⟩

/-- A transaction that is empty again, and a graph that is not empty. -/
def build2 : List Step := build1 ++ [.call (.op 1 (.remove 3)), .call (.op 1 .allocUntyped), .call (.op 1 (.remove 4))]

/-- C35: a transaction in which everything was withdrawn is empty; one with a pending node is not. -/
example : let w := run plain true World.init build2
    Meets plain true AnyCall (graphAt w 0) (transAt w 1) ∧ (transAt w 1).isEmpty plain = true ∧ (graphAt w 0).len plain = 2 ∧
    (transAt (run plain true World.init build1) 1).isEmpty plain = false :=
  ⟨meets_of (reaches build2 (by decide +kernel)) 0 1 (by decide +kernel), by decide +kernel⟩

/-- Two interleavings of the same calls. -/
def calls1 : List TOp := [.remove 2, .insert (nB 2), .redirectLinks 2 1, .redirectAllLinks 2 3, .mutate 1 (const (nA 1 [] [] 8)), .alloc 1, .remove 1]
def calls2 : List TOp := [.insert (nB 2), .redirectAllLinks 2 3, .alloc 1, .mutate 1 (const (nA 1 [] [] 8)), .redirectLinks 2 1, .remove 2, .remove 1]

/-- C42: they are different sequences with the same calls of each kind, on nodes of the graph. -/
example : let w := run plain true World.init build1
    Reaches plain true AnyCall w ∧ (∀ k, ofKind k calls1 = ofKind k calls2) ∧ calls1.map kind ≠ calls2.map kind ∧
    OpsAllowed plain (transAt w 1) (cntAt w 1) calls1 ∧ OpsAllowed plain (transAt w 1) (cntAt w 1) calls2 ∧
    (∀ o ∈ calls1, kind o ≠ .build → ∀ i, target o = some i → (graphAt w 0).get? i ≠ none) := by
  have hc : Closure.Typed plain (const (nA 1 [] [] 8)) := const_typed (wt_sound (by decide +kernel))
  refine ⟨reaches build1 (by decide +kernel), fun k => by cases k <;> rfl, by decide +kernel, ?_, ?_, ?_⟩
  · refine ⟨trivial, fun _ _ _ _ => ⟨wt_sound (by decide +kernel), fun _ _ _ _ => ⟨?_, fun _ _ _ _ => ⟨?_, fun _ _ _ _ => ⟨hc, fun _ _ _ _ =>
      ⟨?_, fun _ _ _ _ => ⟨trivial, fun _ _ _ _ => trivial⟩⟩⟩⟩⟩⟩⟩ <;> simp only [TOp.Allowed] <;> decide +kernel
  · refine ⟨wt_sound (by decide +kernel), fun _ _ _ _ => ⟨?_, fun _ _ _ _ => ⟨?_, fun _ _ _ _ => ⟨hc, fun _ _ _ _ => ⟨?_, fun _ _ _ _ =>
      ⟨trivial, fun _ _ _ _ => ⟨trivial, fun _ _ _ _ => trivial⟩⟩⟩⟩⟩⟩⟩ <;> simp only [TOp.Allowed] <;> decide +kernel
  · simp only [calls1, List.forall_mem_cons, kind, target, ne_eq, reduceCtorEq, not_true_eq_false, not_false_eq_true, false_implies, true_implies,
      Option.some.injEq, forall_eq', implies_true, true_and, List.not_mem_nil, and_true]
    decide +kernel

end TTGraph.Demo
