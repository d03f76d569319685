import Verif.Props.Vec
import Verif.Demo.Traced
import Verif.Lemmas.MachineInv
import Verif.Props.Iter
import Verif.Props.Checks

/-!
# Programs behave like the abstract machine: C61
-/

set_option autoImplicit false

namespace TTGraph
open Spec
variable [SetImpl] {S : Schema} {dbg : Bool} {R : World → Call → Prop}

theorem machine_accepts (hw : WellNamed S) {g g' : Graph} {t : Trans} {cs : GraphCheck} (h : Meets S dbg R g t)
    (hc : g.commitChecked S dbg t cs = .ok g') : Machine.Accepts S cs t.pending g.get? g'.get? := by
  obtain ⟨v6, r, out, h3, h4⟩ := checked_out hw h hc
  obtain ⟨k1, k2, k3⟩ := Graph.checkChange_nil.1 h4
  refine ⟨v6, machine_performed.2 out.performed, out.same, fun name f x m y hf ha hk => ?_, fun name f x m y hf ha hk => ?_⟩
  · have hx : x ∈ (Graph.changedNodes r).elems := by
      rw [Graph.mem_changedNodes]
      rcases ha with ha | ha
      · exact ⟨(x, y, m), Or.inl ((h3 x m y hk).1.2 ha), rfl⟩
      · exact ⟨(x, y, m), Or.inr ((h3 x m y hk).2.2 ha), rfl⟩
    exact Graph.runNodeCheck_true.1 (k1 _ (Sorted.get?_eq_some.1 hf) x hx)
  · have hm := (h3 x m y hk).1.2 ha
    rcases hf with hf | hf
    · exact Graph.runLinkCheck_true.1 (k2 _ (Sorted.get?_eq_some.1 hf) (x, y, m) hm)
    · exact Graph.runLinkCheck_true.1 (k3 _ (Sorted.get?_eq_some.1 hf) (x, y, m) hm)

/-- Every call does to the objects of a program what the abstract machine allows it to do. -/
theorem C61_simulates (hw : WellNamed S) (hR : ∀ w k g, R w (.merge k g) → dbg = true)
    (hC : ∀ w c, R w c → NoCatch w c) {w : World} {tr : Nat → List Event} (h : Traced S dbg R w tr) {call : Call} (ha : call.Allowed S w)
    (hr : R w call) : Machine.Step S dbg (w.meaning tr) call ((w.exec S dbg call).meaning (record w tr call)) := by
  have hW := h.reaches.inv hw
  have noctx : ∀ {c}, w.ctx c = none → (w.meaning tr).used c = none := fun hc => by simp [World.meaning, hc]
  have nograph : ∀ {g}, w.graph g = none → (w.meaning tr).graph g = none := fun hc => by simp [World.meaning, hc]
  have notrans : ∀ {k}, w.trans k = none → (w.meaning tr).trans k = none := fun hc => by simp [World.meaning, hc]
  cases call with
  | newContext c u =>
    have := Machine.Step.newContext (S := S) (dbg := dbg) (u := u) (noctx ha.1)
    simp only [World.exec, record, meaning_addCtx, usedUpTo_zero]
    exact this
  | defaultContext c =>
    have := Machine.Step.defaultContext (S := S) (dbg := dbg) (noctx ha)
    simp only [World.exec, record, meaning_addCtx, usedUpTo_zero]
    exact this
  | newGraph g c =>
    cases hc : w.ctx c with
    | none =>
      simp only [World.exec, record, hc]
      exact .missing (noctx hc)
    | some x =>
      simp only [World.exec, record, hc, meaning_setGraph]
      have e : (fun e : Nat × Graph => (e.1, e.2.get?)) (c, Graph.new x.uuid) = (c, fun _ => none) := by
        have : (Graph.new x.uuid).get? = fun _ => none := by funext i; exact Arena.new_get? i
        simp only [this]
      simp only [Option.map_some, e]
      exact .newGraph (by rw [meaning_ctx hc]; simp) (nograph ha)
  | newTrans k c =>
    cases hc : w.ctx c with
    | none =>
      simp only [World.exec, record, hc, meaning_put_none w tr ha]
      exact .missing (noctx hc)
    | some x =>
      simp only [World.exec, record, hc, meaning_setTrans]
      have e : (Trans.new x.uuid).pending = ⟨fun _ => none, fun _ => False, fun _ => False, [], [], [], []⟩ := by
        simp only [Trans.pending, Pending.mk.injEq]
        refine ⟨funext fun i => Arena.new_get? i, funext fun i => ?_, funext fun i => ?_, rfl, rfl, rfl, rfl⟩
        · exact eq_false (OrderSet.not_mem_empty i)
        · exact eq_false (OrderSet.not_mem_empty i)
      rw [e]
      exact .newTrans (by rw [meaning_ctx hc]; simp) (notrans ha)
  | op k o =>
    cases hk : w.trans k with
    | none =>
      simp only [World.exec, record, hk]
      exact .missing (notrans hk)
    | some p =>
      obtain ⟨c, t⟩ := p
      obtain ⟨x, hc, _, hrd⟩ := hW.trans k c t hk
      have ho := ha c t hk
      have hb : Building S dbg R t x.cnt := ⟨w, k, c, x, h.reaches, hk, hc, rfl⟩
      have href := machine_refused hw hR h hk hc ho
      simp only [World.exec, record, hk, hc]
      cases hrun : o.run t x.cnt with
      | error e =>
        simp only [meaning_setTrans_none]
        exact .opPanics (meaning_trans hk) (machine_permitted ho) (href.2 ⟨e, hrun⟩)
      | ok q =>
        obtain ⟨t', cnt', l⟩ := q
        simp only
        have hg := Trans.run_grown hrd (hb.ready hw).2 ho hrun
        have hl := hg.list
        have hle := hg.le
        rw [meaning_setTrans, meaning_issue]
        have e1 : usedUpTo cnt' = Machine.use (usedUpTo x.cnt) l := by
          rw [hl, use_range]
          congr 1
          omega
        have e2 : slotAfter (tr k ++ [.op o l]) = fun i => Event.slot i (slotAfter (tr k) i) (.op o l) := by
          funext i
          exact slotAfter_append _ _ _
        rw [e1, e2]
        exact .op (meaning_trans hk) (meaning_ctx hc) (machine_permitted ho) (fun hf => by obtain ⟨e, he⟩ := href.1 hf; rw [hrun] at he; exact absurd he (by simp))
          (by rw [hl]; exact fresh_range _ _) (C45_effect hw hb ho hrun)
  | merge k g =>
    cases hk : w.trans k with
    | none =>
      have e : w.meaning (record w tr (.merge k g)) = w.meaning tr := by
        simp only [record]
        split
        · exact meaning_put_none w tr hk _
        · rfl
      simp only [World.exec, hk, e]
      exact .missing (Or.inl (notrans hk))
    | some p =>
      obtain ⟨c, t⟩ := p
      cases hg : w.graph g with
      | none =>
        simp only [World.exec, record, hk, hg]
        exact .missing (Or.inr (nograph hg))
      | some q =>
        obtain ⟨c', gr⟩ := q
        obtain rfl := ha c t c' gr hk hg
        have hm : Meets S dbg R gr t := ⟨w, g, k, c, h.reaches, hg, hk⟩
        obtain ⟨t', h1, h2, h3⟩ := C34_pending hw hm
        simp only [World.exec, record, hk, hg, h1, meaning_setGraph, meaning_setTrans, Option.map_none, h2]
        have e2 : slotAfter (tr k ++ [.merged gr]) = fun i => if (gr.get? i).isSome then .filled else slotAfter (tr k) i := by
          funext i
          exact slotAfter_append _ _ _
        rw [e2]
        exact .merge (meaning_trans hk) (meaning_graph hg) fun i => by
          have := h3 i
          by_contra hne
          simp only [not_or] at hne
          exact this hne
  | commit g k =>
    cases hk : w.trans k with
    | none =>
      simp only [World.exec, record, hk]
      exact .missing (Or.inl (notrans hk))
    | some p =>
      obtain ⟨c, t⟩ := p
      cases hg : w.graph g with
      | none =>
        simp only [World.exec, record, hk, hg]
        exact .missing (Or.inr (nograph hg))
      | some q =>
        obtain ⟨c', gr⟩ := q
        obtain rfl := ha c t c' gr hk hg
        have hm : Meets S dbg R gr t := ⟨w, g, k, c, h.reaches, hg, hk⟩
        simp only [World.exec, record, hk, hg]
        cases hc : gr.commit S dbg t with
        | ok gr' =>
          simp only [meaning_setGraph, meaning_setTrans_none, Option.map_some]
          exact .commit (meaning_trans hk) (meaning_graph hg) (machine_commit_ok hw hm hc)
        | error e =>
          simp only [meaning_setGraph, meaning_setTrans_none, Option.map_none]
          exact .commitPanics (meaning_trans hk) (meaning_graph hg) (machine_commit_err hw hm hc)
  | commitChecked g k cs =>
    cases hk : w.trans k with
    | none =>
      simp only [World.exec, record, hk]
      exact .missing (Or.inl (notrans hk))
    | some p =>
      obtain ⟨c, t⟩ := p
      cases hg : w.graph g with
      | none =>
        simp only [World.exec, record, hk, hg]
        exact .missing (Or.inr (nograph hg))
      | some q =>
        obtain ⟨c', gr⟩ := q
        obtain rfl := ha c t c' gr hk hg
        have hm : Meets S dbg R gr t := ⟨w, g, k, c, h.reaches, hg, hk⟩
        simp only [World.exec, record, hk, hg]
        cases hc : gr.commitChecked S dbg t cs with
        | ok gr' =>
          simp only [meaning_setGraph, meaning_setTrans_none, Option.map_some]
          exact .commitChecked (meaning_trans hk) (meaning_graph hg) (machine_commit_ok hw hm (Graph.commit_of_checked hc))
            (machine_accepts hw hm hc)
        | error e =>
          simp only [meaning_setGraph, meaning_setTrans_none, Option.map_none]
          refine .commitCheckedPanics (meaning_trans hk) (meaning_graph hg) ?_
          by_cases hcs : cs = GraphCheck.new
          · subst hcs
            rw [commitChecked_new] at hc
            exact Or.inr (machine_commit_err hw hm hc)
          · exact Or.inl hcs
  | commitCaught g k => exact (hC w _ hr).elim
  | dropTrans k =>
    simp only [World.exec, record, meaning_setTrans_none]
    exact .dropTrans
  | dropGraph g =>
    simp only [World.exec, record, meaning_setGraph, Option.map_none]
    exact .dropGraph
  | switchContext g c =>
    cases hg : w.graph g with
    | none =>
      simp only [World.exec, record, hg]
      exact .missing (Or.inl (nograph hg))
    | some q =>
      obtain ⟨c0, gr⟩ := q
      cases hc : w.ctx c with
      | none =>
        simp only [World.exec, record, hg, hc]
        exact .missing (Or.inr (noctx hc))
      | some x =>
        obtain ⟨_, _, _, hgi⟩ := hW.graph g c0 gr hg
        obtain ⟨a0, idMap, a, h1, h2, _⟩ := Graph.switchNodes_ok hw.variants hgi x.cnt
        have hreach : Reachable S dbg R gr := ⟨w, g, c0, h.reaches, hg⟩
        simp only [World.exec, record, hg, hc, h1]
        have e1 : usedUpTo (x.cnt + (gr.iter S).length) = Machine.use (usedUpTo x.cnt) (List.range' (x.cnt + 1) (gr.iter S).length) := (use_range _ _).symm
        cases hs : gr.switchContext S x.uuid x.cnt with
        | ok p =>
          obtain ⟨gr', cnt'⟩ := p
          simp only [meaning_setGraph, meaning_issue, Option.map_some, e1]
          exact .switchContext (meaning_graph hg) (meaning_ctx hc) (fresh_range _ _) (machine_switch_ok hw hgi hs)
        | error e =>
          simp only [meaning_setGraph, meaning_issue, Option.map_none, e1]
          refine .switchPanics (meaning_graph hg) (meaning_ctx hc) (fresh_range _ _) ?_
          rintro ⟨k1, k2, k3, k4⟩
          obtain ⟨g', cnt', _, k5, _, _⟩ := C32_returns_partial hw x.uuid x.cnt hreach k1 k2 k3
            (no_collision (fun i hi => ((iter_order hw hgi).2 i).1 hi) (by rw [List.length_map]; exact k4))
          rw [hs] at k5
          exact absurd k5 (by simp)
  | deserialize g c input =>
    obtain ⟨hg, hc, hin⟩ := ha
    rcases Graph.deserialize_cases hw hin with ⟨hnd, a, h1, h2, ⟨gr, k1, k2⟩ | ⟨k1, _, k3⟩ | ⟨k1, k3⟩ | ⟨k1, k3⟩⟩ | ⟨hnd, k1⟩
    · simp only [World.exec, record, k1, meaning_setGraph, meaning_addCtx, Option.map_some]
      refine .load (nograph hg) (noctx hc) ⟨hnd, a.get?, fun i n => h1.get i n, k2.noConflict, Graph.not_missing k2.completion k2.covered, k2.completion⟩ fun i hi => ?_
      have hi' : a.get? i ≠ none := fun e => hi ((LoadOut.none_iff k2 i).2 e)
      obtain ⟨n, hn⟩ := Option.ne_none_iff_exists'.1 hi'
      have hm := (h1.get i n).1 hn
      exact ⟨(hin _ hm).1, (Graph.le_maxIndex input.nodes 0).1 _ hm⟩
    all_goals
      simp only [World.exec, record, k1]
      refine .loadPanics ?_
      rintro ⟨l1, l2⟩
    · exact (l2 a.get? fun i n => h1.get i n).2.1 k3
    · exact (l2 a.get? fun i n => h1.get i n).1 k3
    · exact (l2 a.get? fun i n => h1.get i n).2.2 k3
    · exact hnd l1

/-- The objects of a program, as a program can reach them, are objects that the abstract machine can reach. -/
theorem C61_refines (hw : WellNamed S) (hR : ∀ w k g, R w (.merge k g) → dbg = true)
    (hC : ∀ w c, R w c → NoCatch w c) {w : World} {tr : Nat → List Event} (h : Traced S dbg R w tr) : Machine.Reaches S dbg (w.meaning tr) := by
  induction h with
  | init => exact .init
  | step h1 h2 h3 ih => exact .step ih (C61_simulates hw hR hC h1 h2 h3)

omit [SetImpl] in
/-- A consequence that is derived from the machine alone: an index that an object holds has been used, no two objects of one context hold the
same index, and the state of an index in the protocol of `alloc` and `fill_back` is what the pending operations show. -/
theorem C61_exclusive {a : Machine.State} (h : Machine.Reaches S dbg a) :
    (∀ o c i, Machine.Owns a o c i → ∃ U, a.used c = some U ∧ U i) ∧
    (∀ o o' c i, Machine.Owns a o c i → Machine.Owns a o' c i → o = o') ∧
    ∀ k c p s, a.trans k = some (c, p, s) → ∀ i, Machine.Fits p i (s i) :=
  ⟨h.inv.used, h.inv.disj, h.inv.fits⟩

/-- Nothing but the view can be seen of a graph through `len`, `is_empty`, `iter` and serialization, except the order of the nodes. -/
theorem C61_observers (hw : WellNamed S) {dbg' : Bool} {R' : World → Call → Prop} {g g' : Graph} (h : Reachable S dbg R g)
    (h' : Reachable S dbg' R' g') (he : g.get? = g'.get?) :
    g.len S = g'.len S ∧ g.isEmpty S = g'.isEmpty S ∧ (g.iter S).Perm (g'.iter S) ∧
      (g.serialize S).nodes.Perm (g'.serialize S).nodes := by
  obtain ⟨l, _, _, _, h1, h2, rfl, h3, _⟩ := C18_iter hw h
  obtain ⟨l', _, _, _, h1', h2', rfl, h3', _⟩ := C18_iter hw h'
  have hp : (g.iter S).Perm (g'.iter S) := by
    refine (List.perm_ext_iff_of_nodup (List.Nodup.of_map _ h1) (List.Nodup.of_map _ h1')).2 fun e => ?_
    rw [h2 e.1 e.2, h2' e.1 e.2, he]
  have hlen : g.len S = g'.len S := by rw [h3, h3', hp.length_eq]
  exact ⟨hlen, by simp only [Graph.isEmpty, hlen], hp, hp⟩

end TTGraph

namespace TTGraph.Demo
open Spec

/-- `NoCatch` by evaluation. -/
def noCatchStep (_ : World) : Step → Bool
  | .call (.commitCaught _ _) => false
  | _ => true

theorem noCatchStep_ok (w : World) (s : Step) (h : noCatchStep w s = true) : NoCatch w s.call' := by
  cases s with
  | call c => cases c with
    | commitCaught _ _ => exact absurd h (by simp [noCatchStep])
    | _ => trivial
  | _ => trivial

/-- Two graphs of one context; the second is merged into a transaction with an unfilled index; the first is moved to another context; a commit that
panics; a file. -/
def prog61 : List Step :=
  [.call (.newContext 0 77), .call (.newGraph 0 0), .call (.newTrans 0 0), .call (.op 0 (.insert (pA 2 []))), .call (.op 0 (.insert (pB [] 0))),
   .call (.commit 0 0), .call (.newGraph 1 0), .call (.newTrans 1 0), .call (.op 1 (.insert (pB [] 0))), .call (.commit 1 1),
   .call (.newTrans 2 0), .call (.op 2 (.alloc 1)), .call (.merge 2 1), .call (.newContext 1 88), .call (.switchContext 0 1),
   .call (.newGraph 2 0), .call (.newTrans 3 0), .call (.op 3 (.remove 3)), .call (.commit 2 3),
   .call (.deserialize 3 2 ⟨99, [(4, pA 9 []), (9, pB [] 0)]⟩)]

/-- C61: the hypotheses are met by this program. -/
theorem prog61_traced : Traced pair true NoCatch (run pair true World.init prog61) (traceOf pair true World.init (fun _ => []) prog61) :=
  traced_run noCatchStep_ok prog61 (us := []) .init (fun _ _ h => absurd h (by simp [World.init])) (by decide +kernel)

example : Machine.Reaches pair true ((run pair true World.init prog61).meaning (traceOf pair true World.init (fun _ => []) prog61)) :=
  C61_refines pair_named (fun _ _ _ _ => rfl) (fun _ _ h => h) prog61_traced

/-- C61: what the machine knows at the end of this program.  Graph 0 is in context 1 and its links go both ways; transaction 2 holds the node of
the merged graph and an unfilled index; graph 2 and transaction 3 are gone; graph 3 is completed; context 2 continues after its highest index. -/
example : let a := (run pair true World.init prog61).meaning (traceOf pair true World.init (fun _ => []) prog61)
    (∃ v, a.graph 0 = some (1, v) ∧ v 1 = some (pA 2 []) ∧ v 2 = some (pB [1] 0)) ∧
    (∃ p s, a.trans 2 = some (0, p, s) ∧ p.new 3 = some (pB [] 0) ∧ p.unfilled 4 ∧ s 3 = .filled ∧ s 4 = .reserved 1) ∧
    a.graph 2 = none ∧ a.trans 3 = none ∧ (∃ v, a.graph 3 = some (2, v) ∧ v 9 = some (pB [4] 0)) ∧ ∃ U, a.used 2 = some U ∧ U 9 ∧ ¬ U 10 := by
  refine ⟨⟨_, rfl, by decide +kernel, by decide +kernel⟩, ⟨_, _, rfl, by decide +kernel, ?_, by decide +kernel, by decide +kernel⟩, rfl, rfl,
    ⟨_, rfl, by decide +kernel⟩, _, rfl, ⟨by decide, by decide +kernel⟩, fun h => absurd h.2 (by decide +kernel)⟩
  show (4 : NodeIndex) ∈ (transAt (run pair true World.init prog61) 2).allocs
  decide +kernel

/-- C61: a `Vec` with an opposite.  The parent drops a child; then a child is removed from its parent without the parent's knowledge, which panics. -/
def own61 : List Step :=
  own4 ++ [.mutate 1 3 (cP [1]), .call (.commit 0 1), .call (.newTrans 2 0), .mutate 2 1 (cC 0), .call (.commit 0 2)]

theorem own61_traced : Traced owner true NoCatch (run owner true World.init own61) (traceOf owner true World.init (fun _ => []) own61) :=
  traced_run noCatchStep_ok own61 (us := []) .init (fun _ _ h => absurd h (by simp [World.init])) (by decide +kernel)

example : Machine.Reaches owner true ((run owner true World.init own61).meaning (traceOf owner true World.init (fun _ => []) own61)) :=
  C61_refines owner_named (fun _ _ _ _ => rfl) (fun _ _ h => h) own61_traced

example : ((run owner true World.init own61).meaning (traceOf owner true World.init (fun _ => []) own61)).graph 0 = none ∧
    ∃ v, ((run owner true World.init (own61.take 10)).meaning (traceOf owner true World.init (fun _ => []) (own61.take 10))).graph 0 = some (0, v) ∧
      v 1 = some (cC 3) ∧ v 2 = some (cC 0) ∧ v 3 = some (cP [1]) :=
  ⟨rfl, _, rfl, by decide +kernel, by decide +kernel, by decide +kernel⟩

end TTGraph.Demo
