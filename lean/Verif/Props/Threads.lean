import Verif.Spec.Threads
import Verif.Props.Catching
import Verif.Props.Interleaved

/-!
# C86: programs with several threads that catch panics
-/

set_option autoImplicit false

namespace TTGraph
open Spec
variable [SetImpl] {S : Schema} {dbg : Bool} {R : World → Call → Prop}

/-- A caught panic keeps the invariant and the contexts, and gives nobody an index. -/
theorem World.WInv.catches {w w' : World} (h : World.WInv S w) (hc : Catches S dbg w w') :
    World.WInv S w' ∧ w'.ctx = w.ctx ∧ ∀ o c i, w'.Owns o c i → ∃ o1, w.Owns o1 c i := by
  cases hc with
  | @method k c t x o e part ht hx ho hrun hp =>
    obtain ⟨_, _, _, hrd⟩ := h.trans k c t ht
    have hb : ∀ i : Nat, t.Owns i → i ≠ emptyIdx ∧ i ≤ x.cnt := by
      intro i hi
      obtain ⟨x', hx', h2⟩ := h.bound (.inr k) c i ⟨t, ht, hi⟩
      rw [hx] at hx'
      simp only [Option.some.injEq] at hx'
      subst hx'
      exact h2
    have key : ∀ t', Trans.Grown S t t' x.cnt x.cnt [] → World.WInv S (w.setTrans k (some (c, t'))) ∧
        (w.setTrans k (some (c, t'))).ctx = w.ctx ∧ ∀ o c1 i, (w.setTrans k (some (c, t'))).Owns o c1 i → ∃ o1, w.Owns o1 c1 i := by
      intro t' hg
      have h1 := h.op ht hx hg
      rw [World.issue_nil hx] at h1
      refine ⟨h1, rfl, fun o c1 i hi => ?_⟩
      rcases World.owns_setTrans hi with h2 | ⟨rfl, h2⟩
      · exact ⟨o, h2⟩
      · rcases hg.owns i h2 with h3 | h3
        · exact ⟨.inr k, t, ht, h3⟩
        · omega
    rcases TOp.left_ready part hrd hrun with h1 | ⟨i, n, m, h1, h2, h3⟩ | ⟨i, f, n, rfl, h2, _⟩
    · rw [h1, World.setTrans_self ht]
      exact ⟨h, rfl, fun o _ _ h => ⟨o, h⟩⟩
    · have hwt := left_typed hrd ho hp h1 h2
      have hr2 : (TOp.mutate i (fun _ => .ok m)).run t x.cnt = .ok (o.left part t, x.cnt, []) := by simp only [TOp.run, h3, Except.map]
      have ha : (TOp.mutate i (fun _ => .ok m)).Allowed S t := fun n0 n' _ e => by
        simp only [Except.ok.injEq] at e
        exact e ▸ hwt
      exact key _ (Trans.run_grown hrd hb ha hr2)
    · obtain ⟨k1, k2, k3⟩ := left_update_ready (f := f) part hrd h2
      exact key _ ⟨k1, k2, by simp, Nat.le_refl _, fun j hj => .inl (k3 j hj)⟩
  | @merge k g => exact ⟨h.setGraph_none g, rfl, fun o c i ho => ⟨o, (World.owns_setGraph_none ho).1⟩⟩
  | @commit k g c c' t gr gr' ht hg hd hne hl =>
    subst hd
    have e : gr' = gr := by
      simp only [Graph.commitLeft, Graph.commitLeftWith, Bool.true_and, hne, ne_eq, not_false_eq_true, decide_true, if_true, Option.some.injEq] at hl
      exact hl.symm
    subst e
    rw [World.setGraph_self (w := w.setTrans k none) hg]
    exact ⟨h.setTrans_none k, rfl, fun o c i ho => ⟨o, (World.owns_setTrans_none ho).1⟩⟩

theorem Spec.Threaded.inv (hw : WellNamed S) {w : World} {mv : Nat → Option Moving} (h : Threaded S dbg R w mv) : MInv S w mv := by
  induction h with
  | init => exact ⟨World.init_inv S, by simp, by simp, by simp, by simp, by simp⟩
  | call _ ha _ ih =>
    refine ih.world_step (ih.world.exec hw dbg _ ha) (fun c x hx => ?_) (fun _ _ _ _ _ _ _ k => k.exec hw dbg ih.world _ ha)
    obtain ⟨x', h1, _⟩ := World.exec_cnt hw dbg ih.world ha hx
    exact ⟨x', h1⟩
  | caught _ hc ih =>
    obtain ⟨h1, h2, h3⟩ := ih.world.catches hc
    exact ih.world_step h1 (fun c x hx => ⟨x, by rw [h2]; exact hx⟩) (fun _ _ _ _ _ _ _ k => k.quiet (by rw [h2]) fun o ho => h3 o _ _ ho)
  | start _ _ hg hx ih => exact ih.start hg hx
  | draw _ hm hx _ ih => exact ih.draw hm hx
  | finish _ hm hx hl hs ih => exact ih.finish hw hm hx hl hs
  | panic _ _ _ _ _ ih => exact ih.drop _

/-- Whatever panics the threads catch, and whatever they do while others are in the middle of a `switch_context`, the objects of the program
keep their guarantees: indices are unique, a node belongs to one object, back-links are exact, methods and commits do what they say. -/
theorem C86_intact (hw : WellNamed S) {w : World} {mv : Nat → Option Moving} (h : Threaded S dbg R w mv) : Intact S dbg w :=
  (h.inv hw).world.intact hw dbg

/-- What a `switch_context` has drawn is reserved for it, whatever panics the other threads catch in the meantime. -/
theorem C86_reserved (hw : WellNamed S) {w : World} {mv : Nat → Option Moving} (h : Threaded S dbg R w mv) {m c : Nat} {g : Graph}
    {ds : List Nat} (hm : mv m = some ⟨c, g, ds⟩) :
    ds.Nodup ∧ ∀ d ∈ ds, Nowhere w c (d + 1) ∧ ∀ m' g' ds', mv m' = some ⟨c, g', ds'⟩ → d ∈ ds' → m' = m :=
  ⟨(h.inv hw).nodup m c g ds hm, fun d hd => ⟨((h.inv hw).gone m c g ds hm d hd).nowhere,
    fun m' g' ds' hm' hd' => (h.inv hw).apart m' m c g' g ds' ds hm' hm d hd' hd⟩⟩

/-- A `switch_context` that returns gives every node the index that it drew for it, distinct from those of the other nodes, and keeps variants,
data, kinds of links and lengths of `Vec`s. -/
theorem C86_nodes (hw : WellNamed S) {w : World} {mv : Nat → Option Moving} (h : Threaded S dbg R w mv) {m c u : Nat} {g g' : Graph}
    {ds : List Nat} (hm : mv m = some ⟨c, g, ds⟩) (hl : ds.length = g.len S) (hs : g.switchContextDraws S u ds = .ok g') :
    g'.ctxId = u ∧ ∃ ρ : NodeIndex → NodeIndex,
      (∀ (p : Nat) (i : NodeIndex) (d : Nat), ((g.iter S).map Prod.fst)[p]? = some i → ds[p]? = some d → ρ i = d + 1) ∧
      (∀ x y, g.get? x ≠ none → g.get? y ≠ none → ρ x = ρ y → x = y) ∧
      (∀ x', g'.get? x' ≠ none → ∃ x, g.get? x ≠ none ∧ ρ x = x') ∧
      ∀ x n, g.get? x = some n → ∃ n', g'.get? (ρ x) = some n' ∧ n'.shape = n.shape :=
  Graph.switchDraws_nodes hw ((h.inv hw).graph m c g ds hm) ((h.inv hw).nodup m c g ds hm) hl hs

/-- A caught panic concerns the object of the call that panics: the contexts and all other graphs and transactions are as before. -/
theorem C86_caught {w w' : World} (hc : Catches S dbg w w') : w'.ctx = w.ctx ∧ w'.issued = w.issued ∧
    ((∃ k, w'.graph = w.graph ∧ ∀ k', k' ≠ k → w'.trans k' = w.trans k') ∨ (∃ g, w'.trans = w.trans ∧ ∀ g', g' ≠ g → w'.graph g' = w.graph g')) := by
  cases hc with
  | @method k => exact ⟨rfl, rfl, .inl ⟨k, rfl, fun k' hk => by simp [World.setTrans, World.put, hk]⟩⟩
  | @merge k g => exact ⟨rfl, rfl, .inr ⟨g, rfl, fun k' hk => by simp [World.setGraph, World.put, hk]⟩⟩
  | @commit k g c c' t gr gr' ht hg hd hne hl =>
    subst hd
    have e : gr' = gr := by
      simp only [Graph.commitLeft, Graph.commitLeftWith, Bool.true_and, hne, ne_eq, not_false_eq_true, decide_true, if_true, Option.some.injEq] at hl
      exact hl.symm
    subst e
    rw [World.setGraph_self (w := w.setTrans k none) hg]
    exact ⟨rfl, rfl, .inl ⟨k, rfl, fun k' hk => by simp [World.setTrans, World.put, hk]⟩⟩

/-- Programs that only catch panics are a special case. -/
theorem C86_survives {C : TOp → Prop} {w : World} (h : Survives S dbg R C w) : Threaded S dbg R w (fun _ => none) := by
  induction h with
  | init => exact .init
  | step _ ha hr ih => exact .call ih ha hr
  | method _ ht hx ho _ hrun hp ih => exact ih.caught (.method ht hx ho hrun hp)
  | merge _ ht hg hm ih => exact ih.caught (.merge ht hg hm)
  | commit _ ht hg hd hne hl ih => exact ih.caught (.commit ht hg hd hne hl)

/-- Programs in which only `switch_context` takes its time are a special case. -/
theorem C86_interleaves {w : World} {mv : Nat → Option Moving} (h : Interleaves S dbg R w mv) : Threaded S dbg R w mv := by
  induction h with
  | init => exact .init
  | call _ ha hr ih => exact .call ih ha hr
  | start _ hm hg hx ih => exact .start ih hm hg hx
  | draw _ hm hx hl ih => exact .draw ih hm hx hl
  | finish _ hm hx hl hs ih => exact .finish ih hm hx hl hs
  | panic _ hm hx hl hs ih => exact .panic ih hm hx hl hs

end TTGraph

namespace TTGraph.Demo
open Spec

/-- C86: while the first thread is in the middle of its `switch_context`, the other one catches the panic of an `update` closure: its pending
node 2 is lost, and the draws 1, 3 and 4 of the first thread are still reserved. -/
example : let w := drawnAll.setTrans 1 (some (1, TOp.left id (transAt drawnAll 1) (.update 2 (fun _ => .error .user))))
    Threaded plain true AnyCall w theMove ∧ theMove 7 = some ⟨1, graphAt beforeMove 0, [0, 2, 3]⟩ ∧
    (transAt drawnAll 1).pending.new 2 = some (nB 9) ∧ (transAt w 1).pending.new 2 = none ∧ Nowhere w 1 4 := by
  have h : Threaded plain true AnyCall (drawnAll.setTrans 1 (some (1, TOp.left id (transAt drawnAll 1) (.update 2 (fun _ => .error .user))))) theMove :=
    (C86_interleaves drawnAll_interleaves).caught (.method (k := 1) (c := 1) (x := ⟨88, 4⟩) (o := .update 2 (fun _ => .error .user)) (e := .user)
      rfl rfl (.inl (fun _ _ _ e => absurd e (by simp))) rfl (id_keeps _))
  exact ⟨h, rfl, by decide +kernel, by decide +kernel, ((C86_reserved plain_named h (m := 7) rfl).2 3 (by simp)).1⟩

end TTGraph.Demo
