import Verif.Spec.Catching
import Verif.Spec.Machine
import Verif.Lemmas.Intact
import Verif.Lemmas.Gone
import Verif.Props.Panics

/-!
# Programs that catch panics: C83
-/

set_option autoImplicit false

namespace TTGraph
open Spec
variable [SetImpl] {S : Schema} {dbg : Bool} {R : World → Call → Prop} {C : TOp → Prop}

omit [SetImpl] in
theorem World.setGraph_self {w : World} {g : Nat} {v : Option (Nat × Graph)} (h : w.graph g = v) : w.setGraph g v = w := by
  subst h
  obtain ⟨a, b, c, d⟩ := w
  simp only [World.setGraph, World.mk.injEq, true_and, and_true]
  funext j
  simp only [World.put]
  split
  · rename_i e; rw [e]
  · rfl

omit [SetImpl] in
theorem World.setTrans_self {w : World} {k : Nat} {v : Option (Nat × Trans)} (h : w.trans k = v) : w.setTrans k v = w := by
  subst h
  obtain ⟨a, b, c, d⟩ := w
  simp only [World.setTrans, World.mk.injEq, true_and, and_true]
  funext j
  simp only [World.put]
  split
  · rename_i e; rw [e]
  · rfl

omit [SetImpl] in
theorem World.issue_nil {w : World} {c : Nat} {x : Ctx} (h : w.ctx c = some x) : w.issue c x x.cnt [] = w := by
  obtain ⟨a, b, d, e⟩ := w
  simp only [World.issue, World.mk.injEq, true_and, List.append_nil]
  constructor
  · funext j
    simp only [World.put]
    split
    · rename_i e; rw [e]; exact h.symm
    · rfl
  · funext j
    simp only [World.put]
    split
    · rename_i e; rw [e]
    · rfl

omit [SetImpl] in
/-- The node that a panicking method has left is well typed. -/
theorem left_typed {t : Trans} {o : TOp} {part : Node → Node} {i : NodeIndex} {n m : Node} (hrd : t.Ready S)
    (ho : o.Allowed S t ∨ ∃ i n, o = .fillBackUntyped i n ∧ S.WT n) (hp : KeepsTyped S part)
    (h1 : (o = .fillBack i m ∨ o = .fillBackUntyped i m) ∨ (∃ f, o = .mutate i f) ∧ m = part n) (h2 : t.pending.new i = some n) : S.WT m := by
  rcases h1 with (rfl | rfl) | ⟨⟨f, rfl⟩, rfl⟩
  · rcases ho with ho | ⟨_, _, e, _⟩
    · exact ho
    · exact absurd e (by simp)
  · rcases ho with ho | ⟨_, _, e, ho⟩
    · exact ho.1
    · simp only [TOp.fillBackUntyped.injEq] at e
      exact e.2 ▸ ho
  · exact hp _ (hrd.good.wt i n h2)

/-- A program that catches panics, but not those of `update` closures, reaches no world that it could not reach without any panic.  So
everything that is proved about programs holds for it, too.

Full statement of C83: the same for a program that also catches the panics of `update` closures.  That is false, see below. -/
theorem C83_no_new_worlds_partial (hw : WellNamed S) (hm : ∀ w k i f, R w (.op k (.mutate i f))) (hdt : ∀ w k, R w (.dropTrans k))
    (hdg : ∀ w g, R w (.dropGraph g)) {w : World} (h : Survives S dbg R (fun o => ∀ i f, o ≠ .update i f) w) : Reaches S dbg R w := by
  induction h with
  | init => exact .init
  | step _ ha hr ih => exact .step ih ha hr
  | @method w k c t x o e part _ ht hx ho hC hrun hp ih =>
    obtain ⟨_, _, _, hrd⟩ := (ih.inv hw).trans k c t ht
    rcases TOp.left_ready part hrd hrun with h1 | ⟨i, n, m, h1, h2, h3⟩ | ⟨i, f, n, rfl, _⟩
    · rw [h1, World.setTrans_self ht]
      exact ih
    · have hwt := left_typed hrd ho hp h1 h2
      have := ih.step (c := .op k (.mutate i (fun _ => .ok m))) (fun c t _ => (fun n0 n' _ e => by
        simp only [Except.ok.injEq] at e
        exact e ▸ hwt)) (hm _ _ _ _)
      simpa only [World.exec, ht, hx, TOp.run, h3, Except.map, World.issue_nil hx] using this
    · exact absurd rfl (hC i f)
  | merge _ _ _ _ ih => exact ih.step (c := .dropGraph _) trivial (hdg _ _)
  | @commit w k g c c' t gr gr' _ ht hg hd hne hl ih =>
    subst hd
    have e : gr' = gr := by
      simp only [Graph.commitLeft, Graph.commitLeftWith, Bool.true_and, hne, ne_eq, not_false_eq_true, decide_true, if_true, Option.some.injEq] at hl
      exact hl.symm
    subst e
    rw [World.setGraph_self (w := w.setTrans k none) hg]
    exact ih.step (c := .dropTrans k) trivial (hdt _ _)

omit [SetImpl] in
/-- A panicking `update` closure leaves a transaction that satisfies the invariant, with the same indices. -/
theorem left_update_ready {t : Trans} {i : NodeIndex} {f : Closure} {n : Node} (part : Node → Node) (h : t.Ready S) (hi : t.inc.get? i = some n) :
    (TOp.left part t (.update i f)).Ready S ∧ (TOp.left part t (.update i f)).ctxId = t.ctxId ∧
      ∀ j, (TOp.left part t (.update i f)).Owns j → t.Owns j := by
  have hp := TOp.left_update (f := f) part hi
  obtain ⟨d, hd, hc⟩ := Arena.get?_eq_some.1 hi
  have hl : TOp.left part t (.update i f) = { t with inc := t.inc.setCont d ((t.inc.cont d).swapRemove i) } := by simp only [TOp.left, hd]
  rw [hl] at hp ⊢
  have hget : ∀ j n, (t.inc.setCont d ((t.inc.cont d).swapRemove i)).get? j = some n → t.inc.get? j = some n := by
    intro j n hj
    have : upd t.pending.new i none j = some n := by
      rw [← hj]
      exact (congrFun (congrArg Pending.new hp) j).symm
    simp only [upd] at this
    split at this
    · exact absurd this (by simp)
    · exact this
  refine ⟨⟨⟨⟨?_, h.good.inv.decl⟩, ?_, fun j n hj => h.good.wt j n (hget j n hj), h.good.closures⟩, h.noFrom, ?_⟩, rfl, fun j hj => hj⟩
  · intro d' j n hj
    simp only [Arena.setCont] at hj
    by_cases e : d' = d
    · subst e
      rw [if_pos rfl, OrderMap.get?_swapRemove] at hj
      split at hj
      · exact absurd hj (by simp)
      · exact h.good.inv.home _ _ _ hj
    · rw [if_neg e] at hj
      exact h.good.inv.home _ _ _ hj
  · cases hj : (t.inc.setCont d ((t.inc.cont d).swapRemove i)).get? emptyIdx with
    | none => rfl
    | some n =>
      have := h.good.noEmpty
      rw [hget _ _ hj] at this
      exact absurd this (by simp)
  · intro j hj
    cases hj' : (t.inc.setCont d ((t.inc.cont d).swapRemove i)).get? j with
    | none => rfl
    | some n =>
      have := h.allocs j hj
      rw [hget _ _ hj'] at this
      exact absurd this (by simp)

/-- The invariant holds whatever the program catches. -/
theorem Spec.Survives.inv (hw : WellNamed S) {w : World} (h : Survives S dbg R C w) : World.WInv S w := by
  induction h with
  | init => exact World.init_inv S
  | step _ ha _ ih => exact ih.exec hw dbg _ ha
  | @method w k c t x o e part _ ht hx ho hC hrun hp ih =>
    obtain ⟨_, _, _, hrd⟩ := ih.trans k c t ht
    have hb : ∀ i : Nat, t.Owns i → i ≠ emptyIdx ∧ i ≤ x.cnt := by
      intro i hi
      obtain ⟨x', hx', h2⟩ := ih.bound (.inr k) c i ⟨t, ht, hi⟩
      rw [hx] at hx'
      simp only [Option.some.injEq] at hx'
      subst hx'
      exact h2
    rcases TOp.left_ready part hrd hrun with h1 | ⟨i, n, m, h1, h2, h3⟩ | ⟨i, f, n, rfl, h2, _⟩
    · rw [h1, World.setTrans_self ht]
      exact ih
    · have hwt := left_typed hrd ho hp h1 h2
      have hr2 : (TOp.mutate i (fun _ => .ok m)).run t x.cnt = .ok (o.left part t, x.cnt, []) := by simp only [TOp.run, h3, Except.map]
      have ha : (TOp.mutate i (fun _ => .ok m)).Allowed S t := fun n0 n' _ e => by
        simp only [Except.ok.injEq] at e
        exact e ▸ hwt
      have hg := Trans.run_grown hrd hb ha hr2
      have := ih.op ht hx hg
      rwa [World.issue_nil hx] at this
    · obtain ⟨k1, k2, k3⟩ := left_update_ready (f := f) part hrd h2
      have hg : Trans.Grown S t (TOp.left part t (.update i f)) x.cnt x.cnt [] :=
        ⟨k1, k2, by simp, Nat.le_refl _, fun j hj => .inl (k3 j hj)⟩
      have := ih.op ht hx hg
      rwa [World.issue_nil hx] at this
  | merge _ _ _ _ ih => exact ih.setGraph_none _
  | @commit w k g c c' t gr gr' _ ht hg hd hne hl ih =>
    subst hd
    have e : gr' = gr := by
      simp only [Graph.commitLeft, Graph.commitLeftWith, Bool.true_and, hne, ne_eq, not_false_eq_true, decide_true, if_true, Option.some.injEq] at hl
      exact hl.symm
    subst e
    rw [World.setGraph_self (w := w.setTrans k none) hg]
    exact ih.setTrans_none _

/-- Whatever panics the program catches, the indices that a context hands out are different from each other and from the empty index. -/
theorem C83_ids (hw : WellNamed S) {w : World} (h : Survives S dbg R C w) (c : Nat) : (w.issued c).Nodup ∧ emptyIdx ∉ w.issued c :=
  ((h.inv hw).intact hw dbg).ids c

/-- Whatever panics the program catches, a node belongs to one object. -/
theorem C83_apart (hw : WellNamed S) {w : World} (h : Survives S dbg R C w) {c : Nat} {i : NodeIndex} :
    (∀ h h' g g', w.graph h = some (c, g) → w.graph h' = some (c, g') → g.get? i ≠ none → g'.get? i ≠ none → h = h') ∧
    (∀ h k g t, w.graph h = some (c, g) → w.trans k = some (c, t) → g.get? i ≠ none → t.pending.new i = none ∧ ¬ t.pending.unfilled i) ∧
    ∀ k k' t t', w.trans k = some (c, t) → w.trans k' = some (c, t') → t.pending.new i ≠ none ∨ t.pending.unfilled i →
      t'.pending.new i ≠ none ∨ t'.pending.unfilled i → k = k' :=
  ((h.inv hw).intact hw dbg).apart

/-- Whatever panics the program catches, the back-links of its graphs are exact, except those of the empty index. -/
theorem C83_backlinks (hw : WellNamed S) {w : World} (h : Survives S dbg R C w) {gh c : Nat} {g : Graph} (hg : w.graph gh = some (c, g)) :
    (∀ x s y, y ≠ emptyIdx → ((∃ places, g.back.get? y = some places ∧ (x, s) ∈ places) ↔ View.Holds g.get? x s y)) ∧
    ∀ x, g.get? x ≠ none → g.back.get? x ≠ none :=
  ((h.inv hw).intact hw dbg).backlinks hg

/-- Whatever panics the program catches, a method of a transaction that returns has its documented effect. -/
theorem C83_methods (hw : WellNamed S) {w : World} (h : Survives S dbg R C w) {k c : Nat} {t t' : Trans} {x : Ctx} {o : TOp} {cnt : Nat}
    {l : List NodeIndex} (ht : w.trans k = some (c, t)) (hx : w.ctx c = some x) (ho : o.Allowed S t) (hr : o.run t x.cnt = .ok (t', cnt, l)) :
    Effect o l t.pending t'.pending :=
  ((h.inv hw).intact hw dbg).methods ht hx ho hr

/-- Whatever panics the program catches, a commit that returns makes of the graph what the pending operations say. -/
theorem C83_commit (hw : WellNamed S) {w : World} (h : Survives S dbg R C w) {gh k c : Nat} {g g' : Graph} {t : Trans}
    (hg : w.graph gh = some (c, g)) (ht : w.trans k = some (c, t)) (hc : g.commit S dbg t = .ok g') :
    Machine.Commits S dbg t.pending g.get? g'.get? :=
  ((h.inv hw).intact hw dbg).commit hg ht hc

end TTGraph

namespace TTGraph.Demo
open Spec

theorem survives_of [SetImpl] {S : Schema} {dbg : Bool} {R : World → Call → Prop} {C : TOp → Prop} {w : World} (h : Reaches S dbg R w) :
    Survives S dbg R C w := by
  induction h with
  | init => exact .init
  | step _ ha hr ih => exact .step ih ha hr

theorem survives_method [SetImpl] {S : Schema} {dbg : Bool} {R : World → Call → Prop} {C : TOp → Prop} {w : World} (h : Survives S dbg R C w) {k c : Nat}
    {x : Ctx} {o : TOp} {e : Panic} {part : Node → Node} (ht : (w.trans k).map Prod.fst = some c) (hx : w.ctx c = some x)
    (ho : o.Allowed S (transAt w k)) (hC : C o) (hr : o.run (transAt w k) x.cnt = .error e) (hp : KeepsTyped S part) :
    Survives S dbg R C (w.setTrans k (some (c, o.left part (transAt w k)))) := by
  obtain ⟨⟨c', t⟩, h1, h2⟩ := Option.map_eq_some_iff.1 ht
  simp only at h2
  subst h2
  have h3 : transAt w k = t := by simp [transAt, h1]
  rw [h3] at ho hr ⊢
  exact .method h h1 hx (.inl ho) hC hr hp

theorem id_keeps (S : Schema) : KeepsTyped S id := fun _ h => h

/-- The program has caught the panic of a `fill_back` on the index 2, which is taken. -/
def caughtFill : World := let w := run plain true World.init panic3
  w.setTrans 0 (some (0, TOp.left id (transAt w 0) (.fillBack 2 (nB 3))))

/-- The program has caught the panic of an `update` closure on the pending node 2. -/
def caughtUpdate : World := let w := run plain true World.init (panic3 ++ [.call (.op 0 (.remove 3))])
  w.setTrans 0 (some (0, TOp.left id (transAt w 0) (.update 2 (fun _ => .error .user))))

theorem caughtFill_survives : Survives plain true AnyCall (fun o => ∀ i f, o ≠ .update i f) caughtFill :=
  survives_method (survives_of (reaches panic3 (by decide +kernel))) (x := ⟨77, 3⟩) (e := .fillOccupied) (by decide +kernel) rfl
    (wt_sound (by decide +kernel)) (fun _ _ => by simp) rfl (id_keeps _)

theorem caughtUpdate_survives : Survives plain true AnyCall (fun _ => True) caughtUpdate :=
  survives_method (survives_of (reaches _ (by decide +kernel))) (x := ⟨77, 3⟩) (e := .user) (by decide +kernel) rfl
    (fun _ _ _ e => absurd e (by simp)) trivial rfl (id_keeps _)

/-- C83: the program goes on after the panic of `fill_back`: the pending node 2 is the new one. -/
example : Reaches plain true AnyCall caughtFill ∧ (transAt caughtFill 0).pending.new 2 = some (nB 3) :=
  ⟨C83_no_new_worlds_partial plain_named (fun _ _ _ _ => trivial) (fun _ _ => trivial) (fun _ _ => trivial) caughtFill_survives, by decide +kernel⟩

/-- Two contexts, a graph of the second and a transaction of the first. -/
def twoCtx : List Step :=
  [.call (.newContext 0 77), .call (.newContext 1 88), .call (.newGraph 0 1), .call (.newTrans 0 0), .call (.op 0 (.insert (nB 1)))]

/-- C83: `merge` of a graph of another context, and a commit to it, panic; what is left is as before. -/
example : let w := run plain true World.init twoCtx
    Survives plain true AnyCall (fun _ => True) (w.setGraph 0 none) ∧
    Survives plain true AnyCall (fun _ => True) ((w.setTrans 0 none).setGraph 0 (some (1, graphAt w 0))) := by
  have h : Survives plain true AnyCall (fun _ => True) (run plain true World.init twoCtx) := survives_of (reaches _ (by decide +kernel))
  exact ⟨.merge (k := 0) (e := .ctxMismatch) h rfl rfl rfl, .commit (k := 0) h rfl rfl rfl (by decide +kernel) rfl⟩

/-- C83: after the panic of an `update` closure, a commit returns: for `C83_commit`. -/
example : ∃ g', (graphAt caughtUpdate 0).commit plain true (transAt caughtUpdate 0) = .ok g' ∧ g'.get? 1 = some (nA 2 [] [] 5) ∧ g'.get? 2 = none ∧
    caughtUpdate.graph 0 = some (0, graphAt caughtUpdate 0) ∧ caughtUpdate.trans 0 = some (0, transAt caughtUpdate 0) :=
  ⟨_, got_ok (d := Graph.new 0) (by decide +kernel), by decide +kernel, by decide +kernel, rfl, rfl⟩

/-- C83 fails for `update`: a program that catches the panic of an `update` closure reaches a world that it could not reach otherwise.  The
index 2 is neither a pending node nor waiting to be filled, and still `fill_back` accepts it. -/
theorem C83_update_fails : Survives plain true AnyCall (fun _ => True) caughtUpdate ∧ ¬ Reaches plain true AnyCall caughtUpdate ∧
    (transAt caughtUpdate 0).pending.new 2 = none ∧ (¬ (transAt caughtUpdate 0).pending.unfilled 2) ∧
    ∃ t', (transAt caughtUpdate 0).fillBack 2 (nB 3) = .ok t' ∧ t'.pending.new 2 = some (nB 3) := by
  refine ⟨caughtUpdate_survives, fun h => ?_, by decide +kernel, (by decide +kernel : (2 : Nat) ∉ _), _, got_ok (d := Trans.new 0) (by decide +kernel), by decide +kernel⟩
  have := ((full_closed plain_named).reaches h).2 0 0 (transAt caughtUpdate 0) rfl 2 (by decide +kernel)
  revert this
  decide +kernel

end TTGraph.Demo
