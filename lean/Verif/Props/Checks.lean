import Verif.Lemmas.Check
import Verif.Lemmas.Meets
import Verif.Lemmas.Unique
import Verif.Demo.Run
import Verif.Demo.Decls

/-!
# C29, C30, C31: `commit_checked`
-/

set_option autoImplicit false

namespace TTGraph

open Spec

variable [SetImpl] {S : Schema} {dbg : Bool} {R : World → Call → Prop}

omit [SetImpl] in
/-- A check that has been registered under a name is in the set of checks, until another one is registered under this name. -/
theorem C29_registered (cs : GraphCheck) (name other : Ident) (f h : LinkCheck) (hne : other ≠ name) :
    (cs.insertAddCheck name f).addChecks.get? name = some f ∧
      ((cs.insertAddCheck name f).insertAddCheck other h).addChecks.get? name = some f ∧
      ((cs.insertAddCheck name f).removeAddCheck name).addChecks.get? name = none :=
  ⟨by simp [GraphCheck.insertAddCheck, Sorted.get?_insert], by simp [GraphCheck.insertAddCheck, Sorted.get?_insert, hne],
    by simp [GraphCheck.removeAddCheck, Sorted.get?_remove]⟩

/-- If `commit_checked` returns, `commit` would have returned the same graph: all that is proved about committed graphs also holds after
`commit_checked`. -/
theorem C29_commit {g g' : Graph} {t : Trans} {cs : GraphCheck} (hc : g.commitChecked S dbg t cs = .ok g') : g.commit S dbg t = .ok g' := by
  obtain ⟨r, h1, h2, _⟩ := Graph.commitChecked_iff.1 hc
  exact Graph.commit_iff.2 ⟨r, h1, h2⟩

/-- What `commit_checked` has done when it returns, in terms of the recorded changes. -/
theorem checked_out (hw : WellNamed S) {g g' : Graph} {t : Trans} {cs : GraphCheck} (h : Meets S dbg R g t)
    (hc : g.commitChecked S dbg t cs = .ok g') : ∃ v6 r, Graph.CommitOut S False t g g' v6 ∧
      (∀ x m y, Steady S t g.get? x m y → ((x, y, m) ∈ r.adds ↔ AddedLink g.get? v6 x m y) ∧ ((x, y, m) ∈ r.removes ↔ RemovedLink g.get? v6 x m y)) ∧
      Graph.checkChange g' r cs = .ok [] := by
  obtain ⟨r, h1, h2, h3⟩ := Graph.commitChecked_iff.1 hc
  obtain ⟨g6, h4, h5⟩ := Graph.doCommit_out hw (h.inv hw) (h.ready hw).good (h.disjoint hw).1 (h.ready hw).noFrom h1
  exact ⟨g6.get?, r, Graph.commitOut_of hw h4 h5 h2, fun _ _ _ hs => ⟨h4.adds hs, h4.removes hs⟩, h3⟩

/-! ## C29 -/

/-- If `commit_checked` returns, every registered link-add check has returned `Ok` on every link that the operations of the transaction have
added, evaluated on the final graph, if the link is not held by a `Vec` that holds its target twice in between.

Full statement of C29: the same for all links that are new in the result, including those that bidirectional completion has added, and for
`Vec` fields.  Both are false, see below. -/
theorem C29_added_partial (hw : WellNamed S) {g g' : Graph} {t : Trans} {cs : GraphCheck} (h : Meets S dbg R g t)
    (hc : g.commitChecked S dbg t cs = .ok g') :
    ∃ v6, Performed t g.get? v6 ∧ SameUpToBidir S v6 g'.get? ∧ (SteadyBidir S t g.get? → Completion S g.get? v6 g'.get?) ∧ ∀ name f x m y, cs.addChecks.get? name = some f →
      AddedLink g.get? v6 x m y → Steady S t g.get? x m y → ∃ n, g'.get? x = some n ∧ f x y n (g'.get? y) = .ok := by
  obtain ⟨v6, r, out, h3, h4⟩ := checked_out hw h hc
  refine ⟨v6, out.performed, out.same, out.completion, fun name f x m y hf ha hk => ?_⟩
  have := (Graph.checkChange_nil.1 h4).2.1 _ (Sorted.get?_eq_some.1 hf) (x, y, m) ((h3 x m y hk).1.2 ha)
  exact Graph.runLinkCheck_true.1 this

/-- `commit_checked` rejects a transaction that adds a link which a link-add check refuses. -/
theorem C29_rejected_partial (hw : WellNamed S) {g : Graph} {t : Trans} {cs : GraphCheck} (h : Meets S dbg R g t)
    {name : Ident} {f : LinkCheck} (hf : cs.addChecks.get? name = some f)
    (hbad : ∀ v6, Performed t g.get? v6 → ∃ x m y, AddedLink g.get? v6 x m y ∧ Steady S t g.get? x m y ∧ ∀ n o, f x y n o ≠ .ok) (g' : Graph) :
    g.commitChecked S dbg t cs ≠ .ok g' := by
  intro hc
  obtain ⟨v6, h1, _, _, h2⟩ := C29_added_partial hw h hc
  obtain ⟨x, m, y, h3, h4, h5⟩ := hbad v6 h1
  obtain ⟨n, _, h6⟩ := h2 name f x m y hf h3 h4
  exact h5 _ _ h6

/-! ## C30 -/

/-- Link-remove checks are run on the links that have been added.  So, if `commit_checked` returns, every registered link-remove check has
returned `Ok` for `x` and `y` if a link from `x` to `y` was removed and another field of `x` was linked to `y`.

Full statement of C30: the same for all removed links from `x` to `y`, and the check need not accept links that were only added.  Both are
false, see below. -/
theorem C30_moved_partial (hw : WellNamed S) {g g' : Graph} {t : Trans} {cs : GraphCheck} (h : Meets S dbg R g t)
    (hc : g.commitChecked S dbg t cs = .ok g') :
    ∃ v6, Performed t g.get? v6 ∧ SameUpToBidir S v6 g'.get? ∧ (SteadyBidir S t g.get? → Completion S g.get? v6 g'.get?) ∧ ∀ name f x m m' y, cs.removeChecks.get? name = some f →
      RemovedLink g.get? v6 x m y → AddedLink g.get? v6 x m' y → Steady S t g.get? x m' y →
      ∃ n, g'.get? x = some n ∧ f x y n (g'.get? y) = .ok := by
  obtain ⟨v6, r, out, h3, h4⟩ := checked_out hw h hc
  refine ⟨v6, out.performed, out.same, out.completion, fun name f x m m' y hf _ ha hk => ?_⟩
  have := (Graph.checkChange_nil.1 h4).2.2 _ (Sorted.get?_eq_some.1 hf) (x, y, m') ((h3 x m' y hk).1.2 ha)
  exact Graph.runLinkCheck_true.1 this

/-- The opposite of C30 holds for all transactions that only remove links: link-remove checks are not run at all.  (`Vec` fields that
hold a node twice are left out because their changes are not recorded exactly.) -/
theorem C30_ignored_fails (hw : WellNamed S) {g : Graph} {t : Trans} {cs : GraphCheck}
    (hnv : ∀ x m y, Steady S t g.get? x m y) (h : Meets S dbg R g t) (hrem : ∀ v6, Performed t g.get? v6 → ∀ x m y, ¬ AddedLink g.get? v6 x m y) (rm : Sorted LinkCheck) :
    g.commitChecked S dbg t { cs with removeChecks := rm } = g.commitChecked S dbg t cs := by
  simp only [Graph.commitChecked]
  cases h1 : Graph.doCommit S dbg g t with
  | error e => rfl
  | ok p =>
    obtain ⟨g7, r⟩ := p
    obtain ⟨g6, h4, _⟩ := Graph.doCommit_out hw (h.inv hw) (h.ready hw).good (h.disjoint hw).1 (h.ready hw).noFrom h1
    have hno : r.adds.elems = [] := by
      cases he : r.adds.elems with
      | nil => rfl
      | cons c l =>
        have hc : c ∈ r.adds := show c ∈ r.adds.elems by rw [he]; simp
        exact absurd ((h4.adds (hnv _ _ _)).1 hc) (hrem _ h4.performed c.1 c.2.2 c.2.1)
    have key : ∀ rm' f, Graph.runChecks (Graph.runLinkCheck g7) r.adds.elems f rm' = .ok f := by
      intro rm' f
      simp only [Graph.runChecks, hno, Graph.anyFails]
      generalize rm'.entries = l
      induction l with
      | nil => rfl
      | cons a l ih => simpa only [foldE] using ih
    simp only [Graph.checkChange, key]

/-! ## C31 -/

/-- If `commit_checked` returns, every registered node check has returned `Ok` on the final value of every node which has lost or gained a
link by the operations of the transaction (links held by `Vec`s that hold their target twice in between aside).

Full statement of C31: the same for all nodes that were changed, and for all new nodes; and `commit_checked` returns if all checks pass.
All of this is false, see below. -/
theorem C31_changed_partial (hw : WellNamed S) {g g' : Graph} {t : Trans} {cs : GraphCheck} (h : Meets S dbg R g t)
    (hc : g.commitChecked S dbg t cs = .ok g') :
    ∃ v6, Performed t g.get? v6 ∧ SameUpToBidir S v6 g'.get? ∧ (SteadyBidir S t g.get? → Completion S g.get? v6 g'.get?) ∧ ∀ name f x m y, cs.nodeChecks.get? name = some f →
      (AddedLink g.get? v6 x m y ∨ RemovedLink g.get? v6 x m y) → Steady S t g.get? x m y → ∃ n, g'.get? x = some n ∧ f x n = .ok := by
  obtain ⟨v6, r, out, h3, h4⟩ := checked_out hw h hc
  refine ⟨v6, out.performed, out.same, out.completion, fun name f x m y hf ha hk => ?_⟩
  have hx : x ∈ (Graph.changedNodes r).elems := by
    rw [Graph.mem_changedNodes]
    rcases ha with ha | ha
    · exact ⟨(x, y, m), Or.inl ((h3 x m y hk).1.2 ha), rfl⟩
    · exact ⟨(x, y, m), Or.inr ((h3 x m y hk).2.2 ha), rfl⟩
  exact Graph.runNodeCheck_true.1 ((Graph.checkChange_nil.1 h4).1 _ (Sorted.get?_eq_some.1 hf) x hx)

/-- The opposite of the last part of C31: as soon as one node check is registered, `commit_checked` never returns for a transaction that
removes a node with a link to another node in a field that is not a `Vec`, or never holds this node twice. -/
theorem C31_removal_fails (hw : WellNamed S) {g g' : Graph} {t : Trans} {cs : GraphCheck} (h : Meets S dbg R g t)
    {name : Ident} {f : NodeCheck} (hf : cs.nodeChecks.get? name = some f) {x y : NodeIndex} {m : Mirror}
    (hl : ∀ v6, Performed t g.get? v6 → RemovedLink g.get? v6 x m y ∧ v6 x = none) (hk : Steady S t g.get? x m y) :
    g.commitChecked S dbg t cs ≠ .ok g' := by
  intro hc
  obtain ⟨v6, h1, h2, _, h3⟩ := C31_changed_partial hw h hc
  obtain ⟨n, hn, _⟩ := h3 name f x m y hf (Or.inr (hl v6 h1).1) hk
  have := h2.1 x
  rw [hn, (hl v6 h1).2] at this
  exact absurd this (by simp)

/-- `commit_checked` returns what `commit` returns if all registered node checks pass on all nodes of the result, all link checks pass on all
added links, no node with links to other nodes is removed, and no `Vec` field holds a node twice in between. -/
theorem C31_returns_partial (hw : WellNamed S) {g g' : Graph} {t : Trans} {cs : GraphCheck}
    (hnv : ∀ x m y, Steady S t g.get? x m y) (h : Meets S dbg R g t) (hc : g.commit S dbg t = .ok g') (hrem : ∀ x m y, y ≠ emptyIdx → View.Link g.get? x m y → g'.get? x ≠ none)
    (hnode : ∀ name f x n, cs.nodeChecks.get? name = some f → g'.get? x = some n → f x n = .ok)
    (hlink : ∀ name f, cs.addChecks.get? name = some f ∨ cs.removeChecks.get? name = some f → ∀ v6, Performed t g.get? v6 →
      ∀ x m y n, AddedLink g.get? v6 x m y → g'.get? x = some n → f x y n (g'.get? y) = .ok) :
    g.commitChecked S dbg t cs = .ok g' := by
  obtain ⟨r, h1, h2⟩ := Graph.commit_iff.1 hc
  obtain ⟨g6, h4, h5⟩ := Graph.doCommit_out hw (h.inv hw) (h.ready hw).good (h.disjoint hw).1 (h.ready hw).noFrom h1
  have hcomp := (Graph.commitOut_of hw h4 h5 h2).same
  have hadd : ∀ c ∈ r.adds, AddedLink g.get? g6.get? c.1 c.2.2 c.2.1 := fun c hc' =>
    (h4.adds (hnv _ _ _)).1 hc'
  have hsrc : ∀ c ∈ r.adds, ∃ n, g'.get? c.1 = some n := by
    intro c hc'
    obtain ⟨n, hn, _⟩ := h4.tracked.weakA c hc'
    have := hcomp.1 c.1
    rw [hn] at this
    cases hn' : g'.get? c.1 with
    | none => rw [hn'] at this; exact absurd this (by simp)
    | some n' => exact ⟨n', rfl⟩
  refine Graph.commitChecked_iff.2 ⟨r, h1, h2, Graph.checkChange_nil.2 ⟨?_, ?_, ?_⟩⟩
  · rintro ⟨name, f⟩ hf x hx
    obtain ⟨c, hcr, rfl⟩ := Graph.mem_changedNodes.1 hx
    have : ∃ n, g'.get? c.1 = some n := by
      rcases hcr with hcr | hcr
      · exact hsrc c hcr
      · cases hn' : g'.get? c.1 with
        | none => exact absurd hn' (hrem _ _ _ (h4.tracked.nzR c hcr) ((h4.removes (hnv _ _ _)).1 hcr).2.1)
        | some n' => exact ⟨n', rfl⟩
    obtain ⟨n, hn⟩ := this
    exact Graph.runNodeCheck_true.2 ⟨n, hn, hnode name f _ n (Sorted.get?_eq_some.2 hf) hn⟩
  · rintro ⟨name, f⟩ hf c hcr
    obtain ⟨n, hn⟩ := hsrc c hcr
    exact Graph.runLinkCheck_true.2 ⟨n, hn, hlink name f (Or.inl (Sorted.get?_eq_some.2 hf)) _ h4.performed _ _ _ n (hadd c hcr) hn⟩
  · rintro ⟨name, f⟩ hf c hcr
    obtain ⟨n, hn⟩ := hsrc c hcr
    exact Graph.runLinkCheck_true.2 ⟨n, hn, hlink name f (Or.inr (Sorted.get?_eq_some.2 hf)) _ h4.performed _ _ _ n (hadd c hcr) hn⟩

end TTGraph

namespace TTGraph
namespace Demo

open Spec

/-- Graph and transaction of a program, with `commit_checked` in place of a `commit`. -/
def checked (S : Schema) (l : List Step) (cs : GraphCheck) : Except Panic Graph :=
  let w := run S true World.init l
  (graphAt w 0).commitChecked S true (transAt w 1) cs

/-- `A{f: 2, s: {2, 3}}`, `B`, `B`, committed; transaction 1 is open. -/
def check3 : List Step :=
  [.call (.newContext 0 77), .call (.newGraph 0 0), .call (.newTrans 0 0), .call (.op 0 (.insert (pA 2 [2]))), .call (.op 0 (.insert (pB [] 0))),
   .call (.op 0 (.insert (pB [] 0))), .call (.commit 0 0), .call (.newTrans 1 0)]

/-- Link checks that refuse everything, everything but links to node 3, and nothing. -/
def refuse : LinkCheck := fun _ _ _ _ => .err
def only3 : LinkCheck := fun _ y _ _ => if y = 3 then .ok else .err
def refuseNode : NodeCheck := fun _ _ => .err
def acceptNode : NodeCheck := fun _ _ => .ok

def addCheck (f : LinkCheck) : GraphCheck := GraphCheck.new.insertAddCheck 7 f
def removeCheck (f : LinkCheck) : GraphCheck := GraphCheck.new.insertRemoveCheck 7 f
def nodeCheck (f : NodeCheck) : GraphCheck := GraphCheck.new.insertNodeCheck 7 f

/-- `View.Link` by evaluation. -/
def linkAt (v : View) (x : NodeIndex) (m : Mirror) (y : NodeIndex) : Bool :=
  match v x with
  | none => false
  | some n => n.containsLink m y

theorem linkAt_iff {v : View} {x y : NodeIndex} {m : Mirror} (hy : y ≠ emptyIdx) : linkAt v x m y = true ↔ v.Link x m y := by
  simp only [linkAt, View.Link]
  cases v x with
  | none => simp
  | some n => simp [Node.containsLink_iff hy]

theorem added_of {v v' : View} {x y : NodeIndex} {m : Mirror} (h : (decide (y ≠ emptyIdx) && linkAt v' x m y && !linkAt v x m y) = true) :
    AddedLink v v' x m y := by
  simp only [Bool.and_eq_true, decide_eq_true_eq, Bool.not_eq_true'] at h
  exact ⟨h.1.1, (linkAt_iff h.1.1).1 h.1.2, fun hl => by rw [(linkAt_iff h.1.1).2 hl] at h; exact absurd h.2 (by simp)⟩

theorem removed_of {v v' : View} {x y : NodeIndex} {m : Mirror} (h : (decide (y ≠ emptyIdx) && linkAt v x m y && !linkAt v' x m y) = true) :
    RemovedLink v v' x m y := by
  simp only [Bool.and_eq_true, decide_eq_true_eq, Bool.not_eq_true'] at h
  exact ⟨h.1.1, (linkAt_iff h.1.1).1 h.1.2, fun hl => by rw [(linkAt_iff h.1.1).2 hl] at h; exact absurd h.2 (by simp)⟩

/-- All links of `g` to other nodes are in `v'`. -/
def keepsLinks (S : Schema) (g : Graph) (v' : View) : Bool :=
  (g.nodes.entries S).all fun e => e.2.iterSources.all fun p => p.1 == emptyIdx || linkAt v' e.1 p.2.mirror p.1

theorem keepsLinks_sound {S : Schema} {e0 : Prop} {g : Graph} {v' : View} (h : g.Inv S e0) (hk : keepsLinks S g v' = true) (x : NodeIndex) (m : Mirror)
    (y : NodeIndex) : ¬ RemovedLink g.get? v' x m y := by
  rintro ⟨h0, ⟨n, hn, slot, hl⟩, h2⟩
  simp only [keepsLinks, List.all_eq_true, Bool.or_eq_true, beq_iff_eq] at hk
  have := hk (x, n) ((Arena.mem_entries h.arena).2 hn) (y, ⟨m.disc, m.pos, slot⟩) (Node.mem_iterSources.2 hl)
  exact h2 ((linkAt_iff h0).1 (this.resolve_left h0))

/-- The links after the operations of a transaction are those that `perform` computes. -/
theorem performed_of {S : Schema} {dbg : Bool} {R : World → Call → Prop} (hw : WellNamed S) {g g6 : Graph} {t : Trans} {r : Lcr}
    (h : Meets S dbg R g t) (hp : Graph.perform S g t = .ok (g6, r)) (hr : t.redir = []) (hra : t.redirAll = []) (hm : t.muts = []) (hu : t.upds = [])
    (v6 : View) (h6 : Performed t g.get? v6) : View.Same g6.get? v6 := by
  have := (Graph.perform_out hw.variants (h.inv hw) (h.ready hw).good (h.disjoint hw).1 (h.ready hw).noFrom hp).performed
  exact performed_same rfl (by simp [hr]) (by simp [hra]) (by simp [hm, hu]) (View.Same.refl _) this h6

/-! ### C29 -/

/-- The hypotheses of `C29_added_partial`: the field `f` of node 1 is set to 3, and the check that accepts only links to 3 passes. -/
example : let w := run pair true World.init (check3 ++ [.mutate 1 1 (pA 3 [2])])
    Meets pair true AnyCall (graphAt w 0) (transAt w 1) ∧ ∃ g', (graphAt w 0).commitChecked pair true (transAt w 1) (addCheck only3) = .ok g' ∧
      AddedLink (graphAt w 0).get? g'.get? 1 ⟨1, 0⟩ 3 :=
  ⟨meets_of (reaches (check3 ++ [.mutate 1 1 (pA 3 [2])]) (by decide +kernel)) 0 1 (by decide +kernel), _, got_ok (d := Graph.new 0) (by decide +kernel),
    added_of (by decide +kernel)⟩

/-- It refuses a link to another node. -/
example : checked pair (check3 ++ [.mutate 1 1 (pA 3 [2, 3])]) (addCheck (fun _ y _ _ => if y = 2 then .ok else .err)) = .error (.checkFailed [7]) := rfl

/-- C29 fails for links that bidirectional completion adds: the check accepts only links to node 3, but node 3 gets a link to node 1. -/
theorem C29_completed_fails : ∃ g t g', Meets pair true AnyCall g t ∧ g.commitChecked pair true t (GraphCheck.new.insertAddCheck 7 only3) = .ok g' ∧
    AddedLink g.get? g'.get? 3 ⟨2, 0⟩ 1 ∧ ∀ n o, only3 3 1 n o = .err :=
  ⟨_, _, _, meets_of (reaches (check3 ++ [.mutate 1 1 (pA 3 [2])]) (by decide +kernel)) 0 1 (by decide +kernel),
    got_ok (d := Graph.new 0) (by decide +kernel), added_of (by decide +kernel), fun _ _ => rfl⟩

/-- Two linkless nodes of variant A, committed; transaction 1 is open. -/
def blank2 : List Step :=
  [.call (.newContext 0 77), .call (.newGraph 0 0), .call (.newTrans 0 0), .call (.op 0 (.insert (nA 0 [] [] 0))), .call (.op 0 (.insert (nA 0 [] [] 0))),
   .call (.commit 0 0), .call (.newTrans 1 0)]

/-- C29 fails for a `Vec` that holds an index twice in between: no check is run on the new link. -/
theorem C29_vec_fails : ∃ g t g', Meets plain true AnyCall g t ∧ g.commitChecked plain true t (GraphCheck.new.insertAddCheck 7 refuse) = .ok g' ∧
    AddedLink g.get? g'.get? 1 ⟨1, 2⟩ 2 :=
  ⟨_, _, _, meets_of (reaches (blank2 ++ [.mutate 1 1 (nA 0 [] [2, 2] 0), .mutate 1 1 (nA 0 [] [2] 0)]) (by decide +kernel)) 0 1 (by decide +kernel),
    got_ok (d := Graph.new 0) (by decide +kernel), added_of (by decide +kernel)⟩

/-! ### C30 -/

/-- The hypotheses of `C30_moved_partial`: the link to 2 moves from field `f` to field `s`. -/
example : let w := run pair true World.init (check3 ++ [.mutate 1 1 (pA 0 [2])])
    Meets pair true AnyCall (graphAt w 0) (transAt w 1) ∧ ∃ g', (graphAt w 0).commitChecked pair true (transAt w 1) (removeCheck (fun _ y _ _ => if y = 2 then .ok else .err)) = .ok g' :=
  ⟨meets_of (reaches (check3 ++ [.mutate 1 1 (pA 0 [2])]) (by decide +kernel)) 0 1 (by decide +kernel), _, got_ok (d := Graph.new 0) (by decide +kernel)⟩

/-- C30 fails: a link is removed although the link-remove check refuses everything. -/
theorem C30_removed_fails : ∃ g t g', Meets pair true AnyCall g t ∧ g.commitChecked pair true t (GraphCheck.new.insertRemoveCheck 7 refuse) = .ok g' ∧
    RemovedLink g.get? g'.get? 1 ⟨1, 0⟩ 2 :=
  ⟨_, _, _, meets_of (reaches (check3 ++ [.mutate 1 1 (pA 0 [2])]) (by decide +kernel)) 0 1 (by decide +kernel),
    got_ok (d := Graph.new 0) (by decide +kernel), removed_of (by decide +kernel)⟩

/-- C30 fails: a transaction that removes no links is rejected because a link-remove check refuses a link that is added. -/
theorem C30_added_fails : ∃ g t g', Meets pair true AnyCall g t ∧ g.commit pair true t = .ok g' ∧ (∀ x m y, ¬ RemovedLink g.get? g'.get? x m y) ∧
    g.commitChecked pair true t (GraphCheck.new.insertRemoveCheck 7 refuse) = .error (.checkFailed [7]) := by
  have hm := meets_of (reaches (S := pair) (dbg := true) (check3 ++ [.call (.op 1 (.insert (pA 3 [])))]) (by decide +kernel)) 0 1 (by decide +kernel)
  exact ⟨_, _, _, hm, got_ok (d := Graph.new 0) (by decide +kernel), keepsLinks_sound (hm.inv pair_named) (by decide +kernel), rfl⟩

/-- The program removes node 1. -/
def drop1 : List Step := check3 ++ [.call (.op 1 (.remove 1))]

theorem drop1_meets : Meets pair true AnyCall (graphAt (run pair true World.init drop1) 0) (transAt (run pair true World.init drop1) 1) :=
  meets_of (reaches drop1 (by decide +kernel)) 0 1 (by decide +kernel)

/-- What is left of the graph, before completion. -/
def drop1g : Graph := (got (d := (Graph.new 0, Lcr.new)) (Graph.perform pair (graphAt (run pair true World.init drop1) 0) (transAt (run pair true World.init drop1) 1))).1

theorem drop1_same (v6 : View) (h6 : Performed (transAt (run pair true World.init drop1) 1) (graphAt (run pair true World.init drop1) 0).get? v6) :
    View.Same drop1g.get? v6 :=
  performed_of (r := (got (d := (Graph.new 0, Lcr.new)) (Graph.perform pair (graphAt (run pair true World.init drop1) 0)
    (transAt (run pair true World.init drop1) 1))).2) pair_named drop1_meets (got_ok (d := (Graph.new 0, Lcr.new)) (by decide +kernel)) rfl rfl rfl rfl v6 h6

theorem drop1_inv : drop1g.Inv pair (False ∧ (transAt (run pair true World.init drop1) 1).NoToEmpty) :=
  have h := drop1_meets
  (Graph.perform_out (g' := drop1g) (r' := (got (d := (Graph.new 0, Lcr.new)) (Graph.perform pair (graphAt (run pair true World.init drop1) 0)
    (transAt (run pair true World.init drop1) 1))).2) pair_named.variants (h.inv pair_named) (h.ready pair_named).good (h.disjoint pair_named).1
    (h.ready pair_named).noFrom (got_ok (d := (Graph.new 0, Lcr.new)) (by decide +kernel))).inv

/-- No `Vec` link fields, by evaluation. -/
def noVecFields (S : Schema) : Bool := S.variants.all fun v => v.2.linkKinds.all fun k => decide (k ≠ .vec)

theorem noVecFields_sound {S : Schema} (h : noVecFields S = true) (m : Mirror) : S.kind? m ≠ some .vec := by
  intro hk
  simp only [Schema.kind?, Schema.struct?, Option.bind_eq_some_iff, Option.map_eq_some_iff] at hk
  obtain ⟨sd, ⟨v, hv, rfl⟩, hk⟩ := hk
  simp only [noVecFields, List.all_eq_true, decide_eq_true_eq] at h
  exact h v (List.mem_of_find?_eq_some hv) _ (List.mem_of_getElem? hk) rfl

/-- `C30_ignored_fails` applies to the removal of node 1. -/
example (f : LinkCheck) : (graphAt (run pair true World.init drop1) 0).commitChecked pair true (transAt (run pair true World.init drop1) 1) (removeCheck f) =
    (graphAt (run pair true World.init drop1) 0).commitChecked pair true (transAt (run pair true World.init drop1) 1) GraphCheck.new := by
  refine C30_ignored_fails (cs := GraphCheck.new) pair_named ?_ drop1_meets (fun v6 h6 x m y ha => ?_) _
  · exact fun _ m _ => Or.inl (noVecFields_sound (by decide) m)
  · have h1 := ((View.Same.refl _).addedLink (drop1_same v6 h6) x m y).1 ha
    exact keepsLinks_sound drop1_inv (v' := (graphAt (run pair true World.init drop1) 0).get?) (by decide +kernel) x m y ⟨h1.1, h1.2.1, h1.2.2⟩

/-! ### C31 -/

/-- The hypotheses of `C31_changed_partial`. -/
example : let w := run pair true World.init (check3 ++ [.mutate 1 1 (pA 3 [2])])
    Meets pair true AnyCall (graphAt w 0) (transAt w 1) ∧ ∃ g', (graphAt w 0).commitChecked pair true (transAt w 1) (nodeCheck acceptNode) = .ok g' :=
  ⟨meets_of (reaches (check3 ++ [.mutate 1 1 (pA 3 [2])]) (by decide +kernel)) 0 1 (by decide +kernel), _, got_ok (d := Graph.new 0) (by decide +kernel)⟩

/-- A refusing node check is effective there. -/
example : checked pair (check3 ++ [.mutate 1 1 (pA 3 [2])]) (nodeCheck refuseNode) = .error (.checkFailed [7]) := rfl

/-- C31 fails: the data of a node is changed, and no node check is run on it. -/
theorem C31_data_fails : ∃ g t g', Meets plain true AnyCall g t ∧ g.commitChecked plain true t (GraphCheck.new.insertNodeCheck 7 refuseNode) = .ok g' ∧
    g.get? 1 = some (nA 0 [] [] 0) ∧ g'.get? 1 = some (nA 0 [] [] 5) :=
  ⟨_, _, _, meets_of (reaches (blank2 ++ [.mutate 1 1 (nA 0 [] [] 5)]) (by decide +kernel)) 0 1 (by decide +kernel),
    got_ok (d := Graph.new 0) (by decide +kernel), by decide +kernel, by decide +kernel⟩

/-- C31 fails: no node check is run on a new node without links. -/
theorem C31_new_fails : ∃ g t g', Meets plain true AnyCall g t ∧ g.commitChecked plain true t (GraphCheck.new.insertNodeCheck 7 refuseNode) = .ok g' ∧
    g.get? 3 = none ∧ g'.get? 3 = some (nB 0) :=
  ⟨_, _, _, meets_of (reaches (blank2 ++ [.call (.op 1 (.insert (nB 0)))]) (by decide +kernel)) 0 1 (by decide +kernel),
    got_ok (d := Graph.new 0) (by decide +kernel), by decide +kernel, by decide +kernel⟩

/-- C31 fails: a node with links is removed, all checks accept everything, and `commit_checked` panics. -/
theorem C31_removed_fails : ∃ g t g', Meets pair true AnyCall g t ∧ g.commit pair true t = .ok g' ∧
    g.commitChecked pair true t (GraphCheck.new.insertNodeCheck 7 (fun _ _ => .ok)) = .error .nodeMissing :=
  ⟨_, _, _, drop1_meets, got_ok (d := Graph.new 0) (by decide +kernel), rfl⟩

/-- The hypotheses of `C31_removal_fails`. -/
example (g' : Graph) : (graphAt (run pair true World.init drop1) 0).commitChecked pair true (transAt (run pair true World.init drop1) 1)
    (nodeCheck acceptNode) ≠ .ok g' := by
  refine C31_removal_fails (name := 7) (f := acceptNode) (x := 1) (y := 2) (m := ⟨1, 0⟩) pair_named drop1_meets rfl (fun v6 h6 => ?_) (Or.inl (by decide))
  have hs := drop1_same v6 h6
  exact ⟨((View.Same.refl _).removedLink hs 1 ⟨1, 0⟩ 2).2 (removed_of (by decide +kernel)), (hs.none_iff 1).2 (by decide +kernel)⟩

/-- `C31_returns_partial` applies to the insertion of a node with a link, a node check and a link check. -/
example : let w := run pair true World.init (check3 ++ [.call (.op 1 (.insert (pA 3 [])))])
    let cs := (nodeCheck acceptNode).insertAddCheck 8 (fun _ _ _ _ => .ok)
    (graphAt w 0).commitChecked pair true (transAt w 1) cs = (graphAt w 0).commit pair true (transAt w 1) := by
  intro w cs
  have hm : Meets pair true AnyCall (graphAt w 0) (transAt w 1) :=
    meets_of (reaches (check3 ++ [.call (.op 1 (.insert (pA 3 [])))]) (by decide +kernel)) 0 1 (by decide +kernel)
  have hc : (graphAt w 0).commit pair true (transAt w 1) = .ok (got (Graph.new 0) ((graphAt w 0).commit pair true (transAt w 1))) :=
    got_ok (by decide +kernel)
  rw [hc]
  refine C31_returns_partial pair_named (fun _ m _ => Or.inl (noVecFields_sound (by decide) m)) hm hc (fun x m y h0 hl hn => ?_) ?_ ?_
  · have hk := keepsLinks_sound (hm.inv pair_named) (v' := (got (Graph.new 0) ((graphAt w 0).commit pair true (transAt w 1))).get?)
      (by decide +kernel) x m y
    exact hk ⟨h0, hl, fun ⟨n, hn', _⟩ => by rw [hn] at hn'; exact absurd hn' (by simp)⟩
  · rintro name f x n hf -
    have : cs.nodeChecks.get? name = if 7 = name then some acceptNode else none := Sorted.get?_insert _ _ _ _
    rw [this] at hf
    split at hf
    · rw [← Option.some.inj hf]; rfl
    · exact absurd hf (by simp)
  · rintro name f (hf | hf) v6 - x m y n - -
    · have : cs.addChecks.get? name = if 8 = name then some (fun _ _ _ _ => .ok) else none := Sorted.get?_insert _ _ _ _
      rw [this] at hf
      split at hf
      · rw [← Option.some.inj hf]
      · exact absurd hf (by simp)
    · exact absurd hf (by simp [cs, nodeCheck, GraphCheck.new, GraphCheck.insertNodeCheck, GraphCheck.insertAddCheck])

end Demo
end TTGraph
