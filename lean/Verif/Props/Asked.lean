import Verif.Lemmas.Asked
import Verif.Props.Report
import Verif.Props.Effects

/-!
# C78: the calls of check functions
-/

set_option autoImplicit false

namespace TTGraph

open Spec

variable [SetImpl] {S : Schema} {dbg : Bool} {R : World → Call → Prop} {σ : Type}

/-- If `commit` panics, so does `commit_checked`, before any check function is called. -/
theorem C78_silent {g : Graph} {t : Trans} {e : Panic} (hc : g.commit S dbg t = .error e) (cs : EGraphCheck σ) (s : σ) :
    g.commitAsking S dbg t cs s = (.error e, s) := by
  rw [Graph.commit_finish] at hc
  simp only [Graph.commitAsking]
  cases hd : Graph.doCommit S dbg g t with
  | error e' =>
    rw [hd] at hc
    exact Prod.ext hc rfl
  | ok p =>
    obtain ⟨g', r⟩ := p
    rw [hd] at hc
    simp only [Graph.finish] at hc
    simp only [Graph.finishAsking]
    cases hl : Graph.checkLinkType S g' r with
    | error e' => rw [hl] at hc; exact Prod.ext hc rfl
    | ok _ => rw [hl] at hc; exact absurd hc (by simp)

/-- If `commit` would return `g'`: the node checks are asked about the nodes with a new or dropped link, then the link-add checks about the new links,
then the link-remove checks, also about the new links (C30), all of them with the nodes of `g'`, and nothing else changes the program's state.
If all of them have been asked and none of them returned `Err`, the result is `g'`.  If some returned `Err`, `commit_checked` panics, with the names of these.  If a check function panics,
that was the last call.  Otherwise a node check should be asked about a removed node (C31). -/
theorem C78_calls (hw : WellNamed S) {g g' : Graph} {t : Trans} {cs : EGraphCheck σ} {s s' : σ} {res : Except Panic Graph}
    (hnv : ∀ x m y, Steady S t g.get? x m y) (h : Meets S dbg R g t) (hc : g.commit S dbg t = .ok g')
    (hr : g.commitAsking S dbg t cs s = (res, s')) :
    ∃ v6 nodes links log1 log2 log3 s1 s2, Performed t g.get? v6 ∧ Completion S g.get? v6 g'.get? ∧
      nodes.Nodup ∧ (∀ x, x ∈ nodes ↔ Relinked g.get? v6 x) ∧
      links.Nodup ∧ (∀ c : Change, c ∈ links ↔ AddedLink g.get? v6 c.1 c.2.2 c.2.1) ∧
      Asking (AskNode g'.get?) cs.nodeChecks log1 s s1 ∧ InTurn nodes log1 ∧
      Asking (AskLink g'.get?) cs.addChecks log2 s1 s2 ∧ InTurn links log2 ∧
      Asking (AskLink g'.get?) cs.removeChecks log3 s2 s' ∧ InTurn links log3 ∧
      ((AllAsked cs.nodeChecks nodes log1 ∧ AllAsked cs.addChecks links log2 ∧ AllAsked cs.removeChecks links log3 ∧
          res = if Failed log1 ++ Failed log2 ++ Failed log3 = [] then .ok g' else .error (.checkFailed (Failed log1 ++ Failed log2 ++ Failed log3))) ∨
       (res = .error .user ∧
          ((LastPanics log1 ∧ log2 = [] ∧ log3 = []) ∨
           (AllAsked cs.nodeChecks nodes log1 ∧ LastPanics log2 ∧ log3 = []) ∨
           (AllAsked cs.nodeChecks nodes log1 ∧ AllAsked cs.addChecks links log2 ∧ LastPanics log3))) ∨
       (res = .error .nodeMissing ∧ log2 = [] ∧ log3 = [] ∧ (∃ name f, cs.nodeChecks.get? name = some f) ∧
          ∃ x m y, y ≠ emptyIdx ∧ View.Link g.get? x m y ∧ g'.get? x = none)) := by
  obtain ⟨v6, r, h1, h2, ⟨h3, h3'⟩, h4, h5, h6, h7⟩ := recorded_changes hw hnv h hc
  have src : ¬ ∃ c ∈ r.adds.elems, g'.get? c.1 = none := by
    rintro ⟨c, hcr, hn⟩
    obtain ⟨n, hn'⟩ := h6 _ _ _ ((h5 c).1 hcr)
    rw [hn] at hn'; exact absurd hn' (by simp)
  have nil : ∀ {α : Type} (items : List α), InTurn items [] := fun items => ⟨.nil, fun _ => List.nil_prefix, .nil⟩
  simp only [Graph.commitAsking, h3, Graph.finishAsking, h3', Graph.checkChangeE] at hr
  obtain ⟨log1, a1, a2, a3⟩ := Graph.runChecksE_round (Graph.calls_node g') cs.nodeChecks (Graph.changedNodes r).elems [] s
  cases e1 : Graph.runChecksE (Graph.runNodeCheckE g') (Graph.changedNodes r).elems [] cs.nodeChecks.entries s with
  | mk o1 s1 =>
    rw [e1] at a1 a3 hr
    simp only at a1 a3
    rcases a3 with ⟨rfl, a4⟩ | ⟨rfl, a4⟩ | ⟨rfl, a4, x, hx, hn⟩
    · simp only at hr
      obtain ⟨log2, b1, b2, b3⟩ := Graph.runChecksE_round (Graph.calls_link g') cs.addChecks r.adds.elems ([] ++ Failed log1) s1
      cases e2 : Graph.runChecksE (Graph.runLinkCheckE g') r.adds.elems ([] ++ Failed log1) cs.addChecks.entries s1 with
      | mk o2 s2 =>
        rw [e2] at b1 b3 hr
        simp only at b1 b3
        rcases b3 with ⟨rfl, b4⟩ | ⟨rfl, b4⟩ | ⟨_, _, hn⟩
        · simp only at hr
          obtain ⟨log3, c1, c2, c3⟩ := Graph.runChecksE_round (Graph.calls_link g') cs.removeChecks r.adds.elems ([] ++ Failed log1 ++ Failed log2) s2
          cases e3 : Graph.runChecksE (Graph.runLinkCheckE g') r.adds.elems ([] ++ Failed log1 ++ Failed log2) cs.removeChecks.entries s2 with
          | mk o3 s3 =>
            rw [e3] at c1 c3 hr
            simp only at c1 c3
            rcases c3 with ⟨rfl, c4⟩ | ⟨rfl, c4⟩ | ⟨_, _, hn⟩
            · rw [List.nil_append] at hr
              have hfin : (res, s') = (if Failed log1 ++ Failed log2 ++ Failed log3 = [] then .ok g'
                  else .error (.checkFailed (Failed log1 ++ Failed log2 ++ Failed log3)), s3) := by
                rw [← hr]
                cases Failed log1 ++ Failed log2 ++ Failed log3 <;> simp
              obtain ⟨rfl, rfl⟩ := Prod.mk.inj hfin
              exact ⟨v6, _, _, log1, log2, log3, s1, s2, h1, h2, (Graph.changedNodes r).nodup, h4, r.adds.nodup, h5, a1, a2, b1, b2, c1, c2,
                Or.inl ⟨a4, b4, c4, rfl⟩⟩
            · obtain ⟨rfl, rfl⟩ := Prod.mk.inj hr
              exact ⟨v6, _, _, log1, log2, log3, s1, s2, h1, h2, (Graph.changedNodes r).nodup, h4, r.adds.nodup, h5, a1, a2, b1, b2, c1, c2,
                Or.inr (Or.inl ⟨rfl, Or.inr (Or.inr ⟨a4, b4, c4⟩)⟩)⟩
            · exact absurd hn src
        · obtain ⟨rfl, rfl⟩ := Prod.mk.inj hr
          exact ⟨v6, _, _, log1, log2, [], s1, s2, h1, h2, (Graph.changedNodes r).nodup, h4, r.adds.nodup, h5, a1, a2, b1, b2, rfl, nil _,
            Or.inr (Or.inl ⟨rfl, Or.inr (Or.inl ⟨a4, b4, rfl⟩)⟩)⟩
        · exact absurd hn src
    · obtain ⟨rfl, rfl⟩ := Prod.mk.inj hr
      exact ⟨v6, _, _, log1, [], [], s1, s1, h1, h2, (Graph.changedNodes r).nodup, h4, r.adds.nodup, h5, a1, a2, rfl, nil _, rfl, nil _,
        Or.inr (Or.inl ⟨rfl, Or.inl ⟨a4, rfl, rfl⟩⟩)⟩
    · obtain ⟨rfl, rfl⟩ := Prod.mk.inj hr
      obtain ⟨m, y, h8, h9⟩ := h7 x ((h4 x).1 hx) hn
      exact ⟨v6, _, _, log1, [], [], s1, s1, h1, h2, (Graph.changedNodes r).nodup, h4, r.adds.nodup, h5, a1, a2, rfl, nil _, rfl, nil _,
        Or.inr (Or.inr ⟨rfl, rfl, rfl, a4, x, m, y, h8, h9, hn⟩)⟩

/-- With checks that have no side effects this is the `commit_checked` of C28–C31 and C60. -/
theorem C78_quiet (g : Graph) (t : Trans) (cs : GraphCheck) (s : σ) :
    g.commitAsking S dbg t (quiet cs) s = (g.commitChecked S dbg t cs, s) := by
  rw [Graph.commitChecked_finish]
  simp only [Graph.commitAsking]
  cases Graph.doCommit S dbg g t with
  | error e => rfl
  | ok p =>
    obtain ⟨g', r⟩ := p
    simp only [Graph.finishAsking, Graph.finishChecked]
    cases Graph.checkLinkType S g' r with
    | error e => rfl
    | ok _ =>
      simp only [Graph.checkChangeE_quiet]
      cases Graph.checkChange g' r cs with
      | error e => rfl
      | ok l => cases l <;> rfl

/-- Closures with side effects run before the first check: `commit_checked` does what it does with any closures that reproduce these calls, from the
state the closures leave; and unless all closures have run, it panics and no check is called. -/
theorem C78_closures {g : Graph} {t : Trans} {p : Pend σ} {cs : EGraphCheck σ} {s s' : σ} {res : Except Panic Graph}
    (h : g.commitAskingE S dbg t p cs s = (res, s')) :
    ∃ (calls : List (Ran σ)) (s1 : σ), calls.map (·.fn) <+: (p.muts ++ p.upds).map Prod.snd ∧ Played calls s s1 ∧
      (calls.map (·.fn) = (p.muts ++ p.upds).map Prod.snd ∨ ((∃ e, res = .error e) ∧ s' = s1)) ∧
      ∀ ms us : List Closure, ms.length = p.muts.length → us.length = p.upds.length → Reproduces (ms ++ us) calls →
        g.commitAsking S dbg (withClosures t p ms us) cs s1 = (res, s') := by
  obtain ⟨calls, h1⟩ := Graph.doCommitE_calls S dbg g t p s
  refine ⟨calls, (Graph.doCommitE S dbg g t p s).2, h1.called, h1.played, ?_, fun ms us hm hu hr => ?_⟩
  · simp only [Graph.commitAskingE] at h
    cases hd : (Graph.doCommitE S dbg g t p s).1 with
    | error e =>
      rw [hd] at h
      obtain ⟨rfl, rfl⟩ := Prod.mk.inj h
      exact Or.inr ⟨⟨e, rfl⟩, rfl⟩
    | ok a => exact Or.inl (h1.called.eq_of_length (by simpa using h1.all a hd))
  · rw [Graph.commitAsking, h1.same ms us hm hu hr]
    exact h

/-- So a program whose checks have side effects reaches no state that it does not also reach with `commit`, a dropped graph, and its own computation: what
holds of all programs of C64 and C77 still holds. -/
theorem C78_programs {P : EWorld σ → ECall σ → Prop} {s : σ} {ew : EWorld σ} (h : EReaches S dbg P s ew) {j k c : Nat} {g : Graph} {t : Trans}
    (hg : ew.world.graph j = some (c, g)) (ht : ew.world.trans k = some (c, t)) (hcommit : P ew (.commit j k))
    (hdrop : ∀ ew', P ew' (.plain (.dropGraph j))) (hthink : ∀ ew' f, P ew' (.think f)) (cs : EGraphCheck σ) :
    EReaches S dbg P s (ew.committed j k c (g.commitAskingE S dbg t (ew.pend k) cs ew.env)) := by
  have h1 : EReaches S dbg P s (ew.committed j k c (g.commitE S dbg t (ew.pend k) ew.env)) := by
    have := h.step (c := .commit j k) (by
      intro c1 t1 c2 g2 e1 e2
      rw [ht] at e1; rw [hg] at e2
      simp only [Option.some.injEq, Prod.mk.injEq] at e1 e2
      exact e1.1.symm.trans e2.1) hcommit
    simpa only [EWorld.exec, ht, hg] using this
  have fin : ∀ (ew1 : EWorld σ) (s1 : σ), EReaches S dbg P s ew1 → EReaches S dbg P s { ew1 with env := s1 } := fun ew1 s1 k1 =>
    k1.step (c := .think fun _ => s1) trivial (hthink _ _)
  have drop : ∀ (ew1 : EWorld σ), EReaches S dbg P s ew1 → EReaches S dbg P s { ew1 with world := ew1.world.setGraph j none } := fun ew1 k1 =>
    k1.step (c := .plain (.dropGraph j)) ⟨trivial, trivial⟩ (hdrop _)
  have put : ∀ (w : World) (o : Option (Nat × Graph)), ((w.setTrans k none).setGraph j o).setGraph j none = (w.setTrans k none).setGraph j none := by
    intro w o
    simp only [World.setGraph, World.put_put]
  have hce : g.commitE S dbg t (ew.pend k) ew.env = (Graph.finish S (Graph.doCommitE S dbg g t (ew.pend k) ew.env).1, (Graph.doCommitE S dbg g t (ew.pend k) ew.env).2) := rfl
  have lost : ∀ (r : Except Panic Graph × σ) (e : Panic) (s1 : σ), EReaches S dbg P s (ew.committed j k c r) → EReaches S dbg P s (ew.committed j k c (.error e, s1)) := by
    intro r e s1 k1
    have k2 := fin _ s1 (drop _ k1)
    obtain ⟨r, s0⟩ := r
    cases r <;> simpa only [EWorld.committed, put] using k2
  generalize hres : g.commitAskingE S dbg t (ew.pend k) cs ew.env = res
  obtain ⟨res, s'⟩ := res
  cases res with
  | error e => exact lost _ e s' h1
  | ok g' =>
    rw [hce] at h1
    simp only [Graph.commitAskingE] at hres
    revert h1 hres
    generalize Graph.doCommitE S dbg g t (ew.pend k) ew.env = d
    obtain ⟨d, s0⟩ := d
    intro h1 hres
    simp only at hres
    cases d with
    | error e => simp [Graph.finishAsking] at hres
    | ok a =>
      obtain ⟨ga, r⟩ := a
      simp only [Graph.finishAsking, Graph.finish] at hres h1
      cases hl : Graph.checkLinkType S ga r with
      | error e => simp [hl] at hres
      | ok _ =>
        rw [hl] at hres h1
        simp only at hres h1
        cases hch : Graph.checkChangeE ga r cs s0 with
        | mk o s2 =>
          rw [hch] at hres
          cases o with
          | error e => simp at hres
          | ok l =>
            cases l with
            | nil =>
              obtain ⟨e1, rfl⟩ := Prod.mk.inj hres
              rw [Except.ok.injEq] at e1
              subst e1
              exact fin _ s2 h1
            | cons a l => simp at hres

end TTGraph

/-! ### Concrete cases -/

namespace TTGraph.Demo
open Spec

/-- What the checks below write down: their name and the link (or the node) they are asked about. -/
abbrev Notes := List (Ident × NodeIndex × NodeIndex)

/-- A node check that takes notes. -/
def noteN (name : Ident) (answer : NodeIndex → CheckResult) : ENodeCheck Notes := fun x _ s => (answer x, s ++ [(name, x, 0)])

/-- A link check that takes notes. -/
def noteL (name : Ident) (answer : NodeIndex → CheckResult) : ELinkCheck Notes := fun x y _ _ s => (answer y, s ++ [(name, x, y)])

/-- Node checks under the names 9 and 4, link-add checks under 8 and 7, a link-remove check under 5. -/
def noting (c9 c4 c8 c7 c5 : NodeIndex → CheckResult) : EGraphCheck Notes where
  nodeChecks := (Sorted.empty.insert 9 (noteN 9 c9)).insert 4 (noteN 4 c4)
  addChecks := (Sorted.empty.insert 8 (noteL 8 c8)).insert 7 (noteL 7 c7)
  removeChecks := Sorted.empty.insert 5 (noteL 5 c5)

/-- Answers: always `Ok`, always `Err`, and one that depends on the index. -/
def fine (_ : NodeIndex) : CheckResult := .ok
def bad (_ : NodeIndex) : CheckResult := .err
def only (i : NodeIndex) (c d : CheckResult) (x : NodeIndex) : CheckResult := if x = i then c else d

/-- A transaction that inserts a node 4 with two links to node 3, and drops a link of node 1. -/
def link33 : List Step := check3 ++ [.call (.op 1 (.insert (pA 3 [3]))), .mutate 1 1 (pA 0 [2])]

theorem link33_meets : Meets pair true AnyCall (graphAt (run pair true World.init link33) 0) (transAt (run pair true World.init link33) 1) :=
  meets_of (reaches link33 (by decide +kernel)) 0 1 (by decide +kernel)

/-- Its `commit_checked`. -/
def noted (cs : EGraphCheck Notes) : Except Panic Graph × Notes :=
  (graphAt (run pair true World.init link33) 0).commitAsking pair true (transAt (run pair true World.init link33) 1) cs []

/-- All checks pass: every node check is asked about nodes 4 and 1, every link check about the two links. -/
example : noted (noting fine fine fine fine fine) = (.ok (got (Graph.new 0) (noted (noting fine fine fine fine fine)).1),
    [(4, 4, 0), (4, 1, 0), (9, 4, 0), (9, 1, 0), (7, 4, 3), (7, 4, 3), (8, 4, 3), (8, 4, 3), (5, 4, 3), (5, 4, 3)]) :=
  Prod.ext (got_ok (by decide +kernel)) (by decide +kernel)

/-- Check 4 refuses node 4, and is not asked about node 1, where it would panic; the others go on. -/
theorem noted_fails : noted (noting (only 1 .err .ok) (only 4 .err .panics) fine bad bad) =
    (.error (.checkFailed [4, 9, 7, 5]), [(4, 4, 0), (9, 4, 0), (9, 1, 0), (7, 4, 3), (8, 4, 3), (8, 4, 3), (5, 4, 3)]) :=
  Prod.ext rfl (by decide +kernel)

/-- Check 9 panics at node 1; nothing is called after that. -/
theorem noted_panics : noted (noting (only 1 .panics .ok) (only 4 .err .ok) fine bad bad) = (.error .user, [(4, 4, 0), (9, 4, 0), (9, 1, 0)]) :=
  Prod.ext rfl (by decide +kernel)

/-- `C78_calls` applies. -/
example : ∃ nodes links log1 log2, ∃ log3 : List (Asked Change), ∃ s1 s2, ∃ g' : Graph, Asking (AskNode g'.get?) (noting (only 1 .err .ok) (only 4 .err .panics) fine bad bad).nodeChecks log1 [] s1 ∧
    AllAsked (noting (only 1 .err .ok) (only 4 .err .panics) fine bad bad).nodeChecks nodes log1 ∧
    AllAsked (noting (only 1 .err .ok) (only 4 .err .panics) fine bad bad).addChecks links log2 ∧ Asking (AskLink g'.get?)
      (noting (only 1 .err .ok) (only 4 .err .panics) fine bad bad).addChecks log2 s1 s2 ∧ Failed log1 ++ Failed log2 ++ Failed log3 = [4, 9, 7, 5] := by
  have hc : (graphAt (run pair true World.init link33) 0).commit pair true (transAt (run pair true World.init link33) 1) =
      .ok (got (Graph.new 0) ((graphAt (run pair true World.init link33) 0).commit pair true (transAt (run pair true World.init link33) 1))) :=
    got_ok (by decide +kernel)
  obtain ⟨v6, nodes, links, log1, log2, log3, s1, s2, _, _, _, _, _, _, a1, _, a2, _, _, _, ha | ⟨ha, _⟩ | ⟨ha, _⟩⟩ :=
    C78_calls pair_named (fun _ m _ => Or.inl (noVecFields_sound (by decide) m)) link33_meets hc noted_fails
  · refine ⟨nodes, links, log1, log2, log3, s1, s2, _, a1, ha.1, ha.2.1, a2, ?_⟩
    have := ha.2.2.2
    split at this
    · exact absurd this (by simp)
    · simpa using this.symm
  · exact absurd ha (by simp)
  · exact absurd ha (by simp)

/-- A commit that panics: no check takes notes. -/
example : (graphAt (run pair true World.init (check3 ++ [.call (.op 1 (.insert (pA 3 [2])))])) 0).commitAsking pair true
    (transAt (run pair true World.init (check3 ++ [.call (.op 1 (.insert (pA 3 [2])))])) 1) (noting fine fine fine fine fine) [] =
      (.error .addOnExisting, []) :=
  C78_silent (panic_of (by decide +kernel)) _ _

/-- Closures that count, and a link check that counts on from there. -/
def tally : EGraphCheck Nat where
  nodeChecks := Sorted.empty
  addChecks := Sorted.empty.insert 7 fun _ _ _ _ s => (.ok, 10 * s)
  removeChecks := Sorted.empty

/-- The transaction of `stamps` also inserts a node with a link. -/
def stamps2 : List EStep := stamps ++ [.call (.op 1 (.insert (nA 1 [] [] 9)))]

/-- The state before its commit. -/
def stamps2At : EWorld Nat := erun plain true (EWorld.init 0) stamps2

/-- The three closures leave 4; the check is called once. -/
theorem stamps2_tally : (graphAt stamps2At.world 0).commitAskingE plain true (transAt stamps2At.world 1) (stamps2At.pend 1) tally stamps2At.env =
    (.ok (got (Graph.new 0) ((graphAt stamps2At.world 0).commitAskingE plain true (transAt stamps2At.world 1) (stamps2At.pend 1) tally stamps2At.env).1), 40) :=
  Prod.ext (got_ok (by decide +kernel)) (by decide +kernel)

/-- `C78_closures` applies to it. -/
example : ∃ (calls : List (Ran Nat)) (s1 : Nat), calls.length = 3 ∧ Played calls 1 s1 := by
  obtain ⟨calls, s1, _, h2, h3 | ⟨⟨e, h3⟩, _⟩, _⟩ := C78_closures stamps2_tally
  · refine ⟨calls, s1, ?_, ?_⟩
    · have := congrArg List.length h3
      rw [List.length_map] at this
      rw [this]
      decide +kernel
    · have he : stamps2At.env = 1 := by decide +kernel
      rw [he] at h2
      exact h2
  · exact absurd h3 (by simp)

/-- `C78_programs` applies to it. -/
example : EReaches plain true EAny 0 (stamps2At.committed 0 1 0
    ((graphAt stamps2At.world 0).commitAskingE plain true (transAt stamps2At.world 1) (stamps2At.pend 1) tally stamps2At.env)) := by
  have hg : stamps2At.world.graph 0 = some (0, graphAt stamps2At.world 0) := by
    have : (stamps2At.world.graph 0).map Prod.fst = some 0 := by decide +kernel
    obtain ⟨⟨c, g⟩, h1, h2⟩ := Option.map_eq_some_iff.1 this
    simp only at h2
    subst h2
    simp [graphAt, h1]
  have ht : stamps2At.world.trans 1 = some (0, transAt stamps2At.world 1) := by
    have : (stamps2At.world.trans 1).map Prod.fst = some 0 := by decide +kernel
    obtain ⟨⟨c, g⟩, h1, h2⟩ := Option.map_eq_some_iff.1 this
    simp only at h2
    subst h2
    simp [transAt, h1]
  exact C78_programs (ereaches stamps2 (by decide +kernel)) hg ht trivial (fun _ => trivial) (fun _ _ => trivial) tally

end TTGraph.Demo
