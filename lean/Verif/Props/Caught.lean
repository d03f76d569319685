import Verif.Props.Worlds
import Verif.Props.Integrity
import Verif.Props.Backlinks
import Verif.Lemmas.Wreck

/-!
# Going on after a panic: C49

A program that catches the panic of a commit can go on using the graph: call `commitCaught` in `Model/World.lean`.  All theorems about the
graphs of programs (`Reachable`, `Meets`) include such programs, unless they assume `NoCatch` or `SoundCalls`.
-/

set_option autoImplicit false

namespace TTGraph
open Spec
variable [SetImpl] {S : Schema} {dbg : Bool} {R : World → Call → Prop}

/-- The graph that a panicking commit leaves behind, when no closure panics or leaves a link to an index that does not exist, is consistent:
the back-link record is exact; it has only nodes of the graph and new nodes; only nodes that were to be removed are missing; nodes that were not
to be changed by a closure have the same variant and data; and either no new node has been inserted or all of them.

Full statement of C49: the same for every panic.  That is false for panics in closures, see `C49_closure_fails`, `C49_update_fails`. -/
theorem C49_consistent_partial (hw : WellNamed S) {g g' : Graph} {t : Trans} (h : Meets S dbg R g t)
    (hl : g.commitLeft S dbg t = some g') :
    (∀ x s y, y ≠ emptyIdx → ((∃ places, g'.back.get? y = some places ∧ (x, s) ∈ places) ↔ View.Holds g'.get? x s y)) ∧
    (∀ x, g'.get? x ≠ none → g'.back.get? x ≠ none) ∧
    (∀ x, g'.get? x ≠ none → g.get? x ≠ none ∨ t.pending.new x ≠ none) ∧
    (∀ x, ¬ t.pending.removed x → g.get? x ≠ none → g'.get? x ≠ none) ∧
    (∀ x, ¬ t.pending.removed x → (∀ p ∈ t.pending.muts ++ t.pending.upds, p.1 ≠ x) → g.get? x ≠ none →
      (g'.get? x).map Node.shape = (g.get? x).map Node.shape) ∧
    ((∀ x, g'.get? x ≠ none → g.get? x ≠ none) ∨ ∀ x, ¬ t.pending.removed x → t.pending.new x ≠ none → g'.get? x ≠ none ∧
      ((∀ p ∈ t.pending.muts ++ t.pending.upds, p.1 ≠ x) → (g'.get? x).map Node.shape = (t.pending.new x).map Node.shape)) := by
  obtain ⟨out, _⟩ := h.left hw hl
  refine ⟨fun x s y hy => ⟨out.inv.exact x s y (Or.inl hy), out.inv.recd x s y⟩, fun x hx => ?_, out.only, out.kept, out.shape, out.new⟩
  obtain ⟨n, hn⟩ := Option.ne_none_iff_exists'.1 hx
  obtain ⟨st, hst⟩ := out.inv.known x n hn
  rw [hst]
  simp

/-- The graph that is left is a graph of a program, so that everything that is proved about such graphs holds for it. -/
theorem C49_goes_on {w : World} {gh k c : Nat} {g g' : Graph} {t : Trans} (h : Reaches S dbg R w) (hg : w.graph gh = some (c, g))
    (ht : w.trans k = some (c, t)) (hR : R w (.commitCaught gh k)) (hl : g.commitLeft S dbg t = some g') :
    Reachable S dbg R g' ∧ (w.exec S dbg (.commitCaught gh k)).graph gh = some (c, g') ∧ (w.exec S dbg (.commitCaught gh k)).trans k = none := by
  have he : w.exec S dbg (.commitCaught gh k) = (w.setTrans k none).setGraph gh (some (c, g')) := by
    simp only [World.exec, hg, ht, hl, Option.map_some]
  have ha : (Call.commitCaught gh k).Allowed S w := by
    intro c1 t1 c2 g2 h1 h2
    rw [ht] at h1
    rw [hg] at h2
    simp only [Option.some.injEq, Prod.mk.injEq] at h1 h2
    rw [← h1.1, ← h2.1]
  have hgr : (w.exec S dbg (.commitCaught gh k)).graph gh = some (c, g') := by rw [he]; simp [World.setGraph, World.put]
  exact ⟨⟨_, gh, c, h.step ha hR, hgr⟩, hgr, by rw [he]; simp [World.setGraph, World.setTrans, World.put]⟩

/-- `C49_consistent_partial` covers all panics but two: a closure that panics, and a closure that leaves a link to an index that is neither a
node of the graph nor a new node. -/
theorem C49_covers (hw : WellNamed S) {g : Graph} {t : Trans} (h : Meets S dbg R g t) (hl : g.commitLeft S dbg t = none) :
    ∃ p ∈ t.pending.muts ++ t.pending.upds, ∃ n, (∃ e, p.2 n = .error e) ∨
      ∃ n', p.2 n = .ok n' ∧ ∃ s y, n'.Holds s y ∧ g.get? y = none ∧ t.pending.new y = none := by
  have hi := h.inv hw
  have ht := (h.ready hw).good
  have hz := (h.ready hw).noFrom
  have hd := (h.disjoint hw).1
  simp only [Graph.commitLeft, Graph.commitLeftWith] at hl
  split at hl
  · exact absurd hl (by simp)
  split at hl
  · exact absurd hl (by simp)
  cases hr1 : Graph.redirectLinksVec g t.redir Lcr.new with
  | error e => rw [hr1] at hl; exact absurd hl (by simp)
  | ok st1 =>
    obtain ⟨g1, r1⟩ := st1
    rw [hr1] at hl
    simp only at hl
    have o1 := Graph.redirect_out hi (fun ⟨n, hn⟩ => absurd (List.mem_append_left _ hn) (hz n)) (fun _ => True) hr1
    have hd1 : g1.nodes.Disjoint t.inc := fun i hi => by rw [o1.disp]; exact hd i hi
    obtain ⟨hget2, hinv2, _⟩ := Graph.mergeNodes_spec (r := r1) (L0 := fun _ => True) hw.variants o1.inv ht.inv hd1 ht.noEmpty ht.wt
    have hno : ∀ y, (Graph.mergeNodes S g1 t.inc r1).1.get? y = none → g.get? y = none ∧ t.pending.new y = none := by
      intro y hy
      rw [hget2] at hy
      show g.get? y = none ∧ t.inc.get? y = none
      cases hx : t.inc.get? y with
      | some n => rw [hx] at hy; exact absurd hy (by simp)
      | none =>
        rw [hx, none_alt] at hy
        exact ⟨(o1.shape.none y).1 hy, rfl⟩
    have hmt : ∀ p ∈ t.muts, Closure.Typed S p.2 := fun p hp => ht.closures p (List.mem_append_left _ hp)
    have hut : ∀ p ∈ t.upds, Closure.Typed S p.2 := fun p hp => ht.closures p (List.mem_append_right _ hp)
    cases hc3 : Graph.applyClosures Graph.modifyNode (Graph.mergeNodes S g1 t.inc r1) t.muts with
    | error e =>
      rw [hc3] at hl
      obtain ⟨p, hp, n, h2⟩ := Graph.closuresLeft_none (Or.inl rfl) t.muts hmt hinv2 hl
      refine ⟨p, List.mem_append_left _ hp, n, h2.imp_right ?_⟩
      rintro ⟨n', h3, s, y, h4, h5⟩
      exact ⟨n', h3, s, y, h4, hno y h5⟩
    | ok st3 =>
      rw [hc3] at hl
      simp only at hl
      have p3 := Graph.closures_partway (C := False) (D := fun _ => False) (M := fun _ => True) (Or.inl rfl) t.muts hmt (fun hc => absurd hc id)
        (fun _ _ => trivial) hinv2 hc3
      cases hc4 : Graph.applyClosures Graph.updateNode st3 t.upds with
      | error e =>
        rw [hc4] at hl
        obtain ⟨p, hp, n, h2⟩ := Graph.closuresLeft_none (Or.inr rfl) t.upds hut p3.inv hl
        refine ⟨p, List.mem_append_right _ hp, n, h2.imp_right ?_⟩
        rintro ⟨n', h3, s, y, h4, h5⟩
        refine ⟨n', h3, s, y, h4, hno y ?_⟩
        by_contra hc
        exact p3.kept y id hc h5
      | ok st4 =>
        rw [hc4] at hl
        simp only at hl
        split at hl
        · exact absurd hl (by simp)
        · split at hl <;> exact absurd hl (by simp)

/-- What the two remaining panics leave behind.  The operations before the closure `f` for the node `i` have been performed, and nothing after
it.  The places that hold a link are recorded exactly, for all nodes but `i`.  If the closure panicked, `i` is what the closure has left of it
(`mutate`) or is gone (`update`), and none of its links is recorded; otherwise `i` is what the closure has made of it, and its links are
recorded up to the first one, in the order of `iter_source`, that leads to an unknown index. -/
theorem C49_wreck (hw : WellNamed S) {g : Graph} {t : Trans} (h : Meets S dbg R g t) (hl : g.commitLeft S dbg t = none)
    (left : Node → Node) :
    ∃ g' k i f n v3, g.commitWreck S dbg left t = some g' ∧ Before t.pending g.get? v3 i f k ∧ v3 i = some n ∧ (∀ x, x ≠ i → g'.get? x = v3 x) ∧
      (∀ x s y, y ≠ emptyIdx → x ≠ i → (Recorded g' x s y ↔ View.Holds g'.get? x s y)) ∧
      ((∃ e, f n = .error e ∧ g'.get? i = Torn left n k ∧ ∀ s y, y ≠ emptyIdx → ¬ Recorded g' i s y) ∨
       ∃ n' pre q post, f n = .ok n' ∧ g'.get? i = some n' ∧ n'.iterSources = pre ++ q :: post ∧ g.get? q.1 = none ∧ t.pending.new q.1 = none ∧
         ∀ s y, y ≠ emptyIdx → (Recorded g' i s y ↔ (y, s) ∈ pre)) := by
  have hi := h.inv hw
  have ht := (h.ready hw).good
  have hz := (h.ready hw).noFrom
  have hd := (h.disjoint hw).1
  simp only [Graph.commitLeft, Graph.commitLeftWith] at hl
  split at hl
  · exact absurd hl (by simp)
  rename_i hg1
  split at hl
  · exact absurd hl (by simp)
  rename_i hg2
  cases hr1 : Graph.redirectLinksVec g t.redir Lcr.new with
  | error e => rw [hr1] at hl; exact absurd hl (by simp)
  | ok st1 =>
    obtain ⟨g1, r1⟩ := st1
    rw [hr1] at hl
    simp only at hl
    have o1 := Graph.redirect_out hi (fun ⟨n, hn⟩ => absurd (List.mem_append_left _ hn) (hz n)) (fun _ => True) hr1
    have hd1 : g1.nodes.Disjoint t.inc := fun i hi => by rw [o1.disp]; exact hd i hi
    obtain ⟨hget2, hinv2, _⟩ := Graph.mergeNodes_spec (r := r1) (L0 := fun _ => True) hw.variants o1.inv ht.inv hd1 ht.noEmpty ht.wt
    have hno : ∀ y, (Graph.mergeNodes S g1 t.inc r1).1.get? y = none → g.get? y = none ∧ t.pending.new y = none := by
      intro y hy
      rw [hget2] at hy
      show g.get? y = none ∧ t.inc.get? y = none
      cases hx : t.inc.get? y with
      | some n => rw [hx] at hy; exact absurd hy (by simp)
      | none =>
        rw [hx, none_alt] at hy
        exact ⟨(o1.shape.none y).1 hy, rfl⟩
    have hins : Inserted t.pending.new g1.get? (Graph.mergeNodes S g1 t.inc r1).1.get? :=
      Graph.inserted_of_merge (fun x hx => Arena.get?_of_disp_none (hd1 x fun e => hx (Arena.get?_of_disp_none e))) hget2
    have hmt : ∀ p ∈ t.muts, Closure.Typed S p.2 := fun p hp => ht.closures p (List.mem_append_left _ hp)
    have hut : ∀ p ∈ t.upds, Closure.Typed S p.2 := fun p hp => ht.closures p (List.mem_append_right _ hp)
    -- the graph in the middle of the closure
    have fin : ∀ (k : Loop2) (i : NodeIndex) (f : Closure) (n : Node) (e1 : Prop) (g3 : Graph), g3.Inv S e1 → g3.get? i = some n →
        ((∃ e, f n = .error e) ∨ ∃ n', f n = .ok n' ∧ ∃ s y, n'.Holds s y ∧ ¬ g3.back.Known y) →
        (∀ y, g3.get? y = none → (Graph.mergeNodes S g1 t.inc r1).1.get? y = none) →
        Before t.pending g.get? g3.get? i f k → g.commitWreck S dbg left t = Graph.midOf left k g3 i f →
        ∃ g' k i f n v3, g.commitWreck S dbg left t = some g' ∧ Before t.pending g.get? v3 i f k ∧ v3 i = some n ∧ (∀ x, x ≠ i → g'.get? x = v3 x) ∧
          (∀ x s y, y ≠ emptyIdx → x ≠ i → (Recorded g' x s y ↔ View.Holds g'.get? x s y)) ∧
          ((∃ e, f n = .error e ∧ g'.get? i = Torn left n k ∧ ∀ s y, y ≠ emptyIdx → ¬ Recorded g' i s y) ∨
           ∃ n' pre q post, f n = .ok n' ∧ g'.get? i = some n' ∧ n'.iterSources = pre ++ q :: post ∧ g.get? q.1 = none ∧ t.pending.new q.1 = none ∧
             ∀ s y, y ≠ emptyIdx → (Recorded g' i s y ↔ (y, s) ∈ pre)) := by
      intro k i f n e1 g3 h3 hn hf hsub hb hcw
      obtain ⟨g', c1, c2, c3, c4, c5, c6⟩ := Graph.midOf_spec k left h3 hn hf
      refine ⟨g', k, i, f, n, g3.get?, hcw.trans c1, hb, hn, c3, ?_, ?_⟩
      · intro x s y hy hx
        refine (c4 y x s hx).trans ?_
        have e : View.Holds g'.get? x s y ↔ View.Holds g3.get? x s y := by simp only [View.Holds, c3 x hx]
        rw [e]
        exact ⟨h3.exact x s y (Or.inl hy), h3.recd x s y⟩
      · rcases c6 with ⟨e, d1, d2, d3⟩ | ⟨n', pre, q, post, d1, d2, d3, _, d4, d5⟩
        · exact Or.inl ⟨e, d1, d2, fun s y hy => d3 y s (Or.inl hy)⟩
        · have hq : g3.get? q.1 = none := by
            by_contra hc
            exact d4 (h3.known_of (Or.inl hc))
          obtain ⟨q1, q2⟩ := hno q.1 (hsub q.1 hq)
          exact Or.inr ⟨n', pre, q, post, d1, d2, d3, q1, q2, fun s y hy => d5 y s (Or.inl hy)⟩
    cases hc3 : Graph.applyClosures Graph.modifyNode (Graph.mergeNodes S g1 t.inc r1) t.muts with
    | error e =>
      rw [hc3] at hl
      obtain ⟨pre, ⟨i, f⟩, post, ⟨g3, r3⟩, n, e1, e2, e3, e4, e5⟩ := Graph.closuresLeft_mid .mutating left t.muts hmt hinv2 hl
      have hpt : ∀ p ∈ pre, Closure.Typed S p.2 := fun p hp => hmt p (by rw [e1]; simp [hp])
      have o3 := Graph.applyClosures_out (Or.inl rfl) (fun _ => True) pre hpt (r := (Graph.mergeNodes S g1 t.inc r1).2) hinv2 e2
      have p3 := Graph.closures_partway (C := False) (D := fun _ => False) (M := fun _ => True) (Or.inl rfl) pre hpt (fun hc => absurd hc id)
        (fun _ _ => trivial) hinv2 e2
      refine fin .mutating i f n _ g3 o3.inv e3 e5 (fun y hy => ?_) ⟨_, _, pre, post, o1.redirected, hins, e1, o3.applied⟩ ?_
      · by_contra hc
        exact p3.kept y id hc hy
      · simp only [Graph.commitWreck, Graph.commitLeftWith, if_neg hg1, if_neg hg2, hr1, hc3]
        exact e4
    | ok st3 =>
      obtain ⟨g3, r3⟩ := st3
      rw [hc3] at hl
      simp only at hl
      have o3 := Graph.applyClosures_out (Or.inl rfl) (fun _ => True) t.muts hmt (r := (Graph.mergeNodes S g1 t.inc r1).2) hinv2 hc3
      have p3 := Graph.closures_partway (C := False) (D := fun _ => False) (M := fun _ => True) (Or.inl rfl) t.muts hmt (fun hc => absurd hc id)
        (fun _ _ => trivial) hinv2 hc3
      cases hc4 : Graph.applyClosures Graph.updateNode (g3, r3) t.upds with
      | error e =>
        rw [hc4] at hl
        obtain ⟨pre, ⟨i, f⟩, post, ⟨g4, r4⟩, n, e1, e2, e3, e4, e5⟩ := Graph.closuresLeft_mid .updating left t.upds hut (st := (g3, r3)) o3.inv hl
        have hpt : ∀ p ∈ pre, Closure.Typed S p.2 := fun p hp => hut p (by rw [e1]; simp [hp])
        have o4 := Graph.applyClosures_out (Or.inr rfl) (fun _ => True) pre hpt o3.inv e2
        have p4 := Graph.closures_partway (C := False) (D := fun _ => False) (M := fun _ => True) (Or.inr rfl) pre hpt (fun hc => absurd hc id)
          (fun _ _ => trivial) (st := (g3, r3)) o3.inv e2
        refine fin .updating i f n _ g4 o4.inv e3 e5 (fun y hy => ?_) ⟨_, _, _, pre, post, o1.redirected, hins, o3.applied, e1, o4.applied⟩ ?_
        · by_contra hc
          exact p4.kept y id (p3.kept y id hc) hy
        · simp only [Graph.commitWreck, Graph.commitLeftWith, if_neg hg1, if_neg hg2, hr1, hc3, hc4]
          exact e4
      | ok st4 =>
        rw [hc4] at hl
        simp only at hl
        split at hl
        · exact absurd hl (by simp)
        · split at hl <;> exact absurd hl (by simp)

end TTGraph

namespace TTGraph
namespace Demo
open Spec

/-- Two linked nodes; a transaction whose closure panics, and one that removes a node. -/
def caught4 : List Step :=
  [.call (.newContext 0 7), .call (.newGraph 0 0), .call (.newTrans 0 0), .call (.op 0 (.insert (nA 2 [2] [] 5))), .call (.op 0 (.insert (nB 1))),
   .call (.commit 0 0), .call (.newTrans 1 0), .edit 1 1 (nB 0), .call (.newTrans 2 0), .call (.op 2 (.remove 2))]

/-- C49 fails if a `mutate` closure panics (here without having changed the node).  `check_backlinks` reports the graph as broken, and a later
removal of node 2 leaves node 1 pointing to it. -/
theorem C49_closure_fails : ∃ g t t2 g1 g2, Meets plain true AnyCall g t ∧ Meets plain true AnyCall g t2 ∧
    g.commit plain true t = .error .user ∧ g.commitWreck plain true id t = some g1 ∧ g1.get? 1 = g.get? 1 ∧
    (∃ e, g1.checkBacklinks plain true = .error e) ∧ g1.commit plain true t2 = .ok g2 ∧ g2.get? 2 = none ∧ View.Holds g2.get? 1 ⟨1, 0, 0⟩ 2 := by
  refine ⟨graphAt (run plain true World.init caught4) 0, transAt (run plain true World.init caught4) 1, transAt (run plain true World.init caught4) 2,
    ((graphAt (run plain true World.init caught4) 0).commitWreck plain true id (transAt (run plain true World.init caught4) 1)).getD (Graph.new 0), _,
    meets_of (reaches caught4 (by decide +kernel)) 0 1 (by decide +kernel), meets_of (reaches caught4 (by decide +kernel)) 0 2 (by decide +kernel),
    ?_, ?_, ?_, ⟨.backlinkCheck, ?_⟩, got_ok (d := Graph.new 0) ?_, ?_, ?_⟩
  · rfl
  · rfl
  · decide +kernel
  · rfl
  · decide +kernel
  · decide +kernel
  · exact ⟨_, (by decide +kernel : _ = some (nA 2 [2] [] 5)), Node.mem_iterSources.1 (by decide +kernel)⟩

/-- Two linked nodes; a transaction whose `update` closure panics. -/
def caught5 : List Step :=
  [.call (.newContext 0 7), .call (.newGraph 0 0), .call (.newTrans 0 0), .call (.op 0 (.insert (nA 2 [2] [] 5))), .call (.op 0 (.insert (nB 1))),
   .call (.commit 0 0), .call (.newTrans 1 0), .swap 1 1 (nB 0), .call (.newTrans 2 0), .call (.op 2 (.remove 1))]

/-- C49 fails if an `update` closure panics: the node is lost although nothing removes it, node 2 still points to it, and it cannot be removed
either. -/
theorem C49_update_fails : ∃ g t t2 g1, Meets plain true AnyCall g t ∧ Meets plain true AnyCall g t2 ∧ g.commit plain true t = .error .user ∧
    (∀ i, ¬ t.pending.removed i) ∧ g.commitWreck plain true id t = some g1 ∧ g.get? 1 ≠ none ∧ g1.get? 1 = none ∧ g1.get? 2 = some (nB 1) ∧
    g1.commit plain true t2 = .error .removeMissing := by
  refine ⟨graphAt (run plain true World.init caught5) 0, transAt (run plain true World.init caught5) 1, transAt (run plain true World.init caught5) 2,
    ((graphAt (run plain true World.init caught5) 0).commitWreck plain true id (transAt (run plain true World.init caught5) 1)).getD (Graph.new 0),
    meets_of (reaches caught5 (by decide +kernel)) 0 1 (by decide +kernel), meets_of (reaches caught5 (by decide +kernel)) 0 2 (by decide +kernel),
    ?_, fun i hi => absurd hi List.not_mem_nil, ?_, ?_, ?_, ?_, ?_⟩
  · rfl
  · rfl
  · decide +kernel
  · decide +kernel
  · decide +kernel
  · rfl

/-- Two linked nodes; a transaction that inserts a node, redirects the link to it, and redirects an index that does not exist. -/
def caught6 : List Step :=
  [.call (.newContext 0 7), .call (.newGraph 0 0), .call (.newTrans 0 0), .call (.op 0 (.insert (nA 2 [2] [] 5))), .call (.op 0 (.insert (nB 1))),
   .call (.commit 0 0), .call (.newTrans 1 0), .call (.op 1 (.insert (nB 0))), .call (.op 1 (.redirectLinks 2 3)),
   .call (.op 1 (.redirectLinks 9 3))]

/-- The conclusion of C12 does not extend to graphs whose commit panicked: the link of node 1 has been redirected to the new node, which has not
been inserted.  So `NoCatch` is needed there. -/
theorem C49_dangling_fails : ∃ g t g', Meets plain true AnyCall g t ∧ Internal g.get? ∧ Sound g.get? t.pending ∧
    g.commit plain true t = .error .backMissing ∧ g.commitLeft plain true t = some g' ∧ View.Holds g'.get? 1 ⟨1, 0, 0⟩ 3 ∧ g'.get? 3 = none := by
  have hr : Reaches plain true SoundCalls (run plain true World.init caught6) :=
    reaches_sound (us := []) plain_named caught6 .init (fun _ _ h => absurd h (by simp [World.init])) (by decide +kernel)
  have hm : Meets plain true SoundCalls (graphAt (run plain true World.init caught6) 0) (transAt (run plain true World.init caught6) 1) :=
    meets_of hr 0 1 (by decide +kernel)
  refine ⟨graphAt (run plain true World.init caught6) 0, transAt (run plain true World.init caught6) 1,
    ((graphAt (run plain true World.init caught6) 0).commitLeft plain true (transAt (run plain true World.init caught6) 1)).getD (Graph.new 0),
    meets_of (reaches caught6 (by decide +kernel)) 0 1 (by decide +kernel), ?_,
    sound_sound (hm.ready plain_named).good.inv (by decide +kernel), ?_, ?_, ?_, ?_⟩
  · exact C12_internal_partial plain_named (fun _ _ h => h) (reachable_of hr 0 (by decide +kernel))
  · rfl
  · rfl
  · exact ⟨_, (by decide +kernel : _ = some (nA 3 [3] [] 5)), Node.mem_iterSources.1 (by decide +kernel)⟩
  · decide +kernel

/-- C49: the hypotheses of `C49_consistent_partial` are met by that panic, which changes the graph. -/
example : let w := run plain true World.init caught6
    ((graphAt w 0).commitLeft plain true (transAt w 1)).map (fun g => g.get? 1) ≠ some ((graphAt w 0).get? 1) := by
  decide +kernel

/-- C49: a program that goes on after that panic, and makes another commit that returns. -/
example : let w := run plain true World.init (caught6 ++ [.call (.commitCaught 0 1), .call (.newTrans 2 0), .call (.op 2 (.remove 2)), .call (.commit 0 2)])
    Reachable plain true AnyCall (graphAt w 0) ∧ (graphAt w 0).get? 2 = none ∧ (graphAt w 0).get? 1 = some (nA 3 [3] [] 5) := by
  refine ⟨reachable_of (reaches _ (by decide +kernel)) 0 (by decide +kernel), by decide +kernel, by decide +kernel⟩

/-- C49: the hypotheses of `C49_covers` are met by the panic of `C49_closure_fails`. -/
example : let w := run plain true World.init caught4
    Meets plain true AnyCall (graphAt w 0) (transAt w 1) ∧ (graphAt w 0).commitLeft plain true (transAt w 1) = none :=
  ⟨meets_of (reaches caught4 (by decide +kernel)) 0 1 (by decide +kernel), rfl⟩

/-- C49: the hypotheses of `C49_covers` and `C49_wreck` are met by a closure that leaves a link to the unknown index 9 after one to node 2, too.
The first of these links is recorded, the second is not. -/
example : let w := run plain true World.init [.call (.newContext 0 7), .call (.newGraph 0 0), .call (.newTrans 0 0),
      .call (.op 0 (.insert (nA 2 [2] [] 5))), .call (.op 0 (.insert (nB 1))), .call (.commit 0 0), .call (.newTrans 1 0), .mutate 1 1 (nA 2 [9] [] 5)]
    Meets plain true AnyCall (graphAt w 0) (transAt w 1) ∧ (graphAt w 0).commitLeft plain true (transAt w 1) = none ∧
      ∃ g', (graphAt w 0).commitWreck plain true id (transAt w 1) = some g' ∧ g'.get? 1 = some (nA 2 [9] [] 5) ∧ Recorded g' 1 ⟨1, 0, 0⟩ 2 :=
  ⟨meets_of (reaches _ (by decide +kernel)) 0 1 (by decide +kernel), rfl, _, rfl, rfl, _, rfl, by decide +kernel⟩

end Demo
end TTGraph
