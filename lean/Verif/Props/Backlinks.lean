import Verif.Demo.Traced
import Verif.Demo.Decls
import Verif.Lemmas.Backlinks
import Verif.Lemmas.Pending
import Verif.Lemmas.Protocol
import Verif.Props.Commit
import Verif.Props.Empty
import Verif.Spec.Integrity

/-!
# The back-link index: C04
-/

set_option autoImplicit false

namespace TTGraph
open Spec
variable [SetImpl] {S : Schema} {dbg : Bool} {R : World → Call → Prop}

/-- In every graph of every program, the back-link record of every index but the empty one holds exactly the places that hold the index. -/
theorem C04_exact (hw : WellNamed S) {g : Graph} (h : Reachable S dbg R g) (x : NodeIndex) (s : Source) {y : NodeIndex}
    (hy : y ≠ emptyIdx) : (∃ places, g.back.get? y = some places ∧ (x, s) ∈ places) ↔ View.Holds g.get? x s y :=
  ⟨(h.inv hw).exact x s y (Or.inl hy), (h.inv hw).recd x s y⟩

/-- Every node has a record, so that it can be redirected and removed. -/
theorem C04_recorded (hw : WellNamed S) {g : Graph} (h : Reachable S dbg R g) {x : NodeIndex} (hx : g.get? x ≠ none) :
    g.back.get? x ≠ none := by
  obtain ⟨n, hn⟩ := Option.ne_none_iff_exists'.1 hx
  obtain ⟨st, hst⟩ := (h.inv hw).known x n hn
  rw [hst]
  simp

/-- `check_backlinks` never panics, unless some set holds the empty index.

Full statement of C04: `check_backlinks` never panics.  That is false if a set holds the empty index and something was redirected to it, see
below. -/
theorem C04_check_partial (hw : WellNamed S) {g : Graph} (h : Reachable S dbg R g)
    (h0 : ∀ x s, ¬ View.Holds g.get? x s emptyIdx) (dbg' : Bool) : g.checkBacklinks S dbg' = .ok () := by
  refine (Graph.checkBacklinks_ok (h.inv hw) dbg').2 fun y hy x s hr => (h.inv hw).exact x s y (Or.inl ?_) hr
  rintro rfl
  rcases hy with a | ⟨x, s, a⟩
  · exact a (h.inv hw).noEmpty
  · exact h0 x s a

/-- `check_backlinks` is a complete test of the index.  Whatever index the nodes of a graph are paired with, it passes exactly if the record of
every node and of every index that is linked to is there and holds exactly the places that hold the index. -/
theorem C04_check_iff (hw : WellNamed S) {g : Graph} (h : Reachable S dbg R g) (back : Back) (dbg' : Bool) :
    Graph.checkBacklinks S dbg' { g with back := back } = .ok () ↔
      ∀ y, g.get? y ≠ none ∨ View.Linked g.get? y → ∃ places, back.get? y = some places ∧ ∀ x s, (x, s) ∈ places ↔ View.Holds g.get? x s y :=
  Graph.checkBacklinks_iff (g := { g with back := back }) (h.inv hw).arena dbg'

theorem exact_closed (hw : WellNamed S) (hR : ∀ w c, R w c → NeverToEmpty w c) :
    Closed S dbg R (fun g => g.Inv S True) Trans.NoToEmpty where
  newGraph u := Graph.new_inv S u
  newTrans u p hp := absurd hp (by simp [Trans.new])
  op := by
    intro w k o t t' cnt cnt' l _ hb _ hr ho ht hrun
    obtain ⟨h1, h2⟩ := hb.ready hw
    have he := Trans.effect_run h1 h2 ho hrun
    have hn := hR _ _ hr
    have key : ∀ p', t'.pending = p' → p'.redir = t.redir → p'.redirAll = t.redirAll → t'.NoToEmpty := by
      intro p' e1 e2 e3 q hq
      have e4 : t'.redir = t.redir := (congrArg Pending.redir e1).trans e2
      have e5 : t'.redirAll = t.redirAll := (congrArg Pending.redirAll e1).trans e3
      rw [e4, e5] at hq
      exact ht q hq
    cases o with
    | insert n => obtain ⟨i, _, _, e⟩ := he; exact key _ e rfl rfl
    | extend l => obtain ⟨v, _, e⟩ := he; exact key _ e rfl rfl
    | alloc d => obtain ⟨i, _, _, _, e⟩ := he; exact key _ e rfl rfl
    | allocUntyped => obtain ⟨i, _, _, _, e⟩ := he; exact key _ e rfl rfl
    | fillBack i n => obtain ⟨_, _, e⟩ := he; exact key _ e rfl rfl
    | fillBackUntyped i n => obtain ⟨_, _, e⟩ := he; exact key _ e rfl rfl
    | remove i => obtain ⟨_, ⟨_, e⟩ | ⟨_, _, e⟩ | ⟨_, _, e⟩⟩ := he <;> exact key _ e rfl rfl
    | mutate i f => obtain ⟨_, ⟨_, e⟩ | ⟨_, _, _, _, e⟩⟩ := he <;> exact key _ e rfl rfl
    | update i f => obtain ⟨_, ⟨_, e⟩ | ⟨_, _, _, _, e⟩⟩ := he <;> exact key _ e rfl rfl
    | redirectAllLinks old new =>
      obtain ⟨_, e⟩ := he
      have e4 : t'.redir = t.redir := congrArg Pending.redir e
      have e5 : t'.redirAll = t.redirAll ++ [(old, new)] := congrArg Pending.redirAll e
      intro q hq
      rw [e4, e5] at hq
      simp only [List.mem_append, List.mem_singleton] at hq
      rcases hq with hq | hq | rfl
      · exact ht q (List.mem_append_left _ hq)
      · exact ht q (List.mem_append_right _ hq)
      · exact hn
    | redirectLinks old new =>
      obtain ⟨_, e⟩ := he
      have e4 : t'.redir = t.redir ++ [(old, new)] := congrArg Pending.redir e
      have e5 : t'.redirAll = t.redirAll := congrArg Pending.redirAll e
      intro q hq
      rw [e4, e5] at hq
      simp only [List.mem_append, List.mem_singleton] at hq
      rcases hq with (hq | rfl) | hq
      · exact ht q (List.mem_append_left _ hq)
      · exact hn
      · exact ht q (List.mem_append_right _ hq)
  merge := by
    intro w k h g t t' _ _ _ _ _ _ ht he
    unfold Trans.merge at he
    split at he
    · simp only [Except.ok.injEq] at he
      subst he
      exact ht
    · exact absurd he (by simp)
  commit := by
    intro w k h g g' t _ hm _ _ _ hg ht hc
    obtain ⟨v6, out⟩ := Graph.commit_ok hw hg (hm.ready hw).good (hm.disjoint hw).1 (hm.ready hw).noFrom hc
    exact out.inv.mono fun _ => ⟨trivial, ht⟩
  caught := by
    intro w k h g g' t _ hm _ _ _ hg ht hc
    obtain ⟨out, _⟩ := Graph.commitLeft_out hw.variants hg (hm.ready hw).good (hm.disjoint hw).1 (hm.ready hw).noFrom hc
    exact out.inv.mono fun _ => ⟨trivial, ht⟩
  switch := by
    intro w h c g g' u cnt cnt' _ hr _ _ _ he
    obtain ⟨a0, idMap, a, h1, h2, h3, h4, h5, h6, h7, _⟩ := switch_ok hw (hr.inv hw) he
    exact h6.inv
  deserialize := by
    intro w h c input cnt g _ _ hin hd
    obtain ⟨_, _, a, h1, h2, h3⟩ := deserialize_ok hw hin hd
    exact h3.inv

/-- If nothing is ever redirected to the empty index, the whole record is exact and `check_backlinks` never panics. -/
theorem C04_all_partial (hw : WellNamed S) (hR : ∀ w c, R w c → NeverToEmpty w c) {g : Graph} (h : Reachable S dbg R g) :
    (∀ x s y, (∃ places, g.back.get? y = some places ∧ (x, s) ∈ places) ↔ View.Holds g.get? x s y) ∧ ∀ dbg', g.checkBacklinks S dbg' = .ok () := by
  have hi := (exact_closed hw hR).reachable h
  exact ⟨fun x s y => ⟨hi.exact x s y (Or.inr trivial), hi.recd x s y⟩,
    fun dbg' => (Graph.checkBacklinks_ok hi dbg').2 fun y _ x s => hi.exact x s y (Or.inr trivial)⟩

end TTGraph

namespace TTGraph
namespace Demo
open Spec

/-- C04: graphs with links of all kinds, after a commit with all kinds of operations. -/
example : let w := run plain true World.init (all3 ++ [.call (.commit 0 1)])
    Reachable plain true AnyCall (graphAt w 0) ∧ View.Holds (graphAt w 0).get? 4 ⟨1, 2, 0⟩ 1 ∧ ((graphAt w 0).nodes.entries plain).all
      (fun e => e.2.iterSources.all fun p => p.1 ≠ emptyIdx) = true := by
  intro w
  exact ⟨reachable_of (reaches _ (by decide +kernel)) 0 (by decide +kernel), ⟨nA 0 [] [1] 1, by decide +kernel, rfl, .vec [1], rfl, rfl, by decide⟩,
    by decide +kernel⟩

/-- C04: indices that `check_backlinks` must tell apart exist: that of the graph, and an empty one. -/
example : let w := run plain true World.init (all3 ++ [.call (.commit 0 1)])
    Graph.checkBacklinks plain true (graphAt w 0) = .ok () ∧
    Graph.checkBacklinks plain false { graphAt w 0 with back := OrderMap.empty } = .error .backlinkCheck := by
  intro w
  exact ⟨by rw [got_ok (d := ()) (e := Graph.checkBacklinks plain true (graphAt w 0)) (by decide +kernel)], panic_of (by decide +kernel)⟩

/-- Redirects of both kinds, committed. -/
def moved3 : List Step := redir3 ++ [.call (.commit 0 1)]

/-- C04: the program redirects, but not to the empty index. -/
example : Reachable plain true NeverToEmpty (graphAt (run plain true World.init moved3) 0) := by
  refine reachable_of (reaches_run (us := []) (r := fun _ s => match s with
    | .call (.op _ (.redirectLinks _ new)) => decide (new ≠ emptyIdx)
    | .call (.op _ (.redirectAllLinks _ new)) => decide (new ≠ emptyIdx)
    | .call _ => true
    | _ => true) ?_ moved3 .init (fun _ _ h => absurd h (by simp [World.init])) (by decide +kernel)) 0 (by decide +kernel)
  intro w s h
  cases s with
  | mutate k i n => trivial
  | update k i n => trivial
  | edit k i n => trivial
  | swap k i n => trivial
  | call c =>
    cases c with
    | op k o =>
      cases o with
      | redirectLinks a b => exact of_decide_eq_true (p := b ≠ emptyIdx) h
      | redirectAllLinks a b => exact of_decide_eq_true (p := b ≠ emptyIdx) h
      | _ => trivial
    | _ => trivial

/-- A set holds the empty index, and a link is redirected to it. -/
def emptied3 : List Step :=
  [.call (.newContext 0 77), .call (.newGraph 0 0), .call (.newTrans 0 0), .call (.op 0 (.insert (nA 2 [0] [] 5))), .call (.op 0 (.insert (nB 0))),
   .call (.commit 0 0), .call (.newTrans 1 0), .call (.op 1 (.redirectLinks 2 0)), .call (.commit 0 1)]

/-- C04 fails: `check_backlinks` panics. -/
theorem C04_check_fails : ∃ g, Reachable plain true AnyCall g ∧ g.checkBacklinks plain true = .error .backlinkCheck ∧
    g.get? 1 = some (nA 0 [0] [] 5) :=
  ⟨_, reachable_of (reaches emptied3 (by decide +kernel)) 0 (by decide +kernel), rfl, by decide +kernel⟩

end Demo
end TTGraph
