import Verif.Demo.Decls
import Verif.Lemmas.Gone
import Verif.Props.Commit

/-!
# Removed indices stay removed: C46
-/

set_option autoImplicit false

namespace TTGraph
open Spec
variable [SetImpl] {S : Schema} {dbg : Bool} {R : World → Call → Prop}

/-- After a commit that removed the node `i`, whatever the program does next, no graph of the context gets a node with this index again, and
no transaction of the context ever holds one or has it allocated. -/
theorem C46_removed (hw : WellNamed S) {w w' : World} (h : Reaches S dbg R w) {gh k c : Nat} {g g' : Graph} {t : Trans}
    (hg : w.graph gh = some (c, g)) (ht : w.trans k = some (c, t)) (hc : g.commit S dbg t = .ok g') {i : NodeIndex}
    (hi : g.get? i ≠ none) (hi' : g'.get? i = none) (hl : Later S dbg (w.exec S dbg (.commit gh k)) w') : Nowhere w' c i := by
  have hinv := h.inv hw
  have hm : Meets S dbg R g t := ⟨w, gh, k, c, h, hg, ht⟩
  have he : w.exec S dbg (.commit gh k) = (w.setTrans k none).setGraph gh (some (c, g')) := by
    simp only [World.exec, hg, ht, hc]
  obtain ⟨v6, out⟩ := hm.commit hw hc
  have hdisj := (hm.disjoint hw).2.2
  have hgi : g.Owns i := by
    obtain ⟨n, hn⟩ := Option.ne_none_iff_exists'.1 hi
    obtain ⟨d, hd, _⟩ := Arena.get?_eq_some.1 hn
    simp [Graph.Owns, hd]
  have hti : ¬ t.Owns i := fun ho => hdisj i ho hgi
  have hdec : i ∈ t.dec := by
    rcases (CommitOut.none_iff out i).1 hi' with h1 | h1
    · exact absurd h1.1 hi
    · exact h1
  have hgone : (w.exec S dbg (.commit gh k)).Gone c i := by
    obtain ⟨x, hx, _, hle⟩ := hinv.bound (.inl gh) c i ⟨g, hg, hgi⟩
    rw [he]
    refine ⟨⟨x, hx, hle⟩, fun o ho => ?_⟩
    rcases o with j | j
    · obtain ⟨g2, hg2, ho⟩ := ho
      simp only [World.setGraph, World.setTrans, World.put] at hg2
      split at hg2
      · simp only [Option.some.injEq, Prod.mk.injEq, true_and] at hg2
        subst hg2
        simp only [Graph.Owns, out.disp] at ho
        split at ho
        · exact ho rfl
        · rename_i hnd; exact hnd hdec
      · rename_i hne
        have := hinv.disj (.inl j) (.inl gh) c i ⟨g2, hg2, ho⟩ ⟨g, hg, hgi⟩
        exact hne (by simpa using this)
    · have ho' : w.Owns (.inr j) c i := (World.owns_setTrans_none (w := w) (k := k) (o := .inr j) ho).1
      exact absurd (hinv.disj (.inr j) (.inl gh) c i ho' ⟨g, hg, hgi⟩) (by simp)
  exact (hgone.later hw (hinv.exec hw dbg _ (by
    intro c1 t1 c2 g2 h1 h2
    rw [ht] at h1; rw [hg] at h2
    simp only [Option.some.injEq, Prod.mk.injEq] at h1 h2
    rw [← h1.1, ← h2.1])) hl).1.nowhere

/-- In a debug build: once an index that was in use is no longer in use, in a graph, as a pending insertion or as an allocation, for whatever
reason (the node was removed, the insertion was withdrawn, the transaction was given up, the graph was dropped or moved to another
context), it is never in use again in this context. -/
theorem C46_gone (hw : WellNamed S) {w0 w w' : World} (h : Reaches S true AnyCall w0) {c : Nat} {i : NodeIndex}
    (h0 : ¬ Nowhere w0 c i) (h1 : Later S true w0 w) (hn : Nowhere w c i) (h2 : Later S true w w') : Nowhere w' c i := by
  have hinv := h.inv hw
  obtain ⟨o, ho⟩ := World.owner_of h0
  obtain ⟨x, hx, _, hle⟩ := hinv.bound o c i ho
  obtain ⟨⟨x', hx', hle'⟩, hinv'⟩ := h1.cnt hw hinv hx
  have hgone : w.Gone c i := ⟨⟨x', hx', Nat.le_trans hle hle'⟩, World.owned_of hw (h1.reaches h) hn⟩
  exact (hgone.later hw hinv' h2).1.nowhere

end TTGraph

namespace TTGraph
namespace Demo
open Spec

theorem run_append [SetImpl] {S : Schema} {dbg : Bool} (l1 l2 : List Step) : ∀ (w : World),
    run S dbg w (l1 ++ l2) = run S dbg (run S dbg w l1) l2 := by
  induction l1 with
  | nil => exact fun _ => rfl
  | cons s l ih => exact fun w => ih _

theorem later_where [SetImpl] {S : Schema} {dbg : Bool} (l2 : List Step) : ∀ {us : List Nat} {w0 w : World}, Later S dbg w0 w → Ids us w →
    runOk S dbg anyStep us w l2 = true → Later S dbg w0 (run S dbg w l2) := by
  induction l2 with
  | nil => exact fun h _ _ => h
  | cons s l ih =>
    intro us w0 w h hu hok
    simp only [runOk, Bool.and_eq_true] at hok
    exact ih (h.step (stepOk_sound hu hok.1.1)) (hu.exec s.call') hok.2

/-- A program goes on with `l2` after `l1`. -/
theorem later [SetImpl] {S : Schema} {dbg : Bool} (l1 l2 : List Step) (h : runOk S dbg anyStep [] World.init (l1 ++ l2) = true) :
    Later S dbg (run S dbg World.init l1) (run S dbg World.init (l1 ++ l2)) := by
  have key : ∀ (l1 : List Step) {us : List Nat} {w : World}, Ids us w → runOk S dbg anyStep us w (l1 ++ l2) = true →
      Later S dbg (run S dbg w l1) (run S dbg w (l1 ++ l2)) := by
    intro l1
    induction l1 with
    | nil => exact fun hu hok => later_where l2 .refl hu hok
    | cons s l ih =>
      intro us w hu hok
      simp only [List.cons_append, runOk, Bool.and_eq_true] at hok
      exact ih (hu.exec s.call') hok.2
  exact key l1 (fun _ _ h => absurd h (by simp [World.init])) h

/-- A node is inserted and committed, a second transaction removes it. -/
def gone4 : List Step :=
  [.call (.newContext 0 7), .call (.newGraph 0 0), .call (.newTrans 0 0), .call (.op 0 (.insert (nB 0))), .call (.op 0 (.insert (nB 1))),
   .call (.commit 0 0), .call (.newTrans 1 0), .call (.op 1 (.remove 1))]

/-- After it is committed, the graph is moved back and forth, and new nodes are inserted. -/
def back4 : List Step :=
  [.call (.commit 0 1), .call (.newContext 1 8), .call (.switchContext 0 1), .call (.switchContext 0 0), .call (.newTrans 2 0),
   .call (.op 2 (.insert (nB 3))), .call (.op 2 .allocUntyped), .call (.op 2 (.fillBackUntyped 5 (nB 1))), .call (.commit 0 2)]

/-- C46: the hypotheses are met, for a removed node and a program that goes on inserting. -/
example : ∃ w w' gh k c g g' t i, Reaches plain true AnyCall w ∧ w.graph gh = some (c, g) ∧ w.trans k = some (c, t) ∧
    g.commit plain true t = .ok g' ∧ g.get? i ≠ none ∧ g'.get? i = none ∧ Later plain true (w.exec plain true (.commit gh k)) w' ∧
    (graphAt w' 0).get? 3 = some (nB 0) ∧ (graphAt w' 0).get? 4 = some (nB 3) ∧ (graphAt w' 0).get? 5 = some (nB 1) :=
  ⟨run plain true World.init gone4, run plain true World.init ((gone4 ++ [.call (.commit 0 1)]) ++ back4.tail), 0, 1, 0, _, _, _, 1,
    reaches gone4 (by decide +kernel), rfl, rfl, got_ok (d := Graph.new 0) (by decide +kernel), by decide +kernel, by decide +kernel,
    by
      have := later (S := plain) (dbg := true) (gone4 ++ [.call (.commit 0 1)]) back4.tail (by decide +kernel)
      rwa [run_append gone4] at this,
    by decide +kernel, by decide +kernel, by decide +kernel⟩

/-- An index is allocated, and the transaction is given up. -/
def lost4 : List Step :=
  [.call (.newContext 0 7), .call (.newGraph 0 0), .call (.newTrans 0 0), .call (.op 0 .allocUntyped)]

/-- C46: the hypotheses are met, for an index that was only allocated. -/
example : ∃ w0 w w' i, Reaches plain true AnyCall w0 ∧ ¬ Nowhere w0 0 i ∧ Later plain true w0 w ∧ Nowhere w 0 i ∧ Later plain true w w' ∧
    (graphAt w' 0).get? 2 = some (nB 1) :=
  ⟨run plain true World.init lost4, run plain true World.init (lost4 ++ [.call (.dropTrans 0)]),
    run plain true World.init ((lost4 ++ [.call (.dropTrans 0)]) ++ [.call (.newTrans 1 0), .call (.op 1 (.insert (nB 1))), .call (.commit 0 1)]), 1,
    reaches lost4 (by decide +kernel),
    fun h => (h.2 0 _ rfl).2 (show 1 ∈ Trans.allocs _ by decide +kernel),
    later _ _ (by decide +kernel),
    ⟨fun k g hg => by
      match k with
      | 0 => cases hg; rfl
      | k + 1 => exact absurd hg (by simp [run, lost4, World.exec, World.init, World.setGraph, World.setTrans, World.put, World.addCtx, World.issue, Step.call', TOp.run, Trans.allocUntyped, Trans.new]),
     fun k t ht => by
      match k with
      | 0 => exact absurd ht (by simp [run, lost4, World.exec, World.init, World.setGraph, World.setTrans, World.put, World.addCtx, World.issue, Step.call', TOp.run, Trans.allocUntyped, Trans.new])
      | k + 1 => exact absurd ht (by simp [run, lost4, World.exec, World.init, World.setGraph, World.setTrans, World.put, World.addCtx, World.issue, Step.call', TOp.run, Trans.allocUntyped, Trans.new])⟩,
    later _ _ (by decide +kernel), by decide +kernel⟩

/-- The same index, committed without being filled. -/
def unfilled4 : List Step :=
  [.call (.newContext 0 7), .call (.newGraph 0 0), .call (.newTrans 0 0), .call (.op 0 (.alloc 2))]

/-- The graph is merged into a transaction. -/
def refill4 : List Step :=
  [.call (.newTrans 1 0), .call (.merge 1 0), .call (.op 1 (.fillBack 1 (nB 1))), .call (.newGraph 1 0), .call (.commit 1 1)]

/-- The wording of `C46_gone` fails without debug assertions: an allocated index that was committed without being filled is in use nowhere,
but a transaction that merges the graph can still fill it. -/
theorem C46_release_fails : ∃ w0 w w' i, Reaches plain false AnyCall w0 ∧ ¬ Nowhere w0 0 i ∧ Later plain false w0 w ∧ Nowhere w 0 i ∧
    Later plain false w w' ∧ (graphAt w' 1).get? i = some (nB 1) :=
  ⟨run plain false World.init unfilled4, run plain false World.init (unfilled4 ++ [.call (.commit 0 0)]),
    run plain false World.init ((unfilled4 ++ [.call (.commit 0 0)]) ++ refill4), 1,
    reaches unfilled4 (by decide +kernel),
    fun h => (h.2 0 _ rfl).2 (show 1 ∈ Trans.allocs _ by decide +kernel),
    later _ _ (by decide +kernel),
    ⟨fun k g hg => by
      match k with
      | 0 => cases hg; rfl
      | k + 1 => exact absurd hg (by rw [show (run plain false World.init (unfilled4 ++ [.call (.commit 0 0)])).graph (k + 1) = none from rfl]; simp),
     fun k t ht => by
      match k with
      | 0 => exact absurd ht (by rw [show (run plain false World.init (unfilled4 ++ [.call (.commit 0 0)])).trans 0 = none from rfl]; simp)
      | k + 1 => exact absurd ht (by rw [show (run plain false World.init (unfilled4 ++ [.call (.commit 0 0)])).trans (k + 1) = none from rfl]; simp)⟩,
    later _ _ (by decide +kernel), by decide +kernel⟩

end Demo
end TTGraph
