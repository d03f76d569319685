import Verif.Lemmas.Registry
import Verif.Props.Checks

/-!
# C53: registered checks

Which functions `commit_checked` runs is decided by the last call for each name; the order of registration does not matter.
-/

set_option autoImplicit false

namespace TTGraph

open Spec

/-- After any sequence of calls on a new `GraphCheck`, the function registered under a name is the one of the last call for this name, if
that call has inserted it; if the last call has removed it, or there was none, nothing is registered under the name.  The three kinds of
checks do not influence each other. -/
theorem C53_registered (l : List CheckOp) (name : Ident) :
    (∀ f, (registry l).nodeChecks.get? name = some f ↔ LastCall (CheckOp.OfNode name) l (.insertNode name f)) ∧
    (∀ f, (registry l).addChecks.get? name = some f ↔ LastCall (CheckOp.OfAdd name) l (.insertAdd name f)) ∧
    ∀ f, (registry l).removeChecks.get? name = some f ↔ LastCall (CheckOp.OfRemove name) l (.insertRemove name f) :=
  ⟨registry_node l name, registry_add l name, registry_remove l name⟩

/-- Two sequences of calls that leave the same functions under the same names are not distinguished by any `commit_checked`: it returns the
same graph or panics in the same way.  In particular the order of registration does not matter. -/
theorem C53_order [SetImpl] {S : Schema} {dbg : Bool} {l l2 : List CheckOp} (h : SameChecks l l2) (g : Graph) (t : Trans) :
    g.commitChecked S dbg t (registry l) = g.commitChecked S dbg t (registry l2) :=
  by rw [registry_same h]

/-- Checks do not change the result: whatever is registered, `commit_checked` returns what `commit` returns, or it panics; and if it returns
with some checks, it returns with fewer of them. -/
theorem C53_fewer [SetImpl] {S : Schema} {dbg : Bool} {l l2 : List CheckOp} {g g' : Graph} {t : Trans}
    (hn : ∀ name f, LastCall (CheckOp.OfNode name) l2 (.insertNode name f) → LastCall (CheckOp.OfNode name) l (.insertNode name f))
    (ha : ∀ name f, LastCall (CheckOp.OfAdd name) l2 (.insertAdd name f) → LastCall (CheckOp.OfAdd name) l (.insertAdd name f))
    (hr : ∀ name f, LastCall (CheckOp.OfRemove name) l2 (.insertRemove name f) → LastCall (CheckOp.OfRemove name) l (.insertRemove name f))
    (hc : g.commitChecked S dbg t (registry l) = .ok g') : g.commitChecked S dbg t (registry l2) = .ok g' := by
  obtain ⟨r, h1, h2, h3⟩ := Graph.commitChecked_iff.1 hc
  refine Graph.commitChecked_iff.2 ⟨r, h1, h2, ?_⟩
  rw [Graph.checkChange_nil] at h3 ⊢
  refine ⟨fun c hc => ?_, fun c hc => ?_, fun c hc => ?_⟩
  · exact h3.1 c (Sorted.get?_eq_some.1 ((registry_node l c.1 c.2).2 (hn _ _ ((registry_node l2 c.1 c.2).1 (Sorted.get?_eq_some.2 hc)))))
  · exact h3.2.1 c (Sorted.get?_eq_some.1 ((registry_add l c.1 c.2).2 (ha _ _ ((registry_add l2 c.1 c.2).1 (Sorted.get?_eq_some.2 hc)))))
  · exact h3.2.2 c
      (Sorted.get?_eq_some.1 ((registry_remove l c.1 c.2).2 (hr _ _ ((registry_remove l2 c.1 c.2).1 (Sorted.get?_eq_some.2 hc)))))

/-- If nothing is registered in the end, `commit_checked` does what `commit` does. -/
theorem C53_none [SetImpl] {S : Schema} {dbg : Bool} {l : List CheckOp}
    (hn : ∀ name f, ¬ LastCall (CheckOp.OfNode name) l (.insertNode name f)) (ha : ∀ name f, ¬ LastCall (CheckOp.OfAdd name) l (.insertAdd name f))
    (hr : ∀ name f, ¬ LastCall (CheckOp.OfRemove name) l (.insertRemove name f)) (g : Graph) (t : Trans) :
    g.commitChecked S dbg t (registry l) = g.commit S dbg t := by
  have e : ∀ {α : Type} (P : Ident → α → Prop) (m : Sorted α), (∀ k v, m.get? k = some v ↔ P k v) → (∀ k v, ¬ P k v) → m.entries = [] :=
    fun P m h h' => List.eq_nil_iff_forall_not_mem.2 fun c hc => h' c.1 c.2 ((h _ _).1 (Sorted.get?_eq_some.2 hc))
  have e1 := e _ _ (registry_node l) hn
  have e2 := e _ _ (registry_add l) ha
  have e3 := e _ _ (registry_remove l) hr
  have hch : ∀ (g' : Graph) (r : Lcr), g'.checkChange r (registry l) = .ok [] := fun g' r =>
    Graph.checkChange_nil.2 ⟨by simp [e1], by simp [e2], by simp [e3]⟩
  unfold Graph.commitChecked Graph.commit
  cases Graph.doCommit S dbg g t with
  | error e => rfl
  | ok p =>
    obtain ⟨g', r⟩ := p
    dsimp only
    cases Graph.checkLinkType S g' r with
    | error e => rfl
    | ok _ => dsimp only; rw [hch]

end TTGraph

/-! ### Concrete cases -/

namespace TTGraph.Demo
open Spec

/-- Registering under two names, replacing one and removing the other one. -/
def regs : List CheckOp := [.insertAdd 7 refuse, .insertAdd 8 refuse, .insertAdd 7 only3, .insertNode 8 acceptNode, .removeAdd 8]

/-- The same in the end. -/
def regs2 : List CheckOp := [.insertNode 8 acceptNode, .insertAdd 7 only3]

/-- Under the name 7 there is now the second function. -/
example : (registry regs).addChecks.get? 7 = some only3 :=
  ((C53_registered regs 7).2.1 only3).2 ⟨.inl ⟨_, rfl⟩, [.insertAdd 7 refuse, .insertAdd 8 refuse], [.insertNode 8 acceptNode, .removeAdd 8], rfl, by simp [CheckOp.OfAdd]⟩

/-- Under the name 8 there is no link-add check any more. -/
example : (registry regs).addChecks.get? 8 = none := rfl

theorem regs_same : SameChecks regs regs2 := by
  refine ⟨fun name f => ?_, fun name f => ?_, fun name f => ?_⟩
  · rw [← registry_node, ← registry_node]; exact Iff.rfl
  · rw [← registry_add, ← registry_add]
    simp only [registry, regs, regs2, List.foldl, CheckOp.run, GraphCheck.insertAddCheck, GraphCheck.removeAddCheck, GraphCheck.new,
      GraphCheck.insertNodeCheck, Sorted.get?_insert, Sorted.get?_remove, Sorted.get?_empty]
    by_cases h8 : (8 : Nat) = name
    · subst h8; simp
    · by_cases h7 : (7 : Nat) = name
      · subst h7; simp
      · simp [h8, h7]
  · rw [← registry_remove, ← registry_remove]; exact Iff.rfl

/-- `C53_order`, for a transaction that adds a link to node 3 and is accepted, and for one that adds a link to node 2 and is refused. -/
example : checked pair (check3 ++ [.call (.op 1 (.insert (pA 3 [])))]) (registry regs) =
      checked pair (check3 ++ [.call (.op 1 (.insert (pA 3 [])))]) (registry regs2) ∧
    (∃ g', checked pair (check3 ++ [.call (.op 1 (.insert (pA 3 [])))]) (registry regs) = .ok g') ∧
    checked pair (check3 ++ [.call (.op 1 (.insert (pA 2 [])))]) (registry regs) = .error (.checkFailed [7]) :=
  ⟨by unfold checked; exact C53_order regs_same _ _, ⟨_, got_ok (d := Graph.new 0) (by decide +kernel)⟩, rfl⟩

/-- `C53_fewer`: without the node check. -/
example : ∃ g', checked pair (check3 ++ [.call (.op 1 (.insert (pA 3 [])))]) (registry [.insertAdd 7 only3]) = .ok g' := by
  have hc : checked pair (check3 ++ [.call (.op 1 (.insert (pA 3 [])))]) (registry regs2) = .ok _ := got_ok (d := Graph.new 0) (by decide +kernel)
  unfold checked at hc ⊢
  refine ⟨_, C53_fewer (l := regs2) (fun name f h => ?_) (fun name f h => ?_) (fun name f h => ?_) hc⟩
  · rw [← registry_node] at h; exact absurd h (by simp [registry, CheckOp.run, GraphCheck.insertAddCheck, GraphCheck.new])
  · rw [← registry_add] at h ⊢; exact h
  · rw [← registry_remove] at h; exact absurd h (by simp [registry, CheckOp.run, GraphCheck.insertAddCheck, GraphCheck.new])

/-- `C53_none`: all checks have been removed again. -/
example (g : Graph) (t : Trans) :
    g.commitChecked pair true t (registry [.insertAdd 7 refuse, .insertNode 7 refuseNode, .removeNode 7, .removeAdd 7]) = g.commit pair true t := by
  refine C53_none (fun name f h => ?_) (fun name f h => ?_) (fun name f h => ?_) g t
  · rw [← registry_node] at h; exact absurd h (by show ¬ Sorted.empty.get? name = some f; simp)
  · rw [← registry_add] at h; exact absurd h (by show ¬ Sorted.empty.get? name = some f; simp)
  · rw [← registry_remove] at h; exact absurd h (by show ¬ Sorted.empty.get? name = some f; simp)

end TTGraph.Demo
