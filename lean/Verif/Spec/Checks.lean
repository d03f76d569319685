import Verif.Model.Check

/-!
# Registering checks

A program builds its `GraphCheck` by a sequence of calls; which functions are registered in the end is stated in terms of that sequence.
-/

set_option autoImplicit false

namespace TTGraph
namespace Spec

/-- The calls that change a `GraphCheck`. -/
inductive CheckOp
  | insertNode (name : Ident) (f : NodeCheck)
  | removeNode (name : Ident)
  | insertAdd (name : Ident) (f : LinkCheck)
  | removeAdd (name : Ident)
  | insertRemove (name : Ident) (f : LinkCheck)
  | removeRemove (name : Ident)

/-- What a call does. -/
def CheckOp.run (c : GraphCheck) : CheckOp → GraphCheck
  | .insertNode name f => c.insertNodeCheck name f
  | .removeNode name => c.removeNodeCheck name
  | .insertAdd name f => c.insertAddCheck name f
  | .removeAdd name => c.removeAddCheck name
  | .insertRemove name f => c.insertRemoveCheck name f
  | .removeRemove name => c.removeRemoveCheck name

/-- The `GraphCheck` after a sequence of calls on a new one. -/
def registry (l : List CheckOp) : GraphCheck := l.foldl CheckOp.run GraphCheck.new

/-- The call is about the node check with this name. -/
def CheckOp.OfNode (name : Ident) (o : CheckOp) : Prop := (∃ f, o = .insertNode name f) ∨ o = .removeNode name

/-- The call is about the link-add check with this name. -/
def CheckOp.OfAdd (name : Ident) (o : CheckOp) : Prop := (∃ f, o = .insertAdd name f) ∨ o = .removeAdd name

/-- The call is about the link-remove check with this name. -/
def CheckOp.OfRemove (name : Ident) (o : CheckOp) : Prop := (∃ f, o = .insertRemove name f) ∨ o = .removeRemove name

/-- `o` is the last call in `l` that is about what `P` says. -/
def LastCall (P : CheckOp → Prop) (l : List CheckOp) (o : CheckOp) : Prop := P o ∧ ∃ a b, l = a ++ o :: b ∧ ∀ q ∈ b, ¬ P q

/-- The two sequences of calls leave the same functions under the same names. -/
def SameChecks (l l2 : List CheckOp) : Prop :=
  (∀ name f, LastCall (CheckOp.OfNode name) l (.insertNode name f) ↔ LastCall (CheckOp.OfNode name) l2 (.insertNode name f)) ∧
  (∀ name f, LastCall (CheckOp.OfAdd name) l (.insertAdd name f) ↔ LastCall (CheckOp.OfAdd name) l2 (.insertAdd name f)) ∧
  ∀ name f, LastCall (CheckOp.OfRemove name) l (.insertRemove name f) ↔ LastCall (CheckOp.OfRemove name) l2 (.insertRemove name f)

end Spec
end TTGraph
