import Verif.Model.Check
import Verif.Spec.Commit

/-!
# The report of `commit_checked`

When checks fail, `commit_checked` panics with a list of names.  Which names these are, in terms of the nodes before the commit (`v`), after
its operations (`v6`) and at its end (`v'`).
-/

set_option autoImplicit false

namespace TTGraph
namespace Spec

/-- The node `x` has gained or lost a link. -/
def Relinked (v v6 : View) (x : NodeIndex) : Prop := ∃ m y, AddedLink v v6 x m y ∨ RemovedLink v v6 x m y

/-- The node check `f` returns `c` for some node that has gained or lost a link. -/
def NodeVerdict (v v6 v' : View) (f : NodeCheck) (c : CheckResult) : Prop := ∃ x n, Relinked v v6 x ∧ v' x = some n ∧ f x n = c

/-- The link check `f` returns `c` for some new link. -/
def LinkVerdict (v v6 v' : View) (f : LinkCheck) (c : CheckResult) : Prop :=
  ∃ x m y n, AddedLink v v6 x m y ∧ v' x = some n ∧ f x y n (v' y) = c

/-- The names of the node checks that fail, then those of the link-add checks, then those of the link-remove checks (which are run on new
links, see C30), each in ascending order. -/
def Report (cs : GraphCheck) (v v6 v' : View) (names : List Ident) : Prop :=
  ∃ l1 l2 l3, names = l1 ++ l2 ++ l3 ∧ l1.Pairwise (· < ·) ∧ l2.Pairwise (· < ·) ∧ l3.Pairwise (· < ·) ∧
    (∀ name, name ∈ l1 ↔ ∃ f, cs.nodeChecks.get? name = some f ∧ NodeVerdict v v6 v' f .err) ∧
    (∀ name, name ∈ l2 ↔ ∃ f, cs.addChecks.get? name = some f ∧ LinkVerdict v v6 v' f .err) ∧
    ∀ name, name ∈ l3 ↔ ∃ f, cs.removeChecks.get? name = some f ∧ LinkVerdict v v6 v' f .err

/-- Some registered check function panics. -/
def CheckPanics (cs : GraphCheck) (v v6 v' : View) : Prop :=
  (∃ name f, cs.nodeChecks.get? name = some f ∧ NodeVerdict v v6 v' f .panics) ∨
    (∃ name f, cs.addChecks.get? name = some f ∧ LinkVerdict v v6 v' f .panics) ∨
    ∃ name f, cs.removeChecks.get? name = some f ∧ LinkVerdict v v6 v' f .panics

/-- Some registered check function returns `Err`, and the name is among those of the failed checks. -/
def CheckFails (cs : GraphCheck) (v v6 v' : View) (name : Ident) : Prop :=
  (∃ f, cs.nodeChecks.get? name = some f ∧ NodeVerdict v v6 v' f .err) ∨
    (∃ f, cs.addChecks.get? name = some f ∧ LinkVerdict v v6 v' f .err) ∨
    ∃ f, cs.removeChecks.get? name = some f ∧ LinkVerdict v v6 v' f .err

end Spec
end TTGraph
