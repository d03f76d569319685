import Verif.Spec.Worlds
import Verif.Spec.Integrity

/-!
# Specification vocabulary for `switch_context` and for files
-/

set_option autoImplicit false

namespace TTGraph
namespace Spec

/-- `ρ` maps the nodes of `v` one to one to the nodes of `v'`, which differ only in that all links are renamed by `ρ`. -/
structure Isomorphic (ρ : NodeIndex → NodeIndex) (v v' : View) : Prop where
  empty : ρ emptyIdx = emptyIdx
  inj : ∀ x y, v x ≠ none → v y ≠ none → ρ x = ρ y → x = y
  node : ∀ x n, v x = some n → ∃ n', v' (ρ x) = some n' ∧ Node.Renamed ρ n n'
  onto : ∀ x', v' x' ≠ none → ∃ x, v x ≠ none ∧ ρ x = x'

/-- The old index `b` is equal to the new index of a node that the iteration yields before `b`, at position `p`, and one set of links holds
both.  New indices are given out in the order of the iteration, from `cnt + 1` on. -/
def Collision (v : View) (order : List NodeIndex) (cnt : Nat) : Prop :=
  ∃ (p q : Nat) (a b : NodeIndex), order[p]? = some a ∧ order[q]? = some b ∧ p < q ∧ b = cnt + 1 + p ∧
    ∃ x s, v.Holds x s a ∧ v.Holds x s b

/-- `Collision` for arbitrary new indices: `new` lists the new indices of the nodes in the order of the iteration. -/
def CollisionWith (v : View) (order new : List NodeIndex) : Prop :=
  ∃ (p q : Nat) (a b : NodeIndex), order[p]? = some a ∧ order[q]? = some b ∧ p < q ∧ new[p]? = some b ∧ ∃ x s, v.Holds x s a ∧ v.Holds x s b

end Spec
end TTGraph
