import Verif.Spec.Worlds
import Verif.Spec.Types
import Verif.Spec.Integrity
import Verif.Spec.Switch

/-!
# Putting one graph into another
-/

set_option autoImplicit false

namespace TTGraph
namespace Spec

/-- A graph that is complete in itself: links lead to nodes of the graph, they have their opposites, they are allowed by their annotations, and no
`Vec` field of a `bidirectional!` line holds a node twice. -/
structure Whole (S : Schema) (v : View) : Prop where
  internal : Internal v
  symmetric : Symmetric S v
  typed : WellTyped S v
  once : ∀ x m y m', Opposite S m m' → S.kind? m = some .vec → v.Once x m y

/-- The view `v'` consists of the nodes of `v`, as they are, and the nodes of `v2`, under the indices that `ρ` gives them and with their links
renamed accordingly; no index is used twice. -/
structure Joined (ρ : NodeIndex → NodeIndex) (v v2 v' : View) : Prop where
  empty : ρ emptyIdx = emptyIdx
  inj : ∀ x y, v2 x ≠ none → v2 y ≠ none → ρ x = ρ y → x = y
  apart : ∀ x, v2 x ≠ none → v (ρ x) = none
  old : ∀ x n, v x = some n → ∃ n', v' x = some n' ∧ Node.Same n n'
  moved : ∀ x n, v2 x = some n → ∃ n', v' (ρ x) = some n' ∧ Node.Renamed ρ n n'
  only : ∀ x', v' x' ≠ none → v x' ≠ none ∨ ∃ x, v2 x ≠ none ∧ ρ x = x'

end Spec
end TTGraph
