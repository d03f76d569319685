import Verif.Spec.Commit
import Verif.Spec.Pending

/-!
# Specification: a transaction that brings a graph to a given state
-/

set_option autoImplicit false

namespace TTGraph
namespace Spec

/-- The pending operations bring the graph `v'` to the state `v`, whose nodes all exist in `v'`, with the same variants: they remove the nodes that
`v` does not have and overwrite nodes with their value in `v`, at least those that differ.  There is nothing else.  (What the closures would do to
nodes of another variant does not matter.) -/
structure Restores (p : Pending) (v v' : View) : Prop where
  variants : ∀ x n, v x = some n → ∃ n', v' x = some n' ∧ n'.disc = n.disc
  overwrite : ∀ i f, (i, f) ∈ p.muts ++ p.upds → ∃ n, v i = some n ∧ ∀ a, a.disc = n.disc → f a = .ok n
  differ : ∀ x n n', v x = some n → v' x = some n' → n.Same n' ∨ ∃ f, (x, f) ∈ p.muts ++ p.upds
  removed : ∀ i, p.removed i ↔ v' i ≠ none ∧ v i = none
  new : ∀ i, p.new i = none
  redir : p.redir = []
  redirAll : p.redirAll = []

end Spec
end TTGraph
