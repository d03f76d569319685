import Verif.Spec.Pending
import Verif.Spec.Types

/-!
# Transactions that make sense for a graph
-/

set_option autoImplicit false

namespace TTGraph
namespace Spec

/-- The index `y` is known when the closures of a commit run: it is a node of the graph or a new node, one of them has a link to it, or
`redirect_links` has sent links to it. -/
def Mentioned (v : View) (p : Pending) (y : NodeIndex) : Prop :=
  v y ≠ none ∨ v.Linked y ∨ p.new y ≠ none ∨ View.Linked p.new y ∨ ∃ old, (old, y) ∈ p.redir

/-- On nodes with links to known indices, the closure does not panic and leaves only links to known indices. -/
def Harmless (S : Schema) (known : NodeIndex → Prop) (f : Closure) : Prop :=
  ∀ n, S.WT n → (∀ s y, n.Holds s y → known y) → ∃ n', f n = .ok n' ∧ S.WT n' ∧ ∀ s y, n'.Holds s y → known y

/-- The pending operations make sense for the graph. -/
structure Valid (S : Schema) (v : View) (p : Pending) : Prop where
  /-- nodes to be mutated, updated or removed exist -/
  muts : ∀ i f, (i, f) ∈ p.muts ++ p.upds → v i ≠ none ∨ p.new i ≠ none
  removed : ∀ i, p.removed i → v i ≠ none ∨ p.new i ≠ none
  /-- closures are harmless -/
  closures : ∀ i f, (i, f) ∈ p.muts ++ p.upds → Harmless S (Mentioned v p) f
  /-- redirect sources are known -/
  redir : ∀ old new, (old, new) ∈ p.redir → v old ≠ none ∨ v.Linked old
  redirAll : ∀ old new, (old, new) ∈ p.redirAll → Mentioned v p old
  /-- no loops -/
  noLoop : ¬ Loop p.redir
  noLoopAll : ¬ Loop p.redirAll

/-- The link must satisfy its annotations at this commit: it is new, or it is held by a `Vec` that holds a node twice in between (for which the
commit does not track exactly which links are new). -/
def Checked (S : Schema) (t : Trans) (v v6 : View) (x : NodeIndex) (m : Mirror) (y : NodeIndex) : Prop :=
  v6.Link x m y ∧ (Steady S t v x m y → ¬ v.Link x m y)

end Spec
end TTGraph
