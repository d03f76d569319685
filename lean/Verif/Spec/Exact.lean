import Verif.Spec.Integrity
import Verif.Spec.Types

/-!
# Operations that can be carried out

Relations between views, one for each phase of a commit, with the conditions that the phase needs.
-/

set_option autoImplicit false

namespace TTGraph
namespace Spec

/-- A node of the graph or a node to be inserted. -/
def Present (v : View) (p : Pending) (y : NodeIndex) : Prop := v y ≠ none ∨ p.new y ≠ none

/-- Redirection of requests: all redirected nodes exist, and the requests do not form a loop. -/
def RedirectedNodes (reqs : List (NodeIndex × NodeIndex)) (v v' : View) : Prop :=
  (∀ old new, (old, new) ∈ reqs → v old ≠ none) ∧ ¬ Loop reqs ∧ Redirected reqs v v'

/-- The pending operations `p` can be carried out on `v`, in the documented order, and lead to `v6`: redirected nodes exist and the requests
form no loop; the closures are applied to nodes that exist, do not panic and leave links to nodes that exist; removed nodes exist. -/
def CarriedOut (p : Pending) (v v6 : View) : Prop :=
  ∃ v1 v2 v3 v4 v5 xs, RedirectedNodes p.redir v v1 ∧ Inserted p.new v1 v2 ∧ AppliedIn (Present v p) p.muts v2 v3 ∧
    AppliedIn (Present v p) p.upds v3 v4 ∧ RedirectedNodes p.redirAll v4 v5 ∧ (∀ x, x ∈ xs ↔ p.removed x) ∧ Removed xs v5 v6

/-- The result of the operations can be completed: no direct field needs two values, no `Vec` would have to change, and every new link to a node
is permitted by its annotations. -/
def Completable (S : Schema) (v v6 : View) : Prop :=
  ¬ Spec.Conflict S v v6 ∧ NoVecDue S v v6 ∧ ∀ x m y n, AddedLink v v6 x m y → v6 y = some n → Permitted S m n.disc

/-- No closure leaves the empty index in a set or vector. -/
def NoEmptyLinks (p : Pending) : Prop := ∀ i f, (i, f) ∈ p.muts ++ p.upds → ∀ n n', f n = .ok n' → ∀ s, ¬ n'.Holds s emptyIdx

/-- Every node is redirected at most once, and the closures do not look at the iteration order of sets. -/
structure Regular (p : Pending) : Prop where
  redir : (p.redir.map Prod.fst).Nodup
  redirAll : (p.redirAll.map Prod.fst).Nodup
  closures : ∀ i f, (i, f) ∈ p.muts ++ p.upds → f.Respects

end Spec
end TTGraph
