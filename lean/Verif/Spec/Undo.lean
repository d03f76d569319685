import Verif.Spec.Commit
import Verif.Spec.Pending

/-!
# Specification: transactions that only insert or only remove
-/

set_option autoImplicit false

namespace TTGraph
namespace Spec

/-- The pending operations are insertions. -/
structure OnlyInserts (p : Pending) : Prop where
  removed : ∀ i, ¬ p.removed i
  redir : p.redir = []
  redirAll : p.redirAll = []
  muts : p.muts = []
  upds : p.upds = []

/-- The pending operations are removals, of the nodes in `N`. -/
structure OnlyRemoves (p : Pending) (N : NodeIndex → Prop) : Prop where
  removed : ∀ i, p.removed i ↔ N i
  new : ∀ i, p.new i = none
  redir : p.redir = []
  redirAll : p.redirAll = []
  muts : p.muts = []
  upds : p.upds = []

/-- `v'` is `v` without the nodes in `N` and without the links to them. -/
def Without (N : NodeIndex → Prop) (v v' : View) : Prop :=
  (∀ x, N x → v' x = none) ∧ ∀ x, ¬ N x → (v' x).map Node.shape = (v x).map Node.shape ∧
    ∀ s y, v'.Holds x s y ↔ v.Holds x s y ∧ ¬ N y

end Spec
end TTGraph
