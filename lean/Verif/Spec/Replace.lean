import Verif.Spec.Commit
import Verif.Spec.Pending

/-!
# Specification: a node takes the place of another
-/

set_option autoImplicit false

namespace TTGraph
namespace Spec

/-- The pending operations are `redirect_all_links(a, b)`, `remove(a)` and perhaps insertions. -/
structure Replacing (p : Pending) (a b : NodeIndex) : Prop where
  redirAll : p.redirAll = [(a, b)]
  removed : ∀ i, p.removed i ↔ i = a
  redir : p.redir = []
  muts : p.muts = []
  upds : p.upds = []

/-- `v'` is `v` without the node `a`, where every place that held `a` holds `b`. -/
def Replaced (a b : NodeIndex) (v v' : View) : Prop :=
  v' a = none ∧ ∀ x, x ≠ a → (v' x).map Node.shape = (v x).map Node.shape ∧
    ∀ s y, v'.Holds x s y ↔ (y ≠ a ∧ v.Holds x s y) ∨ (y = b ∧ v.Holds x s a)

/-- The field `m'` of `b` has to answer the link of `w`, which went to `a` and not to `b`. -/
def Inherits (S : Schema) (v : View) (a b : NodeIndex) (m' : Mirror) (w : NodeIndex) : Prop :=
  w ≠ a ∧ ∃ m n, v.Link w m a ∧ ¬ v.Link w m b ∧ v b = some n ∧ OnlyOpposite S m n.disc m'

end Spec
end TTGraph
