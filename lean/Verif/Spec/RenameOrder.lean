import Verif.Spec.Rename
import Verif.Spec.Order

/-!
# The order of iteration in two executions that differ in the values of indices
-/

set_option autoImplicit false

namespace TTGraph
namespace Spec

/-- The lists of the first execution, with every index `x` replaced by `σ x`, are those of the second one. -/
structure AlikeOrders (σ : Equiv.Perm NodeIndex) (q q2 : Orders) : Prop where
  new : ∀ d, q2.new d = (q.new d).map σ
  updated : q2.updated = q.updated.map σ
  removed : q2.removed = q.removed.map σ

end Spec
end TTGraph
