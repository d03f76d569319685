import Verif.Spec.Commit

/-!
# The net effect of a transaction
-/

set_option autoImplicit false

namespace TTGraph
namespace Spec

/-- Whatever the operations of `t` make of `v` and those of `t'` make of `v'`, before bidirectional completion, has the same nodes up to the order of
sets. -/
def SameNet (t t' : Trans) (v v' : View) : Prop := ∀ v6 v6', Performed t v v6 → Performed t' v' v6' → View.Same v6 v6'

/-- The operations of `t` leave `v` as it is, up to the order of sets. -/
def NoNet (t : Trans) (v : View) : Prop := ∀ v6, Performed t v v6 → View.Same v v6

end Spec
end TTGraph
