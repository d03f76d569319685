import Verif.Spec.Worlds

/-!
# Specification: bidirectional links of any kind of field

The macros accept `Vec` fields in `bidirectional!` lines, although README.md:240 says that they are not supported.
-/

set_option autoImplicit false

namespace TTGraph
namespace Spec

/-- No commit lets a `Vec` field of a `bidirectional!` line hold a node twice on the way. -/
def SteadyBidirCalls (S : Schema) (w : World) : Call → Prop
  | .commit h k => ∀ c c' g t, w.graph h = some (c, g) → w.trans k = some (c', t) → SteadyBidir S t g.get?
  | .commitChecked h k _ => ∀ c c' g t, w.graph h = some (c, g) → w.trans k = some (c', t) → SteadyBidir S t g.get?
  | _ => True

end Spec
end TTGraph
