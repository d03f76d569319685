import Verif.Spec.Types

/-!
# Declarations that differ in the order in which things are written
-/

set_option autoImplicit false

namespace TTGraph
namespace Spec

/-- The line `A.f <-> B.g` written as `B.g <-> A.f`. -/
def turned (b : BidirDecl) : BidirDecl := ⟨b.var2, b.link2, b.var1, b.link1⟩

/-- Two `node_enum!` blocks that declare the same: the variants and the groups are listed in any order; the lines of `bidirectional!` are written in
any order, any number of times and in either direction; the lines of `link_type!` are written in any order and any number of times. -/
structure Redeclared (S S' : Schema) : Prop where
  variants : S'.variants.Perm S.variants
  groups : S'.groups.Perm S.groups
  bidirs : ∀ b, (b ∈ S'.bidirs ∨ turned b ∈ S'.bidirs) ↔ (b ∈ S.bidirs ∨ turned b ∈ S.bidirs)
  annos : ∀ a, a ∈ S'.annos ↔ a ∈ S.annos

end Spec
end TTGraph
