import Verif.Spec.Types

/-!
# Specification of group declarations

What it means to write out the groups in the lines of `bidirectional!` and `link_type!`.
-/

set_option autoImplicit false

namespace TTGraph
namespace Spec

/-- On the variant `d`, the name `l` stands for the link field named `f`: it is this name or the name of a link group that lists the field. -/
def Member (S : Schema) (d l f : Ident) : Prop :=
  ∃ sd fd, (d, sd) ∈ S.variants ∧ fd ∈ sd.fields ∧ fd.isLink = true ∧ fd.name = f ∧ (f = l ∨ ∃ gs ∈ fd.groupAttrs, l ∈ gs)

/-- `S'` has the same variants and groups as `S`, and its lines are those of `S` with variant groups replaced by each of their variants and
link groups replaced by each of their fields. -/
structure Expansion (S S' : Schema) : Prop where
  variants : S'.variants = S.variants
  groups : S'.groups = S.groups
  bidirs : ∀ b, b ∈ S'.bidirs ↔ ∃ l ∈ S.bidirs, VarNames S l.var1 b.var1 ∧ Member S b.var1 l.link1 b.link1 ∧
    VarNames S l.var2 b.var2 ∧ Member S b.var2 l.link2 b.link2
  annos : ∀ a' ∈ S'.annos, ∃ a ∈ S.annos, VarNames S a.var a'.var ∧ Member S a'.var a.link a'.link ∧ ∀ d, d ∈ a'.var2 ↔ Accepts S a d
  allAnnos : ∀ a ∈ S.annos, ∀ v f, VarNames S a.var v → Member S v a.link f →
    ∃ a' ∈ S'.annos, a'.var = v ∧ a'.link = f ∧ ∀ d, d ∈ a'.var2 ↔ Accepts S a d

end Spec
end TTGraph
