import Verif.Model.Compile
import Verif.Spec.Types

/-!
# Names in declarations that mean something
-/

set_option autoImplicit false

namespace TTGraph
namespace Spec

/-- The struct has a link field of this name, or a link group of this name, be it without fields (`#[phantom_group(..)]`). -/
def Declares (sd : StructDecl) (l : Ident) : Prop := (∃ p, FieldNames sd l p) ∨ l ∈ sd.phantom

/-- `v.l` in a declaration means something: `v` stands for at least one variant, and all variants it stands for have a link or a group `l`. -/
def Understood (S : Schema) (v l : Ident) : Prop :=
  (∃ d, VarNames S v d) ∧ ∀ d sd, VarNames S v d → (d, sd) ∈ S.variants → Declares sd l

/-- What is enough for a declaration to be accepted, if its names are used once: all names that are used have been declared.
The exception is the variant of a type annotation. -/
structure Meaningful (S : Schema) : Prop where
  variant : S.variants ≠ []
  grouped : ∀ d sd, (d, sd) ∈ S.variants → ∀ f ∈ sd.fields, f.groupAttrs ≠ [] → f.isLink = true
  phantom : ∀ d sd, (d, sd) ∈ S.variants → ∀ l ∈ sd.phantom, ∀ f ∈ sd.fields, f.isLink = true → f.name ≠ l
  groups : ∀ v ds, (v, ds) ∈ S.groups → ds ≠ [] ∧ ∀ d ∈ ds, d ∈ S.discs
  bidirs : ∀ b ∈ S.bidirs, Understood S b.var1 b.link1 ∧ Understood S b.var2 b.link2
  annos : ∀ a ∈ S.annos, (∃ d, VarNames S a.var d) → Understood S a.var a.link ∧ a.var2 ≠ [] ∧ ∀ v ∈ a.var2, ∃ d, VarNames S v d

/-- A name of a link or link group that is declared or mentioned. -/
def LinkWord (S : Schema) (l : Ident) : Prop :=
  (∃ d sd, (d, sd) ∈ S.variants ∧ Declares sd l) ∨ (∃ b ∈ S.bidirs, b.link1 = l ∨ b.link2 = l) ∨ ∃ a ∈ S.annos, a.link = l

/-- Changing the case of names confuses no two of them and makes no reserved word: the names of links and link groups in camel case,
the names of variants in snake case. -/
structure Faithful (nm : Naming) (S : Schema) : Prop where
  camel : ∀ a b, LinkWord S a → LinkWord S b → nm.camel a = nm.camel b → a = b
  free : ∀ a, LinkWord S a → nm.reserved (nm.camel a) = false
  notEmpty : ∀ a, LinkWord S a → nm.camel a ≠ nm.empty
  emptyFree : nm.reserved nm.empty = false
  snake : ∀ d ∈ S.discs, ∀ e ∈ S.discs, nm.snake d = nm.snake e → d = e
  snakeFree : ∀ d ∈ S.discs, nm.reserved (nm.snake d) = false

end Spec
end TTGraph
