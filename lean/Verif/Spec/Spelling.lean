import Verif.Spec.Compile

/-!
# Spellings of names

The macros turn the names of links and link groups into camel case, so `my_link` and `myLink` become the same name.
-/

set_option autoImplicit false

namespace TTGraph
namespace Spec

/-- The name `l`, used for the variant `d`, is a spelling of the name `k` that its struct declares. -/
def Spells (nm : Naming) (S : Schema) (d l k : Ident) : Prop := ∃ sd, (d, sd) ∈ S.variants ∧ Declares sd k ∧ nm.camel l = nm.camel k

/-- `S'` is the declaration `S` with every line written out for the single variants and with the names as they are declared in the structs. -/
structure Respelled (nm : Naming) (S S' : Schema) : Prop where
  variants : S'.variants = S.variants
  groups : S'.groups = S.groups
  bidirs : ∀ b', b' ∈ S'.bidirs ↔ ∃ b ∈ S.bidirs, VarNames S b.var1 b'.var1 ∧ Spells nm S b'.var1 b.link1 b'.link1 ∧
    VarNames S b.var2 b'.var2 ∧ Spells nm S b'.var2 b.link2 b'.link2
  annos : ∀ a', a' ∈ S'.annos ↔ ∃ a ∈ S.annos, VarNames S a.var a'.var ∧ Spells nm S a'.var a.link a'.link ∧ a'.var2 = a.var2

/-- A line of `bidirectional!` uses the name `l` for the variant `d`. -/
def LineUses (S : Schema) (d l : Ident) : Prop :=
  ∃ b ∈ S.bidirs, (VarNames S b.var1 d ∧ b.link1 = l) ∨ (VarNames S b.var2 d ∧ b.link2 = l)

/-- The lines of `bidirectional!` use one spelling of each name of a variant, be it another one than the struct. -/
def OneSpelling (nm : Naming) (S : Schema) : Prop := ∀ d l l', LineUses S d l → LineUses S d l' → nm.camel l = nm.camel l' → l = l'

/-- `v.l` in a declaration stands for the link field `m`, which the struct may spell differently. -/
def NamesAs (nm : Naming) (S : Schema) (v l : Ident) (m : Mirror) : Prop :=
  VarNames S v m.disc ∧ ∃ sd k, (m.disc, sd) ∈ S.variants ∧ nm.camel k = nm.camel l ∧ FieldNames sd k m.pos

/-- `m` and `m'` are opposite by some line of `bidirectional!`, in whatever spelling. -/
def OppositeAs (nm : Naming) (S : Schema) (m m' : Mirror) : Prop :=
  ∃ b ∈ S.bidirs, (NamesAs nm S b.var1 b.link1 m ∧ NamesAs nm S b.var2 b.link2 m') ∨ (NamesAs nm S b.var1 b.link1 m' ∧ NamesAs nm S b.var2 b.link2 m)

/-- Of all spellings of a name that the lines of `bidirectional!` use for the variant `d`, `l` comes first in the dictionary. -/
def Leads (nm : Naming) (S : Schema) (d l : Ident) : Prop := ∀ l', LineUses S d l' → nm.camel l' = nm.camel l → l ≤ l'

/-- `m` and `m'` are opposite by a line of `bidirectional!` that uses for `m` the spelling that comes first. -/
def OppositeLed (nm : Naming) (S : Schema) (m m' : Mirror) : Prop :=
  ∃ b ∈ S.bidirs, (NamesAs nm S b.var1 b.link1 m ∧ NamesAs nm S b.var2 b.link2 m' ∧ Leads nm S m.disc b.link1) ∨
    (NamesAs nm S b.var1 b.link1 m' ∧ NamesAs nm S b.var2 b.link2 m ∧ Leads nm S m.disc b.link2)

/-- No name becomes `Empty`, the name of the placeholder in structs without links. -/
def NoEmpty (nm : Naming) (S : Schema) : Prop := ∀ l, LinkWord S l → nm.camel l ≠ nm.empty

end Spec
end TTGraph
