import Verif.Props.Compile
import Verif.Lemmas.CamelCase

/-!
# Spellings of names: C82
-/

set_option autoImplicit false

namespace TTGraph
open Spec
variable {S S' : Schema} {nm : Naming}

/-- If changing the case of names confuses no two of them, the generated tables, which know links by their names in camel case, are those that the other
theorems are about, which know links by their names. -/
theorem C82_faithful (hw : WellNamed S) (hf : Faithful nm S) (m : Mirror) :
    S.mirrorsOfC nm m = S.mirrorsOf m ∧ ∀ d, S.checkLinkTypeC nm d m = S.checkLinkType d m :=
  ⟨Schema.mirrorsOfC_faithful hw hf.camel hf.notEmpty m, fun d => Schema.checkLinkTypeC_faithful hw hf.camel d m⟩

/-- In general the declared opposites of a field are those of the lines that use, of all spellings of a name that the lines use for the variant, the first in
the dictionary. -/
theorem C82_opposites (hw : WellNamed S) (hc : S.Compiles nm) (hne : NoEmpty nm S) (m m' : Mirror) :
    m' ∈ S.mirrorsOfC nm m ↔ OppositeLed nm S m m' := Schema.mem_mirrorsOfC hw hc hne

/-- If the lines of `bidirectional!` use one spelling of each name, which need not be that of the struct, the opposites are the declared ones. -/
theorem C82_opposites_partial (hw : WellNamed S) (hc : S.Compiles nm) (hne : NoEmpty nm S) (ho : OneSpelling nm S) (m m' : Mirror) :
    m' ∈ S.mirrorsOfC nm m ↔ OppositeAs nm S m m' := by
  rw [Schema.mem_mirrorsOfC hw hc hne]
  constructor
  · rintro ⟨b, hb, ⟨h1, h2, _⟩ | ⟨h1, h2, _⟩⟩
    · exact ⟨b, hb, Or.inl ⟨h1, h2⟩⟩
    · exact ⟨b, hb, Or.inr ⟨h1, h2⟩⟩
  · rintro ⟨b, hb, ⟨h1, h2⟩ | ⟨h1, h2⟩⟩
    · exact ⟨b, hb, Or.inl ⟨h1, h2, fun l' hl' e => Nat.le_of_eq (ho _ _ _ hl' ⟨b, hb, Or.inl ⟨h1.1, rfl⟩⟩ e).symm⟩⟩
    · exact ⟨b, hb, Or.inr ⟨h1, h2, fun l' hl' e => Nat.le_of_eq (ho _ _ _ hl' ⟨b, hb, Or.inr ⟨h2.1, rfl⟩⟩ e).symm⟩⟩

/-- The same in one: the generated tables are those of the declaration in which every line is written out with the names as the structs have them, so that the
other theorems apply to this declaration. -/
theorem C82_respelled_partial (hw : WellNamed S) (hc : S.Compiles nm) (hne : NoEmpty nm S) (ho : OneSpelling nm S) (h : Respelled nm S S') (m : Mirror) :
    (S.mirrorsOfC nm m).Perm (S'.mirrorsOf m) ∧ ∀ d, S.checkLinkTypeC nm d m = S'.checkLinkType d m :=
  ⟨h.mirrorsOf hw hc hne ho m, fun d => h.checkLinkType hw d m⟩

/-- The types of links do not depend on the spelling: the field `m` may point to a node of variant `d` if and only if the declaration with the names as the
structs have them permits it. -/
theorem C82_types (hw : WellNamed S) (h : Respelled nm S S') (m : Mirror) (d : Ident) : S.checkLinkTypeC nm d m = true ↔ Permitted S' m d := by
  rw [h.checkLinkType hw]; exact Schema.checkLinkType_iff (h.named hw)

/-- Every declaration that compiles can be written with the names as the structs have them. -/
theorem C82_exists (hw : WellNamed S) (hc : S.Compiles nm) (hne : NoEmpty nm S) : ∃ S', Respelled nm S S' ∧ WellNamed S' :=
  ⟨_, Schema.respelled hw hc hne, (Schema.respelled hw hc hne).named hw⟩

end TTGraph

namespace TTGraph
namespace Demo
open Spec

/-- As `named65`, but the line of `bidirectional!` and a type annotation spell the field 20 of `B` as 29. -/
def spelled82 : Schema := { named65 with bidirs := [⟨1, 10, 2, 29⟩, ⟨90, 30, 2, 29⟩], annos := [⟨90, 30, [90]⟩, ⟨2, 29, [1]⟩] }

theorem spelled82_named : WellNamed spelled82 := wellNamed_sound (by decide)

theorem noEmpty_sound {S : Schema} {nm : Naming} (h : ∀ a ∈ linkWords S, nm.camel a ≠ nm.empty) : NoEmpty nm S := fun a ha => h a (mem_linkWords ha)

def bidirWords (S : Schema) : List (Ident × Ident) :=
  S.bidirs.flatMap fun b => S.discs.flatMap fun d => (if d ∈ S.expandVar b.var1 then [(d, b.link1)] else []) ++ if d ∈ S.expandVar b.var2 then [(d, b.link2)] else []

theorem mem_bidirWords {S : Schema} {d l : Ident} (hw : WellNamed S) (h : LineUses S d l) : (d, l) ∈ bidirWords S := by
  obtain ⟨b, hb, h⟩ := h
  refine List.mem_flatMap.2 ⟨b, hb, List.mem_flatMap.2 ⟨d, by rcases h with ⟨h, _⟩ | ⟨h, _⟩ <;> exact h.disc, ?_⟩⟩
  rcases h with ⟨h, rfl⟩ | ⟨h, rfl⟩
  · exact List.mem_append_left _ (by rw [if_pos ((Schema.mem_expandVar hw).2 h).1]; simp)
  · exact List.mem_append_right _ (by rw [if_pos ((Schema.mem_expandVar hw).2 h).1]; simp)

theorem oneSpelling_sound {S : Schema} {nm : Naming} (hw : WellNamed S)
    (h : ∀ p ∈ bidirWords S, ∀ q ∈ bidirWords S, p.1 = q.1 → nm.camel p.2 = nm.camel q.2 → p.2 = q.2) : OneSpelling nm S :=
  fun d l l' h1 h2 e => h (d, l) (mem_bidirWords hw h1) (d, l') (mem_bidirWords hw h2) rfl e

example : (named65.mirrorsOfC naming ⟨2, 0⟩ = [⟨1, 0⟩]) ∧ named65.checkLinkTypeC naming 2 ⟨1, 0⟩ = true :=
  let h := C82_faithful (nm := naming) (S := named65) (wellNamed_sound (by decide)) (faithful_sound (by decide))
  ⟨(h ⟨2, 0⟩).1.trans (by decide), ((h ⟨1, 0⟩).2 2).trans (by decide)⟩

/-- The field is found although it is spelt differently. -/
example : OppositeAs naming spelled82 ⟨1, 0⟩ ⟨2, 0⟩ :=
  (C82_opposites_partial spelled82_named (by decide) (noEmpty_sound (by decide)) (oneSpelling_sound spelled82_named (by decide)) _ _).1 (by decide)

example : OppositeLed naming spelled82 ⟨2, 0⟩ ⟨1, 0⟩ :=
  (C82_opposites spelled82_named (by decide) (noEmpty_sound (by decide)) _ _).1 (by decide)

example : ∃ S', Respelled naming spelled82 S' ∧ WellNamed S' ∧ (spelled82.mirrorsOfC naming ⟨2, 0⟩).Perm (S'.mirrorsOf ⟨2, 0⟩) ∧
    ¬ Permitted S' ⟨2, 0⟩ 2 := by
  obtain ⟨S', h, hw'⟩ := C82_exists (nm := naming) spelled82_named (by decide) (noEmpty_sound (by decide))
  refine ⟨S', h, hw', (C82_respelled_partial spelled82_named (by decide) (noEmpty_sound (by decide)) (oneSpelling_sound spelled82_named (by decide)) h _).1, ?_⟩
  rw [← C82_types spelled82_named h]
  decide

/-- `A.f <-> B.foo_bar` and `A.s <-> B.fooBar`. -/
def spelt82 : Schema := { named65 with bidirs := [⟨1, 10, 2, 20⟩, ⟨1, 11, 2, 29⟩] }

/-- With two spellings the declaration compiles and both lines mean the same field, but the second line holds in one direction only: the field of
`B` is an opposite of `A.s`, and `A.s` is none of the field of `B`. -/
theorem C82_two_spellings_fails : WellNamed spelt82 ∧ spelt82.Compiles naming ∧ NoEmpty naming spelt82 ∧ OppositeAs naming spelt82 ⟨2, 0⟩ ⟨1, 1⟩ ∧
    (⟨2, 0⟩ : Mirror) ∈ spelt82.mirrorsOfC naming ⟨1, 1⟩ ∧ (⟨1, 1⟩ : Mirror) ∉ spelt82.mirrorsOfC naming ⟨2, 0⟩ := by
  refine ⟨wellNamed_sound (by decide), by decide, noEmpty_sound (by decide), ?_, by decide, by decide⟩
  refine ⟨⟨1, 11, 2, 29⟩, by decide, Or.inr ⟨⟨Or.inl ⟨rfl, by decide⟩, _, 11, List.mem_cons_self, rfl, _, rfl, Or.inl rfl⟩,
    ⟨Or.inl ⟨rfl, by decide⟩, _, 20, List.mem_cons_of_mem _ List.mem_cons_self, by decide, _, rfl, Or.inl rfl⟩⟩⟩

/-- As `named65`, with a third variant that has no links, and the line `A.f <-> C.empty`. -/
def hollow82 : Schema := { named65 with variants := named65.variants ++ [(3, ⟨[], []⟩)], bidirs := [⟨1, 10, 3, 31⟩] }

/-- Camel case of 31 (`empty`) is the name of the placeholder. -/
def naming82 : Naming := { naming with camel := fun n => if n = 31 then 999 else naming.camel n }

/-- A line may name the placeholder of a struct without links: this compiles, and the opposite of the field is a field that the struct does not have. -/
theorem C82_placeholder_fails : WellNamed hollow82 ∧ hollow82.Compiles naming82 ∧ (⟨3, 0⟩ : Mirror) ∈ hollow82.mirrorsOfC naming82 ⟨1, 0⟩ ∧
    ∀ m, ¬ OppositeAs naming82 hollow82 ⟨1, 0⟩ m := by
  refine ⟨wellNamed_sound (by decide), by decide, by decide, ?_⟩
  have key : ∀ m' : Mirror, ∀ v, v = 3 → ¬ NamesAs naming82 hollow82 v 31 m' := by
    rintro m' v rfl ⟨h1, sd, k, h2, _, f, h3, _⟩
    have h4 : m'.disc = 3 := by
      rcases h1 with ⟨h1, _⟩ | ⟨ds, h1, _⟩
      · exact h1.symm
      · exact absurd h1 (fun h => by simp [hollow82, named65] at h)
    rw [h4] at h2
    have : sd = ⟨[], []⟩ := by simpa [hollow82, named65] using h2
    subst this
    exact absurd h3 (by simp [StructDecl.links])
  rintro m ⟨b, hb, h⟩
  obtain rfl : b = ⟨1, 10, 3, 31⟩ := by simpa [hollow82] using hb
  rcases h with ⟨_, h⟩ | ⟨_, h⟩
  · exact key _ _ rfl h
  · exact key _ _ rfl h

end Demo
end TTGraph
