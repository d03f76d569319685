import Mathlib.Data.List.Perm.Basic
import Mathlib.Data.List.Dedup
import Verif.Lemmas.Types
import Verif.Spec.Declare
import Verif.Spec.Vec

/-!
# Declarations that differ in the order in which things are written
-/

set_option autoImplicit false

namespace TTGraph
open Spec

/-- What a commit asks of a declaration is the same for both. -/
structure SameTables (S S' : Schema) : Prop where
  opposite : ∀ m m', Opposite S' m m' ↔ Opposite S m m'
  kind : ∀ m, S'.kind? m = S.kind? m
  types : ∀ d m, S'.checkLinkType d m = S.checkLinkType d m

namespace SameTables
variable {S S' : Schema}

theorem refl (S : Schema) : SameTables S S := ⟨fun _ _ => Iff.rfl, fun _ => rfl, fun _ _ => rfl⟩

theorem onlyOpposite (h : SameTables S S') (m : Mirror) (d : Ident) (m' : Mirror) : OnlyOpposite S' m d m' ↔ OnlyOpposite S m d m' := by
  simp only [OnlyOpposite, h.opposite]

theorem completion (h : SameTables S S') {v v6 v7 : View} : Completion S' v v6 v7 ↔ Completion S v v6 v7 := by
  simp only [Completion, h.opposite, h.onlyOpposite, h.kind]

theorem conflict (h : SameTables S S') {v v6 : View} : Spec.Conflict S' v v6 ↔ Spec.Conflict S v v6 := by
  simp only [Spec.Conflict, StillLinked, Demanded, h.opposite, h.onlyOpposite, h.kind]

theorem vecLeft (h : SameTables S S') {v v6 : View} : VecLeft S' v v6 ↔ VecLeft S v v6 := by
  simp only [VecLeft, h.opposite, h.kind]

theorem vecMissing (h : SameTables S S') {v v6 : View} : VecMissing S' v v6 ↔ VecMissing S v v6 := by
  simp only [VecMissing, h.opposite, h.kind]

theorem steady (h : SameTables S S') {t : Trans} {v : View} {x : NodeIndex} {m : Mirror} {y : NodeIndex} :
    Spec.Steady S' t v x m y ↔ Spec.Steady S t v x m y := by
  simp only [Spec.Steady, h.kind]

theorem steadyBidir (h : SameTables S S') {t : Trans} {v : View} : SteadyBidir S' t v ↔ SteadyBidir S t v := by
  simp only [SteadyBidir, h.opposite, h.steady]

theorem steadyBidirCalls (h : SameTables S S') {w : World} {c : Call} : SteadyBidirCalls S' w c ↔ SteadyBidirCalls S w c := by
  cases c <;> simp only [SteadyBidirCalls, h.steadyBidir]

theorem oneOpposite (h : SameTables S S') : OneOpposite S' ↔ OneOpposite S := by
  simp only [OneOpposite, h.opposite]

end SameTables

namespace Spec.Redeclared
variable {S S' : Schema}

theorem symm (h : Redeclared S S') : Redeclared S' S := ⟨h.variants.symm, h.groups.symm, fun b => (h.bidirs b).symm, fun a => (h.annos a).symm⟩

theorem mem_variants (h : Redeclared S S') {p : Ident × StructDecl} : p ∈ S'.variants ↔ p ∈ S.variants := h.variants.mem_iff

theorem mem_groups (h : Redeclared S S') {p : Ident × List Ident} : p ∈ S'.groups ↔ p ∈ S.groups := h.groups.mem_iff

theorem discs (h : Redeclared S S') : S'.discs.Perm S.discs := h.variants.map _

theorem mem_discs (h : Redeclared S S') {d : Ident} : d ∈ S'.discs ↔ d ∈ S.discs := h.discs.mem_iff

theorem named (h : Redeclared S S') (hw : WellNamed S) : WellNamed S' where
  variants := h.discs.nodup_iff.2 hw.variants
  groups := (h.groups.map _).nodup_iff.2 hw.groups
  groupVar := fun v ds hv => by rw [h.mem_discs]; exact hw.groupVar v ds (h.mem_groups.1 hv)
  fields := fun d sd hd => hw.fields d sd (h.mem_variants.1 hd)
  oneAttr := fun d sd hd => hw.oneAttr d sd (h.mem_variants.1 hd)
  linkGroup := fun d sd hd => hw.linkGroup d sd (h.mem_variants.1 hd)
  groupOnce := fun d sd hd => hw.groupOnce d sd (h.mem_variants.1 hd)

theorem struct? (h : Redeclared S S') (hw : WellNamed S) (d : Ident) : S'.struct? d = S.struct? d := by
  apply Option.ext
  intro sd
  rw [Schema.struct?_iff hw, Schema.struct?_iff (h.named hw), h.mem_variants]

theorem group? (h : Redeclared S S') (hw : WellNamed S) (v : Ident) : S'.group? v = S.group? v := by
  apply Option.ext
  intro ds
  rw [Schema.group?_iff hw, Schema.group?_iff (h.named hw), h.mem_groups]

theorem kind? (h : Redeclared S S') (hw : WellNamed S) (m : Mirror) : S'.kind? m = S.kind? m := by simp [Schema.kind?, h.struct? hw]

theorem wt (h : Redeclared S S') (hw : WellNamed S) (n : Node) : S'.WT n ↔ S.WT n := by simp [Schema.WT, h.struct? hw]

theorem varNames (h : Redeclared S S') {v d : Ident} : VarNames S' v d ↔ VarNames S v d := by simp [VarNames, h.mem_discs, h.mem_groups]

theorem names (h : Redeclared S S') {v l : Ident} {m : Mirror} : Names S' v l m ↔ Names S v l m := by simp [Names, h.varNames, h.mem_variants]

/-- A statement about some line, in either direction. -/
theorem line (h : Redeclared S S') {P : BidirDecl → Prop} (hP : ∀ b, P b → P (turned b)) (hb : ∃ b ∈ S'.bidirs, P b) : ∃ b ∈ S.bidirs, P b := by
  obtain ⟨b, h1, h2⟩ := hb
  rcases (h.bidirs b).1 (Or.inl h1) with h3 | h3
  · exact ⟨b, h3, h2⟩
  · exact ⟨_, h3, hP b h2⟩

theorem line_iff (h : Redeclared S S') {P : BidirDecl → Prop} (hP : ∀ b, P b → P (turned b)) : (∃ b ∈ S'.bidirs, P b) ↔ ∃ b ∈ S.bidirs, P b :=
  ⟨h.line hP, h.symm.line hP⟩

theorem opposite (h : Redeclared S S') {m m' : Mirror} : Opposite S' m m' ↔ Opposite S m m' := by
  simp only [Opposite, h.names]
  exact h.line_iff fun b hb => hb.elim (fun k => Or.inr ⟨k.2, k.1⟩) fun k => Or.inl ⟨k.2, k.1⟩

theorem connected (h : Redeclared S S') {d l d' l' : Ident} : Connected S' d l d' l' ↔ Connected S d l d' l' := by
  simp only [Connected, h.varNames]
  exact h.line_iff fun b hb => hb.elim (fun k => Or.inr ⟨k.2.2.1, k.2.2.2, k.1, k.2.1⟩) fun k => Or.inl ⟨k.2.2.1, k.2.2.2, k.1, k.2.1⟩

theorem declaredOnce (h : Redeclared S S') : DeclaredOnce S' ↔ DeclaredOnce S := by
  simp only [DeclaredOnce, h.mem_variants, h.connected]

theorem permitted (h : Redeclared S S') {m : Mirror} {d : Ident} : Permitted S' m d ↔ Permitted S m d := by
  have hs : ∀ v l, Stands S' v l ↔ Stands S v l := fun v l => by simp only [Stands, h.mem_groups]
  have ht : ∀ a vs, Targets S' a vs ↔ Targets S a vs := fun a vs => by
    have : Stands S' = Stands S := by funext v l; exact propext (hs v l)
    simp only [Targets, this]
  simp only [Permitted, Decisive, h.mem_variants, h.varNames, h.annos, ht]

theorem checkLinkType (h : Redeclared S S') (hw : WellNamed S) (d : Ident) (m : Mirror) : S'.checkLinkType d m = S.checkLinkType d m := by
  rw [Bool.eq_iff_iff, Schema.checkLinkType_iff hw, Schema.checkLinkType_iff (h.named hw), h.permitted]

theorem tables (h : Redeclared S S') (hw : WellNamed S) : SameTables S S' := ⟨fun _ _ => h.opposite, h.kind? hw, h.checkLinkType hw⟩

theorem inGroup (h : Redeclared S S') (hw : WellNamed S) (d name : Ident) : S'.inGroup d name = S.inGroup d name := by
  have hf : (S'.groups.find? (fun g => g.1 = name)).map Prod.snd = (S.groups.find? (fun g => g.1 = name)).map Prod.snd := by
    apply Option.ext
    intro ds
    rw [Schema.find?_fst hw.groups, Schema.find?_fst (h.named hw).groups, h.mem_groups]
  have key : ∀ T : Schema, T.inGroup d name = match (T.groups.find? (fun g => g.1 = name)).map Prod.snd with
      | some ds => decide (d ∈ ds)
      | none => false := by
    intro T
    simp only [Schema.inGroup]
    cases T.groups.find? (fun g => g.1 = name) <;> rfl
  rw [key, key, hf]

theorem expandVar (h : Redeclared S S') (hw : WellNamed S) (v : Ident) : S'.expandVar v = S.expandVar v := by
  simp only [Schema.expandVar, h.group? hw]

theorem bLinks (h : Redeclared S S') (hw : WellNamed S) (v l : Ident) : (S'.bLinks v l).Perm (S.bLinks v l) := by
  refine (List.perm_ext_iff_of_nodup (List.nodup_dedup _) (List.nodup_dedup _)).2 fun p => ?_
  have key : ∀ T : Schema, p ∈ T.bLinks v l ↔ ∃ b ∈ T.bidirs,
      (v ∈ T.expandVar b.var1 ∧ l = b.link1 ∧ p.1 ∈ T.expandVar b.var2 ∧ p.2 = b.link2) ∨
        (v ∈ T.expandVar b.var2 ∧ l = b.link2 ∧ p.1 ∈ T.expandVar b.var1 ∧ p.2 = b.link1) := by
    intro T
    rw [Schema.mem_bLinks]
    constructor
    · rintro ⟨e, he, hp⟩
      obtain ⟨b, hb, h1, h2, h3, h4⟩ := Schema.mem_expandedBidirs.1 he
      rcases hp with ⟨rfl, rfl, rfl⟩ | ⟨rfl, rfl, rfl⟩
      · exact ⟨b, hb, Or.inl ⟨h1, h2, h3, h4⟩⟩
      · exact ⟨b, hb, Or.inr ⟨h3, h4, h1, h2⟩⟩
    · rintro ⟨b, hb, ⟨h1, h2, h3, h4⟩ | ⟨h1, h2, h3, h4⟩⟩
      · exact ⟨⟨v, l, p.1, p.2⟩, Schema.mem_expandedBidirs.2 ⟨b, hb, h1, h2, h3, h4⟩, Or.inl ⟨rfl, rfl, rfl⟩⟩
      · exact ⟨⟨p.1, p.2, v, l⟩, Schema.mem_expandedBidirs.2 ⟨b, hb, h3, h4, h1, h2⟩, Or.inr ⟨rfl, rfl, rfl⟩⟩
  rw [show (p ∈ List.dedup _) = (p ∈ S'.bLinks v l) from rfl, show (p ∈ List.dedup _) = (p ∈ S.bLinks v l) from rfl, key, key]
  simp only [h.expandVar hw]
  exact h.line_iff fun b hb => hb.symm

theorem mirrorsOf (h : Redeclared S S') (hw : WellNamed S) (m : Mirror) : (S'.mirrorsOf m).Perm (S.mirrorsOf m) := by
  have h1 : S'.toLog m = S.toLog m := by simp only [Schema.toLog, h.struct? hw]
  have h2 : ∀ d log, S'.expandLog d log = S.expandLog d log := fun d log => by simp only [Schema.expandLog, h.struct? hw]
  simp only [Schema.mirrorsOf, h1]
  refine List.Perm.flatMap_left _ fun log _ => ?_
  simp only [Schema.mirrorsOfLog, h2]
  exact (h.bLinks hw _ _).flatMap_right _

theorem opposites (h : Redeclared S S') (hw : WellNamed S) (m : Mirror) (d : Ident) : (S'.opposites m d).Perm (S.opposites m d) :=
  (h.mirrorsOf hw m).filter _

/-- If a field has at most one opposite on each variant, the lists are the same. -/
theorem opposites_eq (h : Redeclared S S') (hw : WellNamed S) (ho : OneOpposite S) (m : Mirror) (d : Ident) : S'.opposites m d = S.opposites m d := by
  have hp := h.opposites hw m d
  have all : ∀ a ∈ S.opposites m d, ∀ b ∈ S.opposites m d, a = b := by
    intro a ha b hb
    obtain ⟨h1, h2⟩ := (Schema.mem_opposites_iff hw).1 ha
    obtain ⟨h3, h4⟩ := (Schema.mem_opposites_iff hw).1 hb
    exact ho m a b h1 h3 (h2.trans h4.symm)
  cases hl : S.opposites m d with
  | nil => rw [hl] at hp; exact hp.eq_nil
  | cons a l =>
    have ha : a ∈ S.opposites m d := by rw [hl]; exact List.mem_cons_self
    have e : S.opposites m d = List.replicate (S.opposites m d).length a := List.eq_replicate_iff.2 ⟨rfl, fun b hb => all b hb a ha⟩
    rw [e] at hp
    rw [List.perm_replicate.1 hp, ← e, hl]

end Spec.Redeclared
end TTGraph
