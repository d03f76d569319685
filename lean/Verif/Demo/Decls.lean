import Verif.Lemmas.Types
import Verif.Demo.Run

/-!
# Checking declarations by evaluation

Used only by the examples and counterexamples.
-/

set_option autoImplicit false

namespace TTGraph
namespace Demo
open Spec

/-- `WellNamed` by evaluation. -/
def wellNamed (S : Schema) : Bool :=
  decide S.discs.Nodup && decide (S.groups.map Prod.fst).Nodup && S.groups.all (fun g => decide (g.1 ∉ S.discs)) &&
  S.variants.all fun v =>
    decide (v.2.fields.map FieldDecl.name).Nodup && v.2.fields.all fun f =>
      decide (f.groupAttrs.length ≤ 1) && f.groupAttrs.all fun gs =>
        decide gs.Nodup && gs.all (fun g => decide (g ∉ v.2.linkNames))

theorem wellNamed_sound {S : Schema} (h : wellNamed S = true) : WellNamed S := by
  simp only [wellNamed, Bool.and_eq_true, List.all_eq_true, decide_eq_true_eq] at h
  obtain ⟨⟨⟨h1, h2⟩, h3⟩, h4⟩ := h
  exact ⟨h1, h2, fun v ds hm => h3 (v, ds) hm, fun d sd hm => (h4 (d, sd) hm).1, fun d sd hm f hf => ((h4 (d, sd) hm).2 f hf).1,
    fun d sd hm f hf gs hgs g hg => (((h4 (d, sd) hm).2 f hf).2 gs hgs).2 g hg,
    fun d sd hm f hf gs hgs => (((h4 (d, sd) hm).2 f hf).2 gs hgs).1⟩

/-- All link fields. -/
def allMirrors (S : Schema) : List Mirror := S.variants.flatMap fun v => (List.range v.2.links.length).map (Mirror.mk v.1)

theorem names_mem {S : Schema} {v l : Ident} {m : Mirror} (h : Names S v l m) : m ∈ allMirrors S := by
  obtain ⟨_, sd, h1, f, h2, _⟩ := h
  refine List.mem_flatMap.2 ⟨(m.disc, sd), h1, List.mem_map.2 ⟨m.pos, ?_, rfl⟩⟩
  rw [List.mem_range]
  exact (List.getElem?_eq_some_iff.1 h2).1

theorem opposite_mem {S : Schema} {m m' : Mirror} (h : Opposite S m m') : m ∈ allMirrors S := by
  obtain ⟨l, _, h | h⟩ := h
  · exact names_mem h.1
  · exact names_mem h.2

/-- `NoVec` by evaluation. -/
def noVec (S : Schema) : Bool := (allMirrors S).all fun m => (S.mirrorsOf m).isEmpty || decide (S.kind? m ≠ some .vec)

theorem noVec_sound {S : Schema} (hw : WellNamed S) (h : noVec S = true) : NoVec S := by
  intro m m' hm
  have := List.all_eq_true.1 h m (opposite_mem hm)
  simp only [Bool.or_eq_true, List.isEmpty_iff, decide_eq_true_eq] at this
  rcases this with h1 | h1
  · have h2 := (Schema.mem_mirrorsOf hw).2 hm
    rw [h1] at h2
    exact absurd h2 (by simp)
  · exact h1

/-- `OneOpposite` by evaluation. -/
def oneOpposite (S : Schema) : Bool :=
  (allMirrors S).all fun m => (S.mirrorsOf m).all fun m1 => (S.mirrorsOf m).all fun m2 => decide (m1.disc = m2.disc → m1 = m2)

theorem oneOpposite_sound {S : Schema} (hw : WellNamed S) (h : oneOpposite S = true) : OneOpposite S := by
  intro m m1 m2 h1 h2
  have := List.all_eq_true.1 h m (opposite_mem h1)
  have := List.all_eq_true.1 this m1 ((Schema.mem_mirrorsOf hw).2 h1)
  have := List.all_eq_true.1 this m2 ((Schema.mem_mirrorsOf hw).2 h2)
  exact of_decide_eq_true this

/-- `DeclaredOnce` by evaluation. -/
def declaredOnce (S : Schema) : Bool :=
  S.variants.all fun v => S.variants.all fun v' => (List.range v.2.links.length).all fun p => (List.range v'.2.links.length).all fun p' =>
    (v.2.toLog p).all fun l1 => (v.2.toLog p).all fun l2 => (v'.2.toLog p').all fun l1' => (v'.2.toLog p').all fun l2' =>
      decide ((v'.1, l1') ∈ S.bLinks v.1 l1 → (v'.1, l2') ∈ S.bLinks v.1 l2 → l1 = l2 ∧ l1' = l2')

theorem connected_mem {S : Schema} (hw : WellNamed S) {d l d' l' : Ident} (h : Connected S d l d' l') : (d', l') ∈ S.bLinks d l := by
  rw [Schema.mem_bLinks]
  obtain ⟨b, hb, ⟨h1, h2, h3, h4⟩ | ⟨h1, h2, h3, h4⟩⟩ := h
  · refine ⟨⟨d, b.link1, d', b.link2⟩, Schema.mem_expandedBidirs.2 ⟨b, hb, ?_, rfl, ?_, rfl⟩, Or.inl ⟨rfl, h2, by rw [h4]⟩⟩
    · exact ((Schema.mem_expandVar hw).2 h1).1
    · exact ((Schema.mem_expandVar hw).2 h3).1
  · refine ⟨⟨d', b.link1, d, b.link2⟩, Schema.mem_expandedBidirs.2 ⟨b, hb, ?_, rfl, ?_, rfl⟩, Or.inr ⟨rfl, h4, by rw [h2]⟩⟩
    · exact ((Schema.mem_expandVar hw).2 h1).1
    · exact ((Schema.mem_expandVar hw).2 h3).1

theorem fieldNames_lt {sd : StructDecl} {l : Ident} {p : Nat} (h : FieldNames sd l p) : p ∈ List.range sd.links.length := by
  obtain ⟨f, h, _⟩ := h
  exact List.mem_range.2 (List.getElem?_eq_some_iff.1 h).1

theorem declaredOnce_sound {S : Schema} (hw : WellNamed S) (h : declaredOnce S = true) : DeclaredOnce S := by
  intro d d' sd sd' p p' l1 l2 l1' l2' hd hd' h1 h2 h1' h2' hc hc'
  simp only [declaredOnce, List.all_eq_true, decide_eq_true_eq] at h
  exact h (d, sd) hd (d', sd') hd' p (fieldNames_lt h1) p' (fieldNames_lt h1') l1 ((StructDecl.mem_toLog (hw.oneAttr d sd hd)).2 h1)
    l2 ((StructDecl.mem_toLog (hw.oneAttr d sd hd)).2 h2) l1' ((StructDecl.mem_toLog (hw.oneAttr d' sd' hd')).2 h1')
    l2' ((StructDecl.mem_toLog (hw.oneAttr d' sd' hd')).2 h2') (connected_mem hw hc) (connected_mem hw hc')

/-- `AnnotatedOnce` by evaluation. -/
def annotatedOnce (S : Schema) : Bool :=
  S.annos.all fun a => S.annos.all fun b => S.discs.all fun d =>
    decide (d ∈ S.expandVar a.var → d ∈ S.expandVar b.var → a.link = b.link → a = b)

theorem annotatedOnce_sound {S : Schema} (hw : WellNamed S) (h : annotatedOnce S = true) : AnnotatedOnce S := by
  intro a ha b hb d hd1 hd2
  simp only [annotatedOnce, List.all_eq_true, decide_eq_true_eq] at h
  have h1 := (Schema.mem_expandVar hw).2 hd1
  exact h a ha b hb d h1.2 h1.1 ((Schema.mem_expandVar hw).2 hd2).1

/-- `AnnosFit` by evaluation. -/
def annosFit (S : Schema) : Bool := (allMirrors S).all fun m => (S.mirrorsOf m).all fun m' => S.checkLinkType m.disc m'

theorem annosFit_sound {S : Schema} (hw : WellNamed S) (ha : AnnotatedOnce S) (h : annosFit S = true) : AnnosFit S := by
  intro m m' hm
  have h1 := List.all_eq_true.1 (List.all_eq_true.1 h m (opposite_mem hm)) m' ((Schema.mem_mirrorsOf hw).2 hm)
  refine Schema.accept_of_checkLinkType hw ha ?_ h1
  obtain ⟨l, _, ⟨⟨_, sd, h2, _⟩, _⟩ | ⟨_, _, sd, h2, _⟩⟩ := hm <;> exact Schema.mem_discs.2 ⟨sd, h2⟩

/-- `NoVecAnnos` by evaluation. -/
def noVecAnnos (S : Schema) : Bool :=
  (allMirrors S).all fun m => decide (S.kind? m ≠ some .vec) || S.annos.all fun a => !(decide (m.disc ∈ S.expandVar a.var) && decide (a.link ∈ S.toLog m))

theorem noVecAnnos_sound {S : Schema} (hw : WellNamed S) (h : noVecAnnos S = true) : NoVecAnnos S := by
  intro m d hk a ha hn
  have h1 := List.all_eq_true.1 h m (names_mem hn)
  obtain ⟨h2, sd, h3, h4⟩ := hn
  rw [Bool.or_eq_true] at h1
  rcases h1 with h1 | h1
  · exact absurd hk (of_decide_eq_true h1)
  · have h5 := List.all_eq_true.1 h1 a ha
    have e1 : m.disc ∈ S.expandVar a.var := ((Schema.mem_expandVar hw).2 h2).1
    have e2 : a.link ∈ S.toLog m := (Schema.mem_toLog hw).2 ⟨sd, h3, h4⟩
    simp [e1, e2] at h5

/-- A struct field. -/
def lnk (name : Ident) (k : LinkKind) (gs : List (List Ident) := []) : FieldDecl := ⟨name, .link k, gs⟩

/-- A data field of type `ty`. -/
def dat (name : Ident) (ty : Nat) (isPath : Bool := true) : FieldDecl := ⟨name, .data ty isPath, []⟩

/-! ### Two declarations used in many examples -/

/-- Two variants without bidirectional links: `A { f: NodeIndex, s: Set, v: Vec, d: T }` (1: 10, 11, 12, 13) and `B { g: NodeIndex }`
(2: 20); the group `90` has both. -/
def plain : Schema :=
  { variants := [(1, ⟨[lnk 10 .direct, lnk 11 .set, lnk 12 .vec, dat 13 100], []⟩), (2, ⟨[lnk 20 .direct], []⟩)], groups := [(90, [1, 2])] }

/-- A node of variant `A` of `plain`. -/
def nA (f : NodeIndex) (s v : List NodeIndex) (d : Nat) : Node := ⟨1, [.direct f, .set (setOf s), .vec v], [⟨100, d⟩]⟩

/-- A node of variant `B` of `plain`. -/
def nB (g : NodeIndex) : Node := ⟨2, [.direct g], []⟩

theorem plain_named : WellNamed plain := wellNamed_sound (by decide)
theorem plain_noVec : NoVec plain := noVec_sound plain_named (by decide)

/-- `A { f: NodeIndex, s: Set }` (1: 10, 11), `B { h: Set, g: NodeIndex }` (2: 20, 21) with `A.f <-> B.h` and `A.s <-> B.g`. -/
def pair : Schema :=
  { variants := [(1, ⟨[lnk 10 .direct, lnk 11 .set], []⟩), (2, ⟨[lnk 20 .set, lnk 21 .direct], []⟩)],
    bidirs := [⟨1, 10, 2, 20⟩, ⟨1, 11, 2, 21⟩] }

/-- A node of variant `A` of `pair`. -/
def pA (f : NodeIndex) (s : List NodeIndex) : Node := ⟨1, [.direct f, .set (setOf s)], []⟩

/-- A node of variant `B` of `pair`. -/
def pB (h : List NodeIndex) (g : NodeIndex) : Node := ⟨2, [.set (setOf h), .direct g], []⟩

theorem pair_named : WellNamed pair := wellNamed_sound (by decide)
theorem pair_noVec : NoVec pair := noVec_sound pair_named (by decide)
theorem pair_one : OneOpposite pair := oneOpposite_sound pair_named (by decide)
theorem pair_once : DeclaredOnce pair := declaredOnce_sound pair_named (by decide +kernel)

/-- `pair` with the annotations `A.f : {B}` and `A.s : {B}`. -/
def typed : Schema := { pair with annos := [⟨1, 10, [2]⟩, ⟨1, 11, [2]⟩] }

theorem typed_named : WellNamed typed := wellNamed_sound (by decide)
theorem typed_noVec : NoVec typed := noVec_sound typed_named (by decide)
theorem typed_one : OneOpposite typed := oneOpposite_sound typed_named (by decide)
theorem typed_once : DeclaredOnce typed := declaredOnce_sound typed_named (by decide +kernel)
theorem typed_annos : AnnotatedOnce typed := annotatedOnce_sound typed_named (by decide)

end Demo
end TTGraph
