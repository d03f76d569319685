import Verif.Lemmas.Reflect
import Verif.Props.Query

/-!
# Reflection: C57
-/

set_option autoImplicit false

namespace TTGraph
open Spec
variable {S : Schema}

/-- `link_names`, `link_types` and `link_mirrors`: entry number `i` of each describes link field number `i` of the struct, in the order of the
declaration.  `data_names` are the names of the other fields whose type is a path. -/
theorem C57_tables (sd : StructDecl) (d : Ident) :
    (∀ i : Nat, sd.linkNameTable[i]? = (sd.fields.filter FieldDecl.isLink)[i]?.map FieldDecl.name ∧
      sd.linkTypes[i]? = (sd.fields.filter FieldDecl.isLink)[i]?.bind FieldDecl.kind? ∧
      (sd.linkMirrors d)[i]? = (sd.fields.filter FieldDecl.isLink)[i]?.map fun _ => Mirror.mk d i) ∧
    (∀ f, f ∈ sd.dataNames ↔ ∃ fd ∈ sd.fields, fd.name = f ∧ FieldDecl.IsPath fd) := by
  refine ⟨fun i => ⟨?_, ?_, ?_⟩, fun f => ?_⟩
  · rw [StructDecl.linkNameTable_eq, List.getElem?_map]; rfl
  · rw [StructDecl.linkTypes_eq, List.getElem?_map]
    cases h : sd.links[i]? with
    | none => rw [StructDecl.links] at h; rw [h]; rfl
    | some fd =>
      have hl := (StructDecl.links_mem h).2
      rw [StructDecl.links] at h
      rw [h]
      cases hf : fd.ty with
      | link k => simp [FieldDecl.kind?, hf]
      | data t b => simp [FieldDecl.isLink, hf] at hl
  · rw [StructDecl.linkMirrors_eq, List.getElem?_map]
    by_cases hi : i < sd.links.length
    · rw [List.getElem?_range hi]
      have : (sd.fields.filter FieldDecl.isLink)[i]? = some sd.links[i] := List.getElem?_eq_getElem hi
      rw [this]; rfl
    · have : (sd.fields.filter FieldDecl.isLink)[i]? = none := List.getElem?_eq_none (by simpa [StructDecl.links] using hi)
      rw [this, List.getElem?_eq_none (by simpa using hi)]; rfl
  · rw [StructDecl.dataNames, List.mem_flatMap]
    constructor
    · rintro ⟨fd, h1, h2⟩
      split at h2
      · rename_i t ht
        exact ⟨fd, h1, (List.mem_singleton.1 h2).symm, t, ht⟩
      · exact absurd h2 (by simp)
    · rintro ⟨fd, h1, rfl, t, ht⟩
      exact ⟨fd, h1, by rw [ht]; simp⟩

theorem WT.links_length (hw : WellNamed S) {n : Node} (h : S.WT n) {sd : StructDecl} (hd : (n.disc, sd) ∈ S.variants) :
    n.links.length = sd.links.length := by
  obtain ⟨sd', h1, h2, _⟩ := h
  have : sd' = sd := Option.some.inj (h1.symm.trans (Schema.struct?_iff hw |>.2 hd))
  subst this
  rw [sd'.links_length_kinds, ← h2, List.length_map]

/-- Reading a field through its mirror is reading it by its name. -/
theorem C57_read (hw : WellNamed S) {n : Node} (hn : S.WT n) {sd : StructDecl} (hd : (n.disc, sd) ∈ S.variants) {i : Nat} {m : Mirror} {f : Ident}
    (hm : (sd.linkMirrors n.disc)[i]? = some m) (hf : sd.linkNameTable[i]? = some f) : n.iterLinks m = .ok (n.getLinksByName S f) := by
  have hm' := ((C57_tables sd n.disc).1 i).2.2
  have hf' := ((C57_tables sd n.disc).1 i).1
  cases hx : (sd.fields.filter FieldDecl.isLink)[i]? with
  | none => rw [hm, hx] at hm'; simp at hm'
  | some fd =>
    rw [hm, hx] at hm'
    rw [hf, hx] at hf'
    simp only [Option.map_some, Option.some.injEq] at hm' hf'
    subst hm' hf'
    have hi : i < n.links.length := by
      rw [WT.links_length hw hn hd]
      exact (List.getElem?_eq_some_iff.1 hx).1
    have hv : n.links[i]? = some n.links[i] := List.getElem?_eq_getElem hi
    rw [getLinksByName_field hw (p := i) (fd := fd) (v := n.links[i]) ⟨sd, hd, hx, hv⟩, Node.iterLinks, if_pos rfl, hv]

/-- `iter_sources` lists the targets of all fields in the order of `link_mirrors`. -/
theorem C57_sources (hw : WellNamed S) {n : Node} (hn : S.WT n) {sd : StructDecl} (hd : (n.disc, sd) ∈ S.variants) :
    ∃ ls, mapE n.iterLinks (sd.linkMirrors n.disc) = .ok ls ∧ n.iterSources.map Prod.fst = ls.flatten := by
  have hl := WT.links_length hw hn hd
  refine ⟨(sd.linkMirrors n.disc).map fun m => match n.links[m.pos]? with | some v => v.iterLinks | none => [], mapE_eq fun m hm => ?_, ?_⟩
  · obtain ⟨h1, h2⟩ := StructDecl.mem_linkMirrors.1 hm
    rw [Node.iterLinks, if_pos h1]
    cases n.links[m.pos]? <;> rfl
  · rw [StructDecl.linkMirrors_eq, ← hl, List.map_map, Node.iterSources, List.map_flatMap, ← List.flatMap_def]
    simp only [LinkVal.sources_fst, Function.comp_def]
    generalize n.links = l
    suffices h : ∀ (l pre : List LinkVal), (l.zipIdx pre.length).flatMap (fun p => p.1.iterLinks) =
        (List.range' pre.length l.length).flatMap fun p => match (pre ++ l)[p]? with | some v => v.iterLinks | none => [] by
      have := h l []
      rw [List.range_eq_range']
      exact this
    intro l
    induction l with
    | nil => intro pre; rfl
    | cons v l ih =>
      intro pre
      have h1 := ih (pre ++ [v])
      rw [List.length_append, List.length_singleton, List.append_assoc, List.singleton_append] at h1
      rw [List.zipIdx_cons, List.flatMap_cons, h1, List.length_cons, List.range'_succ, List.flatMap_cons]
      simp

/-- Every entry of `iter_sources` belongs to a field of the table and is listed by that field; outside of `Vec` fields the mirror determines
the source. -/
theorem C57_source (hw : WellNamed S) {n : Node} (hn : S.WT n) {sd : StructDecl} (hd : (n.disc, sd) ∈ S.variants) {y : NodeIndex} {s : Source}
    (h : (y, s) ∈ n.iterSources) : s.mirror ∈ sd.linkMirrors n.disc ∧ (∃ l, n.iterLinks s.mirror = .ok l ∧ y ∈ l) ∧
      (S.kind? s.mirror ≠ some .vec → S.toSource s.mirror = .ok s) := by
  have hh := Node.mem_iterSources.1 h
  obtain ⟨h1, v, h2, h3⟩ := hh
  refine ⟨StructDecl.mem_linkMirrors.2 ⟨h1, ?_⟩, ⟨v.iterLinks, ?_, ?_⟩, fun hk => ?_⟩
  · rw [← WT.links_length hw hn hd]
    exact (List.getElem?_eq_some_iff.1 h2).1
  · have : s.mirror.disc = n.disc := h1
    rw [Node.iterLinks, if_pos this]
    have h2' : n.links[s.mirror.pos]? = some v := h2
    rw [h2']
  · cases v with
    | direct i => obtain ⟨_, rfl, h5⟩ := h3; simp [LinkVal.iterLinks, h5]
    | set st => exact h3.2
    | vec l =>
      obtain ⟨h4, h5⟩ := h3
      simp only [LinkVal.iterLinks, List.mem_filter, decide_eq_true_eq]
      exact ⟨List.mem_of_getElem? h4, h5⟩
  · have hslot : s.slot = 0 := by
      cases v with
      | direct i => exact h3.1
      | set st => exact h3.1
      | vec l =>
        exfalso
        apply hk
        obtain ⟨sd', g1, g2, _⟩ := hn
        have : (n.links.map LinkVal.kind)[s.pos]? = some .vec := by rw [List.getElem?_map, h2]; rfl
        rw [g2] at this
        have hs : s.mirror.disc = n.disc := h1
        rw [Schema.kind?, hs, g1]
        exact this
    rw [Schema.toSource]
    have : (⟨s.mirror.disc, s.mirror.pos, 0⟩ : Source) = s := by
      cases s
      simp only at hslot
      subst hslot
      rfl
    rw [this]
    cases hx : S.kind? s.mirror with
    | none => rfl
    | some k =>
      cases k with
      | vec => exact absurd hx hk
      | direct => rfl
      | set => rfl

/-- `to_source` followed by `to_link_mirror` is the identity; it panics exactly for the `Vec` fields. -/
theorem C57_convert (m : Mirror) :
    (S.kind? m ≠ some .vec → ∃ s, S.toSource m = .ok s ∧ s.mirror = m) ∧ (S.kind? m = some .vec → S.toSource m = .error .vecMirror) := by
  constructor
  · intro hk
    refine ⟨⟨m.disc, m.pos, 0⟩, ?_, rfl⟩
    rw [Schema.toSource]
    cases hx : S.kind? m with
    | none => rfl
    | some k =>
      cases k with
      | vec => exact absurd hx hk
      | direct => rfl
      | set => rfl
  · intro hk
    rw [Schema.toSource, hk]

/-- `check_link` tells whether `iter_links` accepts the mirror, and `contains_link` whether the field lists the index. -/
theorem C57_contains (n : Node) (m : Mirror) :
    (n.checkLink m = true ↔ ∃ l, n.iterLinks m = .ok l) ∧
    (n.checkLink m = false → n.iterLinks m = .error .unmatchedLink ∧ ∀ y, n.containsLink m y = false) ∧
    ∀ y, y ≠ emptyIdx → (n.containsLink m y = true ↔ ∃ l, n.iterLinks m = .ok l ∧ y ∈ l) := by
  rw [Node.checkLink]
  by_cases h : m.disc = n.disc
  · refine ⟨?_, fun hx => absurd h (of_decide_eq_false hx), fun y hy => ?_⟩
    · simp only [h, decide_true, true_iff, Node.iterLinks, if_true]
      cases n.links[m.pos]? <;> exact ⟨_, rfl⟩
    · simp only [Node.containsLink, Node.iterLinks, h, if_true]
      cases n.links[m.pos]? with
      | none => simp
      | some v =>
        cases v with
        | direct i =>
          simp only [LinkVal.contains, LinkVal.iterLinks]
          by_cases hi : i = emptyIdx
          · simp [hi]
          · simp [hi, eq_comm]
        | set s => simp [LinkVal.contains, LinkVal.iterLinks]
        | vec l => simp [LinkVal.contains, LinkVal.iterLinks, hy]
  · refine ⟨?_, fun _ => ?_, fun y hy => ?_⟩
    all_goals simp [Node.containsLink, Node.iterLinks, h]

/-- `get_link_or_group_by_name` knows the link fields, the groups in their attributes and the phantom groups.  `expand_link_groups` and
`to_link_or_groups` are inverse to each other, and every name that `to_link_or_groups` lists is known. -/
theorem C57_groups (hw : WellNamed S) {d : Ident} {sd : StructDecl} (hd : (d, sd) ∈ S.variants) (l : Ident) :
    (∀ f, sd.logByName f = some l ↔ l = f ∧ ((∃ fd ∈ sd.fields, fd.isLink = true ∧ (fd.name = l ∨ FieldDecl.InGroup fd l)) ∨ l ∈ sd.phantom)) ∧
    (∀ m, m ∈ S.expandLog d l ↔ m ∈ sd.linkMirrors d ∧ l ∈ S.toLog m) ∧
    (∀ m, m ∈ sd.linkMirrors d → l ∈ S.toLog m → sd.logByName l = some l) ∧
    ∀ i fd, (sd.fields.filter FieldDecl.isLink)[i]? = some fd → (l ∈ S.toLog ⟨d, i⟩ ↔ fd.name = l ∨ FieldDecl.InGroup fd l) := by
  have hlog : ∀ f, sd.logByName f = some l ↔
      l = f ∧ ((∃ fd ∈ sd.fields, fd.isLink = true ∧ (fd.name = l ∨ FieldDecl.InGroup fd l)) ∨ l ∈ sd.phantom) := by
    intro f
    have hmem : f ∈ sd.linkNames ++ sd.groupKeys ↔
        ((∃ fd ∈ sd.fields, fd.isLink = true ∧ (fd.name = f ∨ FieldDecl.InGroup fd f)) ∨ f ∈ sd.phantom) := by
      simp only [StructDecl.linkNames, StructDecl.links, StructDecl.groupKeys, List.mem_append, List.mem_map, List.mem_filter, List.mem_flatMap]
      constructor
      · rintro (⟨fd, ⟨h1, h2⟩, h3⟩ | ⟨fd, h1, h2⟩ | h)
        · exact .inl ⟨fd, h1, h2, .inl h3⟩
        · split at h2
          · rename_i hl
            obtain ⟨gs, g1, g2⟩ := List.mem_flatten.1 h2
            exact .inl ⟨fd, h1, hl, .inr ⟨gs, g1, g2⟩⟩
          · exact absurd h2 (by simp)
        · exact .inr h
      · rintro (⟨fd, h1, h2, h3 | ⟨gs, g1, g2⟩⟩ | h)
        · exact .inl ⟨fd, ⟨h1, h2⟩, h3⟩
        · exact .inr (.inl ⟨fd, h1, by rw [if_pos h2]; exact List.mem_flatten.2 ⟨gs, g1, g2⟩⟩)
        · exact .inr (.inr h)
    rw [StructDecl.logByName_eq]
    split
    · rename_i h
      rw [hmem] at h
      simp only [Option.some.injEq]
      constructor
      · rintro rfl; exact ⟨rfl, h⟩
      · rintro ⟨rfl, _⟩; rfl
    · rename_i h
      rw [hmem] at h
      simp only [reduceCtorEq, false_iff]
      rintro ⟨rfl, hx⟩
      exact h hx
  have huniq : ∀ sd', (d, sd') ∈ S.variants → sd' = sd := fun sd' h =>
    Option.some.inj ((Schema.struct?_iff hw |>.2 h).symm.trans (Schema.struct?_iff hw |>.2 hd))
  have hto : ∀ m : Mirror, m.disc = d → (l ∈ S.toLog m ↔ FieldNames sd l m.pos) := by
    rintro m rfl
    rw [Schema.mem_toLog hw]
    constructor
    · rintro ⟨sd', h1, h2⟩; rwa [huniq sd' h1] at h2
    · intro h; exact ⟨sd, hd, h⟩
  refine ⟨hlog, fun m => ?_, fun m hm hl => ?_, fun i fd hfd => ?_⟩
  · rw [Schema.mem_expandLog hw, StructDecl.mem_linkMirrors]
    constructor
    · rintro ⟨rfl, sd', h1, h2⟩
      rw [huniq sd' h1] at h2
      refine ⟨⟨rfl, ?_⟩, (hto m rfl).2 h2⟩
      obtain ⟨f, h3, _⟩ := h2
      exact (List.getElem?_eq_some_iff.1 h3).1
    · rintro ⟨⟨h1, _⟩, h2⟩
      exact ⟨h1, sd, by rw [h1]; exact hd, (hto m h1).1 h2⟩
  · rw [hlog]
    obtain ⟨f, h1, h2⟩ := (hto m (StructDecl.mem_linkMirrors.1 hm).1).1 hl
    have h3 := StructDecl.links_mem h1
    exact ⟨rfl, .inl ⟨f, h3.1, h3.2, h2⟩⟩
  · rw [hto ⟨d, i⟩ rfl]
    constructor
    · rintro ⟨f, h1, h2⟩
      have h1' : (sd.fields.filter FieldDecl.isLink)[i]? = some f := h1
      rw [hfd] at h1'
      cases h1'
      exact h2
    · intro h; exact ⟨fd, hfd, h⟩

/-- Starting with `first()` and calling `next()` until `None` enumerates the variants in the order of the declaration. -/
theorem C57_variants (hw : WellNamed S) : S.discLoop (S.discs.length + 1) S.firstDisc = S.variants.map Prod.fst ∧
    ∀ i d, S.discs[i]? = some d → nextDisc S.discs d = S.discs[i + 1]? := by
  refine ⟨?_, fun i d => nextDisc_eq hw.variants⟩
  have := discLoop_eq hw.variants (S.discs.length + 1) 0 (by omega)
  rw [Schema.firstDisc, List.head?_eq_getElem?, this]
  rfl

end TTGraph

namespace TTGraph.Demo
open Spec

/-- The struct of variant A of `tagged`, with data fields between its link fields and a phantom group. -/
def mirrored : StructDecl := ⟨[dat 13 100, lnk 10 .direct [[50]], dat 14 101 false, lnk 11 .set [[50, 52]], lnk 12 .vec [[51]]], [60]⟩

/-- Variants A and B; B has no link field. -/
def mirroredS : Schema := { variants := [(1, mirrored), (2, ⟨[dat 20 100], []⟩), (3, ⟨[lnk 30 .set], []⟩)] }

theorem mirrored_named : WellNamed mirroredS := wellNamed_sound (by decide)

/-- A node of variant A. -/
def mA (f : NodeIndex) (s v : List NodeIndex) : Node := ⟨1, [.direct f, .set (setOf s), .vec v], [⟨100, 1⟩, ⟨101, 2⟩]⟩

example : mirrored.linkNameTable = [10, 11, 12] ∧ mirrored.linkTypes = [.direct, .set, .vec] ∧ mirrored.linkMirrors 1 = [⟨1, 0⟩, ⟨1, 1⟩, ⟨1, 2⟩] ∧
    mirrored.dataNames = [13] ∧ (StructDecl.mk [dat 20 100] []).linkMirrors 2 = [] := by decide

example : (mA 5 [6, 7] [0, 8]).iterLinks ⟨1, 1⟩ = .ok ((mA 5 [6, 7] [0, 8]).getLinksByName mirroredS 11) :=
  C57_read mirrored_named (wt_sound (by decide +kernel)) (sd := mirrored) (by decide) (i := 1) rfl rfl

example : ∃ ls, mapE (mA 5 [6, 7] [0, 8]).iterLinks (mirrored.linkMirrors 1) = .ok ls ∧ [5, 6, 7, 8] = ls.flatten :=
  C57_sources mirrored_named (n := mA 5 [6, 7] [0, 8]) (wt_sound (by decide +kernel)) (sd := mirrored) (by decide)

example : mirroredS.toSource ⟨1, 1⟩ = .ok ⟨1, 1, 0⟩ :=
  (C57_source mirrored_named (n := mA 5 [6, 7] [0, 8]) (wt_sound (by decide +kernel)) (sd := mirrored) (by decide) (y := 7) (s := ⟨1, 1, 0⟩)
    (by decide)).2.2 (by decide)

example : mirroredS.toSource ⟨1, 2⟩ = .error .vecMirror := (C57_convert _).2 rfl

example : ∃ l, (mA 5 [6, 7] [0, 8]).iterLinks ⟨1, 2⟩ = .ok l ∧ 8 ∈ l := ((C57_contains _ _).2.2 8 (by decide)).1 (by decide)

/-- The phantom group 60 is known but stands for no field; the group 50 stands for two. -/
example : mirrored.logByName 60 = some 60 ∧ mirroredS.expandLog 1 60 = [] ∧ mirroredS.expandLog 1 50 = [⟨1, 0⟩, ⟨1, 1⟩] ∧
    mirroredS.toLog ⟨1, 1⟩ = [11, 50, 52] ∧ mirrored.logByName 61 = none := by decide

example : mirrored.logByName 50 = some 50 :=
  (C57_groups mirrored_named (d := 1) (by decide) 50).2.2.1 ⟨1, 1⟩ (by decide) (by decide)

example : mirroredS.discLoop 4 mirroredS.firstDisc = [1, 2, 3] := (C57_variants mirrored_named).1

/-- For the empty index `contains_link` and `iter_links` disagree on `Vec` fields. -/
theorem C57_contains_empty_fails : (mA 5 [] [0, 8]).containsLink ⟨1, 2⟩ emptyIdx = true ∧ (mA 5 [] [0, 8]).iterLinks ⟨1, 2⟩ = .ok [8] := ⟨by decide, rfl⟩

end TTGraph.Demo
