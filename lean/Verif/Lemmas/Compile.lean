import Verif.Lemmas.BidirLinks
import Verif.Lemmas.Types
import Verif.Spec.Compile

/-!
# Declarations that compile
-/

set_option autoImplicit false

namespace TTGraph
open Spec

namespace StructDecl
variable {sd : StructDecl}

theorem mem_groupKeys {l : Ident} : l ∈ sd.groupKeys ↔ (∃ f ∈ sd.fields, f.isLink = true ∧ ∃ gs ∈ f.groupAttrs, l ∈ gs) ∨ l ∈ sd.phantom := by
  simp only [groupKeys, List.mem_append, List.mem_flatMap]
  refine or_congr ⟨?_, ?_⟩ Iff.rfl
  · rintro ⟨f, hf, hl⟩
    by_cases h : f.isLink = true
    · simp only [h, if_true, List.mem_flatten] at hl
      exact ⟨f, hf, h, hl⟩
    · simp [h] at hl
  · rintro ⟨f, hf, h, hl⟩
    exact ⟨f, hf, by simp only [h, if_true, List.mem_flatten]; exact hl⟩

theorem mem_links_iff {f : FieldDecl} : f ∈ sd.links ↔ f ∈ sd.fields ∧ f.isLink = true := by simp [links]

theorem mem_linkNames {l : Ident} : l ∈ sd.linkNames ↔ ∃ f ∈ sd.fields, f.isLink = true ∧ f.name = l := by
  simp only [linkNames, List.mem_map, mem_links_iff, and_assoc]

theorem fieldNames_iff {l : Ident} : (∃ p, FieldNames sd l p) ↔ ∃ f ∈ sd.fields, f.isLink = true ∧ (f.name = l ∨ ∃ gs ∈ f.groupAttrs, l ∈ gs) := by
  constructor
  · rintro ⟨p, f, hf, h⟩
    exact ⟨f, (links_mem hf).1, (links_mem hf).2, h⟩
  · rintro ⟨f, hf, hl, h⟩
    obtain ⟨p, hp⟩ := List.getElem?_of_mem (mem_links_iff.2 ⟨hf, hl⟩)
    exact ⟨p, f, hp, h⟩

theorem mem_logNames {l : Ident} : l ∈ sd.logNames ↔ Declares sd l := by
  simp only [logNames, List.mem_append, List.mem_dedup, mem_groupKeys, mem_linkNames, Declares, fieldNames_iff]
  constructor
  · rintro (⟨f, h1, h2, h3⟩ | ⟨f, h1, h2, h3⟩ | h)
    · exact Or.inl ⟨f, h1, h2, Or.inl h3⟩
    · exact Or.inl ⟨f, h1, h2, Or.inr h3⟩
    · exact Or.inr h
  · rintro (⟨f, h1, h2, h3 | h3⟩ | h)
    · exact Or.inl ⟨f, h1, h2, h3⟩
    · exact Or.inr (Or.inl ⟨f, h1, h2, h3⟩)
    · exact Or.inr (Or.inr h)

end StructDecl

namespace Schema
variable {S : Schema}

theorem struct?_mem {d : Ident} {sd : StructDecl} (h : S.struct? d = some sd) : (d, sd) ∈ S.variants := by
  simp only [struct?, Option.map_eq_some_iff] at h
  obtain ⟨⟨d', sd'⟩, h1, rfl⟩ := h
  have h2 := List.find?_some h1
  simp only [decide_eq_true_eq] at h2
  exact h2 ▸ List.mem_of_find?_eq_some h1

theorem declares_word {d l : Ident} {sd : StructDecl} (h : (d, sd) ∈ S.variants) (hl : Declares sd l) : LinkWord S l := Or.inl ⟨d, sd, h, hl⟩

theorem bidir_word {b : BidirDecl} (hb : b ∈ S.bidirs) : LinkWord S b.link1 ∧ LinkWord S b.link2 :=
  ⟨Or.inr (Or.inl ⟨b, hb, Or.inl rfl⟩), Or.inr (Or.inl ⟨b, hb, Or.inr rfl⟩)⟩

theorem anno_word {a : TypeAnno} (ha : a ∈ S.annos) : LinkWord S a.link := Or.inr (Or.inr ⟨a, ha, rfl⟩)

/-- The enum `LoGMirror` has the variant that a name becomes. -/
theorem mem_logVariants {nm : Naming} (hf : Faithful nm S) {d l : Ident} {sd : StructDecl} (h : (d, sd) ∈ S.variants) (hl : LinkWord S l) :
    nm.camel l ∈ sd.logVariants nm ↔ Declares sd l := by
  rw [StructDecl.logVariants, List.mem_append, List.mem_map]
  constructor
  · rintro (h1 | ⟨a, h1, h2⟩)
    · split at h1
      · exact absurd (List.mem_singleton.1 h1) (hf.notEmpty l hl)
      · cases h1
    · have h3 := StructDecl.mem_logNames.1 h1
      exact hf.camel a l (declares_word h h3) hl h2 ▸ h3
  · intro h1
    exact Or.inr ⟨l, StructDecl.mem_logNames.2 h1, rfl⟩

/-- The variants of `LoGMirror` have different names, none of them reserved, if the names they come from are different. -/
theorem logVariants_ok {nm : Naming} (hf : Faithful nm S) {d : Ident} {sd : StructDecl} (h : (d, sd) ∈ S.variants) :
    ((sd.logVariants nm).Nodup ↔ sd.logNames.Nodup) ∧ ∀ l ∈ sd.logVariants nm, nm.reserved l = false := by
  have hw : ∀ l ∈ sd.logNames, LinkWord S l := fun l hl => declares_word h (StructDecl.mem_logNames.1 hl)
  refine ⟨⟨fun h1 => ?_, fun h1 => ?_⟩, fun l hl => ?_⟩
  · exact List.Nodup.of_map _ (List.nodup_append.1 h1).2.1
  · refine List.nodup_append.2 ⟨?_, ?_, ?_⟩
    · split
      · exact List.nodup_singleton _
      · exact List.nodup_nil
    · exact List.Nodup.map_on (fun a ha b hb => hf.camel a b (hw a ha) (hw b hb)) h1
    · rintro a ha b hb rfl
      obtain ⟨c, hc, rfl⟩ := List.mem_map.1 hb
      split at ha
      · exact hf.notEmpty c (hw c hc) (List.mem_singleton.1 ha)
      · cases ha
  · rcases List.mem_append.1 hl with h1 | h1
    · split at h1
      · exact List.mem_singleton.1 h1 ▸ hf.emptyFree
      · cases h1
    · obtain ⟨c, hc, rfl⟩ := List.mem_map.1 h1
      exact hf.free c (hw c hc)

theorem resolves_iff {nm : Naming} (hw : WellNamed S) (hf : Faithful nm S) {d l : Ident} (hl : LinkWord S l) :
    S.resolves nm (d, l) = true ↔ ∃ sd, (d, sd) ∈ S.variants ∧ Declares sd l := by
  simp only [resolves]
  cases hs : S.struct? d with
  | none =>
    simp only [Bool.false_eq_true, false_iff, not_exists, not_and]
    intro sd h1
    rw [(struct?_iff hw).2 h1] at hs
    exact absurd hs (by simp)
  | some sd =>
    have h1 := (struct?_iff hw).1 hs
    simp only [decide_eq_true_eq, mem_logVariants hf h1 hl]
    constructor
    · intro h
      exact ⟨sd, h1, h⟩
    · rintro ⟨sd', h2, h3⟩
      have := (struct?_iff hw).2 h2
      rw [hs] at this
      simp only [Option.some.injEq] at this
      exact this ▸ h3

/-- If groups have members which are variants, a name that is a variant or a group only stands for variants, and for at least one. -/
theorem expandVar_known (hg : ∀ g ∈ S.groups, g.2 ≠ [] ∧ ∀ i ∈ g.2, i ∈ S.discs) {v : Ident} (hv : v ∈ S.discs ++ S.groups.map Prod.fst) :
    S.expandVar v ≠ [] ∧ ∀ d ∈ S.expandVar v, d ∈ S.discs := by
  simp only [expandVar]
  cases h : S.group? v with
  | some ds =>
    simp only [group?, Option.map_eq_some_iff] at h
    obtain ⟨g, h1, rfl⟩ := h
    have h2 := List.mem_reverse.1 (List.mem_of_find?_eq_some h1)
    simpa using hg g h2
  | none =>
    simp only [Option.getD_none, ne_eq, List.cons_ne_self, not_false_eq_true, List.mem_singleton, forall_eq, true_and]
    rcases List.mem_append.1 hv with h1 | h1
    · exact h1
    · obtain ⟨g, h2, rfl⟩ := List.mem_map.1 h1
      simp only [group?, Option.map_eq_none_iff, List.find?_eq_none, List.mem_reverse, decide_eq_true_eq] at h
      exact absurd rfl (h g h2)

/-- A name stands for something if and only if it is a variant or a group. -/
theorem varNames_some (hw : WellNamed S) (hg : ∀ g ∈ S.groups, g.2 ≠ [] ∧ ∀ i ∈ g.2, i ∈ S.discs) {v : Ident} :
    (∃ d, VarNames S v d) ↔ v ∈ S.discs ++ S.groups.map Prod.fst := by
  constructor
  · rintro ⟨d, ⟨rfl, h⟩ | ⟨ds, h, _⟩⟩
    · exact List.mem_append.2 (Or.inl h)
    · exact List.mem_append.2 (Or.inr (List.mem_map.2 ⟨_, h, rfl⟩))
  · intro h
    obtain ⟨h1, h2⟩ := expandVar_known hg h
    obtain ⟨d, hd⟩ := List.exists_mem_of_ne_nil _ h1
    exact ⟨d, (mem_expandVar hw).1 ⟨hd, h2 d hd⟩⟩

theorem understood_iff {nm : Naming} (hw : WellNamed S) (hf : Faithful nm S) (hg : ∀ g ∈ S.groups, g.2 ≠ [] ∧ ∀ i ∈ g.2, i ∈ S.discs) {v l : Ident}
    (hv : v ∈ S.discs ++ S.groups.map Prod.fst) (hl : LinkWord S l) :
    Understood S v l ↔ ∀ d ∈ S.expandVar v, S.resolves nm (d, l) = true := by
  constructor
  · rintro ⟨_, h⟩ d hd
    have hd' := (expandVar_known hg hv).2 d hd
    obtain ⟨sd, hsd⟩ := mem_discs.1 hd'
    exact (resolves_iff hw hf hl).2 ⟨sd, hsd, h d sd ((mem_expandVar hw).1 ⟨hd, hd'⟩) hsd⟩
  · intro h
    refine ⟨(varNames_some hw hg).2 hv, fun d sd h1 h2 => ?_⟩
    obtain ⟨sd', h3, h4⟩ := (resolves_iff hw hf hl).1 (h d ((mem_expandVar hw).2 h1).1)
    have := (struct?_iff hw).2 h3
    rw [(struct?_iff hw).2 h2] at this
    simp only [Option.some.injEq] at this
    exact this ▸ h4

/-- The names that the code for `bidirectional!` mentions are those of the lines with groups replaced by their members. -/
theorem bidirRefs_iff (hk : ∀ b ∈ S.bidirs, ∀ d, d ∈ S.expandVar b.var1 ∨ d ∈ S.expandVar b.var2 → d ∈ S.discs)
    (hn : ∀ b ∈ S.bidirs, S.expandVar b.var1 ≠ [] ∧ S.expandVar b.var2 ≠ []) {d l : Ident} :
    (d, l) ∈ S.bidirRefs ↔ ∃ b ∈ S.bidirs, (d ∈ S.expandVar b.var1 ∧ l = b.link1) ∨ (d ∈ S.expandVar b.var2 ∧ l = b.link2) := by
  simp only [bidirRefs, List.mem_flatMap, List.mem_cons, mem_bLinkNames, mem_bLinks, mem_expandedBidirs]
  constructor
  · rintro ⟨var, _, link, ⟨e, ⟨b, hb, h1, h2, h3, h4⟩, h⟩, h5 | ⟨e', ⟨b', hb', h1', h2', h3', h4'⟩, h'⟩⟩
    · simp only [Prod.mk.injEq] at h5
      obtain ⟨rfl, rfl⟩ := h5
      refine ⟨b, hb, ?_⟩
      rcases h with ⟨rfl, rfl⟩ | ⟨rfl, rfl⟩
      · exact Or.inl ⟨h1, h2⟩
      · exact Or.inr ⟨h3, h4⟩
    · refine ⟨b', hb', ?_⟩
      rcases h' with ⟨_, _, h'⟩ | ⟨_, _, h'⟩
      · simp only [Prod.mk.injEq] at h'
        obtain ⟨rfl, rfl⟩ := h'
        exact Or.inr ⟨h3', h4'⟩
      · simp only [Prod.mk.injEq] at h'
        obtain ⟨rfl, rfl⟩ := h'
        exact Or.inl ⟨h1', h2'⟩
  · rintro ⟨b, hb, ⟨h1, rfl⟩ | ⟨h1, rfl⟩⟩
    · obtain ⟨d', hd'⟩ := List.exists_mem_of_ne_nil _ (hn b hb).2
      exact ⟨d, hk b hb d (Or.inl h1), b.link1, ⟨⟨d, b.link1, d', b.link2⟩, ⟨b, hb, h1, rfl, hd', rfl⟩, Or.inl ⟨rfl, rfl⟩⟩, Or.inl rfl⟩
    · obtain ⟨d', hd'⟩ := List.exists_mem_of_ne_nil _ (hn b hb).1
      exact ⟨d, hk b hb d (Or.inr h1), b.link2, ⟨⟨d', b.link1, d, b.link2⟩, ⟨b, hb, hd', rfl, h1, rfl⟩, Or.inr ⟨rfl, rfl⟩⟩, Or.inl rfl⟩

theorem mem_usedAnnos {e : TypeAnno} : e ∈ S.usedAnnos ↔ ∃ a ∈ S.annos, e.var ∈ S.expandVar a.var ∧ e.var ∈ S.discs ∧ e.link = a.link ∧
    e.var2 = a.var2.flatMap S.expandVar := by
  simp only [usedAnnos, List.mem_filter, mem_expandedAnnos, decide_eq_true_eq]
  constructor
  · rintro ⟨⟨a, h1, h2, h3, h4⟩, h5⟩
    exact ⟨a, h1, h2, h5, h3, h4⟩
  · rintro ⟨a, h1, h2, h5, h3, h4⟩
    exact ⟨⟨a, h1, h2, h3, h4⟩, h5⟩

end Schema
end TTGraph
