import Verif.Demo.Decls
import Verif.Lemmas.Compile

/-!
# Declarations that compile: C65
-/

set_option autoImplicit false

namespace TTGraph
open Spec
variable {S : Schema} {nm : Naming}

/-- If names are used once and changing their case does no harm, a declaration compiles if and only if every name in it has been declared, except
that a type annotation may be about an unknown variant: a misspelt name is a compile error, and a correct one never is. -/
theorem C65_compiles_partial (hw : WellNamed S) (hf : Faithful nm S) : S.Compiles nm ↔ Meaningful S := by
  have hgr : (∀ g ∈ S.groups, g.2 ≠ [] ∧ ∀ i ∈ g.2, i ∈ S.discs) ↔ ∀ v ds, (v, ds) ∈ S.groups → ds ≠ [] ∧ ∀ d ∈ ds, d ∈ S.discs :=
    ⟨fun h v ds hm => h (v, ds) hm, fun h g hm => h g.1 g.2 hm⟩
  have hst : (∀ v ∈ S.variants, v.2.Compiles nm) ↔
      (∀ d sd, (d, sd) ∈ S.variants → ∀ f ∈ sd.fields, f.groupAttrs ≠ [] → f.isLink = true) ∧
      ∀ d sd, (d, sd) ∈ S.variants → ∀ l ∈ sd.phantom, ∀ f ∈ sd.fields, f.isLink = true → f.name ≠ l := by
    constructor
    · intro h
      refine ⟨fun d sd hm f hf hne => ((h (d, sd) hm).2.1 f hf).resolve_right hne, fun d sd hm l hl f hf1 hfl e => ?_⟩
      have h1 := (List.nodup_append.1 ((Schema.logVariants_ok hf hm).1.1 (h (d, sd) hm).2.2.1)).2.2
      exact h1 l (StructDecl.mem_linkNames.2 ⟨f, hf1, hfl, e⟩) l (List.mem_dedup.2 (StructDecl.mem_groupKeys.2 (Or.inr hl))) rfl
    · rintro ⟨h1, h2⟩ ⟨d, sd⟩ hm
      refine ⟨hw.fields d sd hm, fun f hf' => ?_, (Schema.logVariants_ok hf hm).1.2 (List.nodup_append.2
        ⟨StructDecl.linkNames_nodup (hw.fields d sd hm), List.nodup_dedup _, ?_⟩), (Schema.logVariants_ok hf hm).2⟩
      · by_cases he : f.groupAttrs = []
        · exact Or.inr he
        · exact Or.inl (h1 d sd hm f hf' he)
      · rintro a ha b hb rfl
        rcases StructDecl.mem_groupKeys.1 (List.mem_dedup.1 hb) with ⟨f, hf, _, gs, h3, h4⟩ | h3
        · exact hw.linkGroup d sd hm f hf gs h3 a h4 ha
        · obtain ⟨f, hf, hfl, e⟩ := StructDecl.mem_linkNames.1 ha
          exact h2 d sd hm a h3 f hf hfl e
  have hne : S.discs ≠ [] ↔ S.variants ≠ [] := by simp [Schema.discs]
  constructor
  · rintro ⟨h1, _, _, h3, h4, h5, h6, h7⟩
    refine ⟨hne.1 h1, (hst.1 h3).1, (hst.1 h3).2, hgr.1 h4, fun b hb => ?_, fun a ha hv => ?_⟩
    · have hk : ∀ b ∈ S.bidirs, ∀ d, d ∈ S.expandVar b.var1 ∨ d ∈ S.expandVar b.var2 → d ∈ S.discs := fun b hb d hd =>
        hd.elim ((Schema.expandVar_known h4 (h5 b hb).1).2 d) ((Schema.expandVar_known h4 (h5 b hb).2).2 d)
      have hn : ∀ b ∈ S.bidirs, S.expandVar b.var1 ≠ [] ∧ S.expandVar b.var2 ≠ [] := fun b hb =>
        ⟨(Schema.expandVar_known h4 (h5 b hb).1).1, (Schema.expandVar_known h4 (h5 b hb).2).1⟩
      exact ⟨(Schema.understood_iff hw hf h4 (h5 b hb).1 (Schema.bidir_word hb).1).2 fun d hd => h6 _ ((Schema.bidirRefs_iff hk hn).2 ⟨b, hb, Or.inl ⟨hd, rfl⟩⟩),
        (Schema.understood_iff hw hf h4 (h5 b hb).2 (Schema.bidir_word hb).2).2 fun d hd => h6 _ ((Schema.bidirRefs_iff hk hn).2 ⟨b, hb, Or.inr ⟨hd, rfl⟩⟩)⟩
    · have hv' := (Schema.varNames_some hw h4).1 hv
      have hu : ∀ d ∈ S.expandVar a.var, (⟨d, a.link, a.var2.flatMap S.expandVar⟩ : TypeAnno) ∈ S.usedAnnos := fun d hd =>
        Schema.mem_usedAnnos.2 ⟨a, ha, hd, (Schema.expandVar_known h4 hv').2 d hd, rfl, rfl⟩
      obtain ⟨d, hd⟩ := List.exists_mem_of_ne_nil _ (Schema.expandVar_known h4 hv').1
      refine ⟨(Schema.understood_iff hw hf h4 hv' (Schema.anno_word ha)).2 fun d hd => (h7 _ (hu d hd)).1, fun e => (h7 _ (hu d hd)).2.1 (by simp [e]), fun v hv => ?_⟩
      have h8 := (h7 _ (hu d hd)).2.2
      refine (Schema.varNames_some hw h4).2 ?_
      cases hg : S.group? v with
      | none =>
        refine List.mem_append.2 (Or.inl (h8 v (List.mem_flatMap.2 ⟨v, hv, ?_⟩)))
        simp [Schema.expandVar, hg]
      | some ds => exact List.mem_append.2 (Or.inr (List.mem_map.2 ⟨(v, ds), (Schema.group?_iff hw).1 hg, rfl⟩))
  · rintro ⟨h1, h2, h3, h4, h5, h6⟩
    have h4' := hgr.2 h4
    have hb : ∀ b ∈ S.bidirs, b.var1 ∈ S.discs ++ S.groups.map Prod.fst ∧ b.var2 ∈ S.discs ++ S.groups.map Prod.fst := fun b hb =>
      ⟨(Schema.varNames_some hw h4').1 (h5 b hb).1.1, (Schema.varNames_some hw h4').1 (h5 b hb).2.1⟩
    have hk : ∀ b ∈ S.bidirs, ∀ d, d ∈ S.expandVar b.var1 ∨ d ∈ S.expandVar b.var2 → d ∈ S.discs := fun b hb' d hd =>
      hd.elim ((Schema.expandVar_known h4' (hb b hb').1).2 d) ((Schema.expandVar_known h4' (hb b hb').2).2 d)
    have hn : ∀ b ∈ S.bidirs, S.expandVar b.var1 ≠ [] ∧ S.expandVar b.var2 ≠ [] := fun b hb' =>
      ⟨(Schema.expandVar_known h4' (hb b hb').1).1, (Schema.expandVar_known h4' (hb b hb').2).1⟩
    refine ⟨hne.2 h1, hw.variants, ⟨List.Nodup.map_on (fun a ha b hb => hf.snake a ha b hb) hw.variants, hf.snakeFree⟩, hst.2 ⟨h2, h3⟩, h4', hb, ?_, ?_⟩
    · rintro ⟨d, l⟩ hr
      obtain ⟨b, hb', ⟨hd, rfl⟩ | ⟨hd, rfl⟩⟩ := (Schema.bidirRefs_iff hk hn).1 hr
      · exact (Schema.understood_iff hw hf h4' (hb b hb').1 (Schema.bidir_word hb').1).1 (h5 b hb').1 d hd
      · exact (Schema.understood_iff hw hf h4' (hb b hb').2 (Schema.bidir_word hb').2).1 (h5 b hb').2 d hd
    · intro e he
      obtain ⟨a, ha, hd, hd', hl, hv2⟩ := Schema.mem_usedAnnos.1 he
      have hv : ∃ d, VarNames S a.var d := ⟨_, (Schema.mem_expandVar hw).1 ⟨hd, hd'⟩⟩
      obtain ⟨k1, k2, k3⟩ := h6 a ha hv
      rw [hl, hv2]
      refine ⟨(Schema.understood_iff hw hf h4' ((Schema.varNames_some hw h4').1 hv) (Schema.anno_word ha)).1 k1 _ hd, ?_, ?_⟩
      · obtain ⟨v, hv⟩ := List.exists_mem_of_ne_nil _ k2
        obtain ⟨d, hd⟩ := List.exists_mem_of_ne_nil _ (Schema.expandVar_known h4' ((Schema.varNames_some hw h4').1 (k3 v hv))).1
        exact List.ne_nil_of_mem (List.mem_flatMap.2 ⟨v, hv, hd⟩)
      · intro d hd
        obtain ⟨v, hv, hd⟩ := List.mem_flatMap.1 hd
        exact (Schema.expandVar_known h4' ((Schema.varNames_some hw h4').1 (k3 v hv))).2 d hd

/-- What the other theorems ask of the names in a declaration (`WellNamed`) holds if it compiles and in addition: `group!` declares a name
once and does not use the name of a variant, and a field has one `#[group(..)]` attribute at most, which lists no group twice. -/
theorem C65_wellNamed (hc : S.Compiles nm) (h1 : (S.groups.map Prod.fst).Nodup) (h2 : ∀ v ds, (v, ds) ∈ S.groups → v ∉ S.discs)
    (h3 : ∀ d sd, (d, sd) ∈ S.variants → ∀ f ∈ sd.fields, f.groupAttrs.length ≤ 1)
    (h4 : ∀ d sd, (d, sd) ∈ S.variants → ∀ f ∈ sd.fields, ∀ gs ∈ f.groupAttrs, gs.Nodup) : WellNamed S := by
  refine ⟨hc.2.1, h1, h2, fun d sd hm => (hc.2.2.2.1 (d, sd) hm).1, h3, fun d sd hm f hf gs hgs g hg hl => ?_, h4⟩
  obtain ⟨_, k2, k3, _⟩ := hc.2.2.2.1 (d, sd) hm
  replace k3 : sd.logNames.Nodup := List.Nodup.of_map _ (List.nodup_append.1 k3).2.1
  have hf' : f.isLink = true := (k2 f hf).resolve_right (List.ne_nil_of_mem hgs)
  exact (List.nodup_append.1 k3).2.2 g hl g (List.mem_dedup.2 (StructDecl.mem_groupKeys.2 (Or.inl ⟨f, hf, hf', gs, hgs, hg⟩))) rfl

end TTGraph

namespace TTGraph
namespace Demo
open Spec

/-- `A { f: NodeIndex, s: Set }` with `f` in the link group `k`, `B { h: Set, g: NodeIndex }` with the phantom group `k`, `group! { ab { A, B } }`,
`A.f <-> B.h` and `ab.k : {A, B}`. -/
def named65 : Schema :=
  { variants := [(1, ⟨[lnk 10 .direct [[30]], lnk 11 .set], []⟩), (2, ⟨[lnk 20 .set, lnk 21 .direct], [30]⟩)],
    groups := [(90, [1, 2])], bidirs := [⟨1, 10, 2, 20⟩], annos := [⟨90, 30, [90]⟩] }

/-- Camel case adds 1000 to a name and snake case 2000, except that the names 29 and 20 (`fooBar` and `foo_bar`) have the same camel case and that the
snake case of the variant 7 (`If`) is reserved. -/
def naming : Naming where
  camel n := if n = 29 then 1020 else n + 1000
  snake n := if n = 7 then 5007 else n + 2000
  reserved n := decide (5000 ≤ n)
  empty := 999

def linkWords (S : Schema) : List Ident :=
  S.variants.flatMap (fun v => v.2.logNames) ++ S.bidirs.flatMap (fun b => [b.link1, b.link2]) ++ S.annos.map TypeAnno.link

theorem mem_linkWords {S : Schema} {l : Ident} (h : LinkWord S l) : l ∈ linkWords S := by
  rcases h with ⟨d, sd, hm, hd⟩ | ⟨b, hb, h⟩ | ⟨a, ha, rfl⟩
  · exact List.mem_append.2 (Or.inl (List.mem_append.2 (Or.inl (List.mem_flatMap.2 ⟨_, hm, StructDecl.mem_logNames.2 hd⟩))))
  · exact List.mem_append.2 (Or.inl (List.mem_append.2 (Or.inr (List.mem_flatMap.2 ⟨b, hb, by rcases h with rfl | rfl <;> simp⟩))))
  · exact List.mem_append.2 (Or.inr (List.mem_map.2 ⟨a, ha, rfl⟩))

theorem faithful_sound {S : Schema} {nm : Naming}
    (h : (∀ a ∈ linkWords S, ∀ b ∈ linkWords S, nm.camel a = nm.camel b → a = b) ∧
      (∀ a ∈ linkWords S, nm.reserved (nm.camel a) = false ∧ nm.camel a ≠ nm.empty) ∧ nm.reserved nm.empty = false ∧
      (∀ d ∈ S.discs, ∀ e ∈ S.discs, nm.snake d = nm.snake e → d = e) ∧ ∀ d ∈ S.discs, nm.reserved (nm.snake d) = false) : Faithful nm S :=
  ⟨fun a b ha hb => h.1 a (mem_linkWords ha) b (mem_linkWords hb), fun a ha => (h.2.1 a (mem_linkWords ha)).1,
    fun a ha => (h.2.1 a (mem_linkWords ha)).2, h.2.2.1, h.2.2.2.1, h.2.2.2.2⟩

example : Meaningful named65 := (C65_compiles_partial (nm := naming) (wellNamed_sound (by decide)) (faithful_sound (by decide))).1 (by decide)

example : WellNamed named65 := C65_wellNamed (nm := naming) (by decide) (by decide)
  (fun v ds h => (by decide : ∀ g ∈ named65.groups, g.1 ∉ named65.discs) (v, ds) h)
  (fun d sd h => (by decide : ∀ v ∈ named65.variants, ∀ f ∈ v.2.fields, f.groupAttrs.length ≤ 1) (d, sd) h)
  (fun d sd h => (by decide : ∀ v ∈ named65.variants, ∀ f ∈ v.2.fields, ∀ gs ∈ f.groupAttrs, gs.Nodup) (d, sd) h)

/-- A misspelt field is noticed. -/
example : ¬ Schema.Compiles { named65 with bidirs := [⟨1, 10, 2, 22⟩] } naming := by decide

/-- A misspelt variant is noticed. -/
example : ¬ Schema.Compiles { named65 with bidirs := [⟨1, 10, 3, 20⟩] } naming := by decide

/-- A misspelt member of a group is noticed, also if the group is not used. -/
example : ¬ Schema.Compiles { named65 with groups := [(90, [1, 2]), (91, [3])] } naming := by decide

/-- A field that only some members of a group have is noticed. -/
example : ¬ Schema.Compiles { named65 with annos := [⟨90, 10, [90]⟩] } naming := by decide

/-- Full statement of C65: a declaration that compiles uses only names that have been declared.  This is false: an annotation about an unknown
variant compiles, and nothing is enforced. -/
theorem C65_typo_fails : ∃ S : Schema, WellNamed S ∧ S.Compiles naming ∧ (⟨3, 10, [2]⟩ : TypeAnno) ∈ S.annos ∧ (¬ ∃ d, VarNames S 3 d) ∧
    ∀ m d, S.checkLinkType d m = true := by
  have hw : WellNamed { pair with annos := [⟨3, 10, [2]⟩] } := wellNamed_sound (by decide)
  refine ⟨{ pair with annos := [⟨3, 10, [2]⟩] }, hw, by decide, by simp, ?_, fun m d => ?_⟩
  · rintro ⟨d, ⟨rfl, h⟩ | ⟨ds, h, _⟩⟩
    · exact absurd h (by decide)
    · exact absurd h (by simp [pair])
  · simp only [Schema.checkLinkType, List.all_eq_true]
    intro log hl
    obtain ⟨sd, h1, _⟩ := (Schema.mem_toLog hw).1 hl
    have h2 : m.disc ∈ [1, 2] := Schema.mem_discs.2 ⟨sd, h1⟩
    have h3 : m.disc ≠ 3 := by rintro e; rw [e] at h2; exact absurd h2 (by decide)
    have h4 : ∀ log, ¬ ((3 : Ident) = m.disc ∧ (10 : Ident) = log) := fun _ h => h3 h.1.symm
    simp [Schema.checkLinkTypeByLog, Schema.expandedAnnos, Schema.expandVar, Schema.group?, pair, Schema.lexMin, h3.symm]

/-- A name that differs from a declared one in its case only: `B.fooBar` for the field `foo_bar`.  This compiles. -/
theorem C65_case_fails : ∃ S : Schema, WellNamed S ∧ S.Compiles naming ∧ (⟨1, 10, 2, 29⟩ : BidirDecl) ∈ S.bidirs ∧ ∀ d sd, (d, sd) ∈ S.variants → ¬ Declares sd 29 := by
  refine ⟨{ pair with bidirs := [⟨1, 10, 2, 29⟩] }, wellNamed_sound (by decide), by decide, by simp, fun d sd hm hd => ?_⟩
  exact absurd (StructDecl.mem_logNames.2 hd) ((by decide : ∀ v ∈ pair.variants, 29 ∉ v.2.logNames) (d, sd) hm)

/-- Conversely, correct names need not compile: the snake case of a variant (`If`, `Loop`, `Return`) may be a reserved word. -/
theorem C65_reserved_fails : ∃ S : Schema, WellNamed S ∧ Meaningful S ∧ ¬ S.Compiles naming := by
  refine ⟨{ variants := [(7, ⟨[lnk 10 .direct], []⟩)] }, wellNamed_sound (by decide),
    (C65_compiles_partial (nm := { naming with snake := id }) (wellNamed_sound (by decide)) (faithful_sound (by decide))).1 (by decide), by decide⟩

/-! The four conditions of `C65_wellNamed` do not follow from `Compiles`, and each of them is needed. -/

/-- A group is declared twice: `group! { k { A }, k { B } }`.  `iter_group` takes the first, the line `k.h <-> A.f` the last declaration. -/
theorem C65_twice_fails : ∃ S : Schema, S.Compiles naming ∧ (90, [1]) ∈ S.groups ∧ (⟨90, 20, 1, 10⟩ : BidirDecl) ∈ S.bidirs ∧
    S.inGroup 1 90 = true ∧ S.inGroup 2 90 = false ∧ S.mirrorsOf ⟨2, 0⟩ = [⟨1, 0⟩] :=
  ⟨{ pair with groups := [(90, [1]), (90, [2])], bidirs := [⟨90, 20, 1, 10⟩] }, by decide, by simp, by simp, by decide, by decide, by decide⟩

/-- A group has the name of a variant: `group! { A { B } }`.  The line `A.f <-> B.h` does not connect the field `f` of `A`. -/
theorem C65_shadow_fails : ∃ S : Schema, S.Compiles naming ∧ (⟨1, 10, 2, 20⟩ : BidirDecl) ∈ S.bidirs ∧ Opposite S ⟨1, 0⟩ ⟨2, 1⟩ ∧ S.mirrorsOf ⟨1, 0⟩ = [] := by
  refine ⟨{ variants := [(1, ⟨[lnk 10 .direct], []⟩), (2, ⟨[lnk 10 .direct, lnk 20 .set], []⟩)], groups := [(1, [2])], bidirs := [⟨1, 10, 2, 20⟩] },
    by decide, by simp, ⟨_, List.mem_singleton.2 rfl, Or.inl ⟨⟨Or.inl ⟨rfl, by decide⟩, _, List.mem_cons_self, _, rfl, Or.inl rfl⟩,
      Or.inl ⟨rfl, by decide⟩, _, List.mem_cons_of_mem _ List.mem_cons_self, _, rfl, Or.inl rfl⟩⟩, by decide⟩

/-- A field has two attributes: `#[group(k)] #[group(l)] f`, followed by a field `g` without one.  The line `A.l <-> B.h` connects `g`, which is
not in the group `l`, with `B.h`, and not `f`, which is; in the other direction it is the other way round. -/
theorem C65_attributes_fails : ∃ S : Schema, S.Compiles naming ∧ Opposite S ⟨1, 0⟩ ⟨2, 0⟩ ∧ S.mirrorsOf ⟨1, 0⟩ = [] ∧ S.mirrorsOf ⟨1, 1⟩ = [⟨2, 0⟩] ∧
    S.mirrorsOf ⟨2, 0⟩ = [⟨1, 0⟩] := by
  refine ⟨{ variants := [(1, ⟨[lnk 10 .direct [[30], [31]], lnk 11 .direct], []⟩), (2, ⟨[lnk 20 .set], []⟩)], bidirs := [⟨1, 31, 2, 20⟩] },
    by decide, ⟨_, List.mem_singleton.2 rfl, Or.inl ⟨⟨Or.inl ⟨rfl, by decide⟩, _, List.mem_cons_self, _, rfl, Or.inr ⟨[31], by simp [lnk], by simp⟩⟩,
      Or.inl ⟨rfl, by decide⟩, _, List.mem_cons_of_mem _ List.mem_cons_self, _, rfl, Or.inl rfl⟩⟩, by decide, by decide, by decide⟩

/-- An attribute lists a group twice: `#[group(k, k)] f`, with `A.k <-> B.h`.  `f` is the only opposite of `B.h`, but a commit that links a node
of variant `B` to one of variant `A` panics because it finds two. -/
theorem C65_list_fails : ∃ S : Schema, S.Compiles naming ∧ (∀ m, Opposite S ⟨2, 0⟩ m → m = ⟨1, 0⟩) ∧
    ∃ g t, Meets S true AnyCall g t ∧ g.commit S true t = .error .multiChoice := by
  refine ⟨{ variants := [(1, ⟨[lnk 10 .direct [[30, 30]], lnk 11 .set], []⟩), (2, ⟨[lnk 20 .set, lnk 21 .direct], []⟩)], bidirs := [⟨1, 30, 2, 20⟩] },
    by decide, ?_, _, _, meets_of (reaches
    [.call (.newContext 0 77), .call (.newGraph 0 0), .call (.newTrans 0 0), .call (.op 0 (.insert (pA 0 []))), .call (.op 0 (.insert (pB [1] 0)))]
    (by decide +kernel)) 0 0 (by decide +kernel), rfl⟩
  rintro ⟨d, p⟩ ⟨b, hb, h⟩
  obtain rfl := List.mem_singleton.1 hb
  rcases h with ⟨⟨h1 | ⟨ds, h1, _⟩, _⟩, _⟩ | ⟨⟨h1, sd, h2, f, h3, h4⟩, _⟩
  · exact absurd h1.1 (by decide)
  · exact absurd h1 (by simp)
  · rcases h1 with ⟨h1, _⟩ | ⟨ds, h1, _⟩
    · simp only at h1
      subst h1
      simp only [List.mem_cons, Prod.mk.injEq, true_and, List.not_mem_nil, or_false] at h2
      rcases h2 with rfl | ⟨h2, _⟩
      · replace h3 : [lnk 10 .direct [[30, 30]], lnk 11 .set][p]? = some f := h3
        match p, h3 with
        | 0, _ => rfl
        | 1, h3 =>
          have : f = lnk 11 .set := (Option.some.inj h3).symm
          subst this
          simp [lnk] at h4
        | p + 2, h3 => simp at h3
      · exact absurd h2 (by decide)
    · exact absurd h1 (by simp)

end Demo
end TTGraph
