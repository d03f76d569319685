import Verif.Model.Spelling
import Verif.Spec.Spelling
import Verif.Lemmas.Compile
import Verif.Lemmas.BidirLinks
import Verif.Lemmas.Types

/-!
# Spellings of names
-/

set_option autoImplicit false

namespace TTGraph
open Spec

variable {S S' : Schema} {nm : Naming}

namespace Schema

theorem lexMin_congr {l l' : List (List Ident)} (h : ∀ x, x ∈ l ↔ x ∈ l') : lexMin l = lexMin l' := by
  cases h1 : lexMin l with
  | none =>
    obtain rfl := lexMin_none h1
    cases l' with
    | nil => rfl
    | cons a t => exact absurd ((h a).2 List.mem_cons_self) (by simp)
  | some a =>
    cases h2 : lexMin l' with
    | none =>
      obtain rfl := lexMin_none h2
      exact absurd ((h a).1 (lexMin_mem h1)) (by simp)
    | some b => rw [List.le_antisymm (lexMin_le h1 b ((h b).2 (lexMin_mem h2))) (lexMin_le h2 a ((h a).1 (lexMin_mem h1)))]

theorem armFor_some {d c k : Ident} (hk : k ∈ S.bLinkNames d) (hc : nm.camel k = c) (hu : ∀ k' ∈ S.bLinkNames d, nm.camel k' = c → k' = k) :
    S.armFor nm d c = some k := by
  have hm : k ∈ (S.bLinkNames d).filter (fun k => nm.camel k = c) := List.mem_filter.2 ⟨hk, by simpa using hc⟩
  simp only [armFor]
  cases hf : ((S.bLinkNames d).filter (fun k => nm.camel k = c)).min? with
  | none => rw [List.min?_eq_none_iff] at hf; rw [hf] at hm; exact absurd hm (by simp)
  | some k' =>
    have h1 := List.mem_filter.1 (List.min?_mem hf)
    rw [hu k' h1.1 (by simpa using h1.2)]

theorem armFor_none {d c : Ident} (h : ∀ k ∈ S.bLinkNames d, nm.camel k ≠ c) : S.armFor nm d c = none := by
  rw [armFor, List.min?_eq_none_iff, List.filter_eq_nil_iff]
  intro k hk
  simpa using h k hk

theorem logToLinksC_eq {sd : StructDecl} {c k : Ident} (hk : Declares sd k) (hc : nm.camel k = c)
    (hu : ∀ l, Declares sd l → nm.camel l = c → l = k) : sd.logToLinksC nm c = sd.logToLinks k := by
  simp only [StructDecl.logToLinksC]
  cases hf : sd.logNames.find? (fun l => nm.camel l = c) with
  | none => exact absurd hc (by simpa using List.find?_eq_none.1 hf k (StructDecl.mem_logNames.2 hk))
  | some l => simp only; rw [hu l (StructDecl.mem_logNames.1 (List.mem_of_find?_eq_some hf)) (by simpa using List.find?_some hf)]

theorem word_of_bLinkNames {d k : Ident} (h : k ∈ S.bLinkNames d) : LinkWord S k := by
  obtain ⟨e, he, h1⟩ := mem_bLinkNames.1 h
  obtain ⟨b, hb, _, h2, _, h3⟩ := mem_expandedBidirs.1 he
  rcases h1 with ⟨_, rfl⟩ | ⟨_, rfl⟩
  · rw [h2]; exact (bidir_word hb).1
  · rw [h3]; exact (bidir_word hb).2

theorem word_of_bLinks {d k : Ident} {p : Ident × Ident} (h : p ∈ S.bLinks d k) : LinkWord S p.2 ∧ k ∈ S.bLinkNames d := by
  obtain ⟨e, he, h1⟩ := mem_bLinks.1 h
  obtain ⟨b, hb, _, h2, _, h3⟩ := mem_expandedBidirs.1 he
  rcases h1 with ⟨rfl, rfl, rfl⟩ | ⟨rfl, rfl, rfl⟩
  · exact ⟨by simp only [h3]; exact (bidir_word hb).2, mem_bLinkNames.2 ⟨e, he, Or.inl ⟨rfl, rfl⟩⟩⟩
  · exact ⟨by simp only [h2]; exact (bidir_word hb).1, mem_bLinkNames.2 ⟨e, he, Or.inr ⟨rfl, rfl⟩⟩⟩

theorem toLog_declares (hw : WellNamed S) {m : Mirror} {log : Ident} (h : log ∈ S.toLog m) : ∃ sd, (m.disc, sd) ∈ S.variants ∧ Declares sd log := by
  obtain ⟨sd, h1, h2⟩ := (mem_toLog hw).1 h
  exact ⟨sd, h1, Or.inl ⟨_, h2⟩⟩

/-- An undeclared name stands for nothing. -/
theorem logToLinks_undeclared {sd : StructDecl} {l : Ident} (h : ¬ Declares sd l) : sd.logToLinks l = [] := by
  have h1 : sd.linkPos l = none := by
    rw [StructDecl.linkPos, List.idxOf?_eq_none_iff]
    exact fun hm => h (StructDecl.mem_logNames.1 (List.mem_append_left _ hm))
  simp only [StructDecl.logToLinks, h1]
  have h2 : sd.groupMembers l = [] := by
    simp only [StructDecl.groupMembers, List.flatMap_eq_nil_iff]
    intro f hf
    split
    · rename_i hl
      rw [List.map_eq_nil_iff, List.filter_eq_nil_iff]
      intro g hg he
      simp only [decide_eq_true_eq] at he
      obtain ⟨gs, hgs, hg'⟩ := List.mem_flatten.1 hg
      exact h (Or.inl (StructDecl.fieldNames_iff.2 ⟨f, hf, hl, Or.inr ⟨gs, hgs, he ▸ hg'⟩⟩))
    · rfl
  rw [h2]; rfl

theorem expandLogC_faithful (hcam : ∀ a b, LinkWord S a → LinkWord S b → nm.camel a = nm.camel b → a = b) (hne : NoEmpty nm S)
    {d l : Ident} (hl : LinkWord S l) : S.expandLogC nm d (nm.camel l) = S.expandLog d l := by
  simp only [expandLogC, expandLog]
  cases hs : S.struct? d with
  | none => rfl
  | some sd =>
    have hm := struct?_mem hs
    simp only
    by_cases hd : Declares sd l
    · rw [logToLinksC_eq hd rfl fun k hk he => hcam _ _ (declares_word hm hk) hl he]
    · rw [logToLinks_undeclared hd]
      simp only [StructDecl.logToLinksC]
      cases hf : sd.logNames.find? (fun k => nm.camel k = nm.camel l) with
      | none => simp [hne l hl]
      | some k =>
        have hk := StructDecl.mem_logNames.1 (List.mem_of_find?_eq_some hf)
        have he : nm.camel k = nm.camel l := by simpa using List.find?_some hf
        exact absurd (hcam _ _ (declares_word hm hk) hl he ▸ hk) hd

theorem mirrorsOfC_faithful (hw : WellNamed S) (hcam : ∀ a b, LinkWord S a → LinkWord S b → nm.camel a = nm.camel b → a = b) (hne : NoEmpty nm S)
    (m : Mirror) : S.mirrorsOfC nm m = S.mirrorsOf m := by
  simp only [mirrorsOfC, mirrorsOf]
  refine List.flatMap_congr fun log hlog => ?_
  obtain ⟨sd, h1, h2⟩ := toLog_declares hw hlog
  have hword := declares_word h1 h2
  simp only [mirrorsOfLogC, mirrorsOfLog]
  by_cases hk : log ∈ S.bLinkNames m.disc
  · rw [armFor_some hk rfl fun k' hk' he => hcam _ _ (word_of_bLinkNames hk') hword he]
    exact List.flatMap_congr fun p hp => expandLogC_faithful hcam hne (word_of_bLinks hp).1
  · rw [armFor_none fun k hk' he => hk (hcam _ _ (word_of_bLinkNames hk') hword he ▸ hk')]
    have : S.bLinks m.disc log = [] := List.eq_nil_iff_forall_not_mem.2 fun p hp => hk (word_of_bLinks hp).2
    rw [this]; rfl

theorem checkLinkTypeC_faithful (hw : WellNamed S) (hcam : ∀ a b, LinkWord S a → LinkWord S b → nm.camel a = nm.camel b → a = b)
    (d : Ident) (m : Mirror) : S.checkLinkTypeC nm d m = S.checkLinkType d m := by
  have key : ∀ log ∈ S.toLog m, S.checkLinkTypeByLogC nm d m.disc (nm.camel log) = S.checkLinkTypeByLog d m.disc log := by
    intro log hlog
    obtain ⟨sd, h1, h2⟩ := toLog_declares hw hlog
    have hf : S.expandedAnnos.filter (fun a => a.var = m.disc ∧ nm.camel a.link = nm.camel log) =
        S.expandedAnnos.filter (fun a => a.var = m.disc ∧ a.link = log) := by
      refine List.filter_congr fun a ha => ?_
      obtain ⟨a0, ha0, _, e, _⟩ := mem_expandedAnnos.1 ha
      have : nm.camel a.link = nm.camel log ↔ a.link = log :=
        ⟨fun he => hcam _ _ (e ▸ anno_word ha0) (declares_word h1 h2) he, fun he => by rw [he]⟩
      simp only [this]
    unfold checkLinkTypeByLogC checkLinkTypeByLog
    rw [hf]
    generalize lexMin _ = o
    cases o <;> rfl
  rw [Bool.eq_iff_iff, checkLinkTypeC, checkLinkType, List.all_eq_true, List.all_eq_true]
  exact ⟨fun h log hl => key log hl ▸ h log hl, fun h log hl => (key log hl).symm ▸ h log hl⟩

/-! ### Declared names -/

/-- The declared name that `l` is a spelling of. -/
def spell (nm : Naming) (S : Schema) (d l : Ident) : Ident :=
  match S.struct? d with
  | some sd => (sd.logNames.find? (fun k => nm.camel k = nm.camel l)).getD l
  | none => l

theorem camel_inj {d : Ident} {sd : StructDecl} (hc : S.Compiles nm) (hm : (d, sd) ∈ S.variants) {k k' : Ident} (hk : Declares sd k) (hk' : Declares sd k')
    (he : nm.camel k = nm.camel k') : k = k' := by
  have h1 := (List.nodup_append.1 (hc.2.2.2.1 (d, sd) hm).2.2.1).2.1
  exact List.inj_on_of_nodup_map h1 (StructDecl.mem_logNames.2 hk) (StructDecl.mem_logNames.2 hk') he

theorem spells_unique (hw : WellNamed S) (hc : S.Compiles nm) {d l k k' : Ident} (h : Spells nm S d l k) (h' : Spells nm S d l k') : k = k' := by
  obtain ⟨sd, h1, h2, h3⟩ := h
  obtain ⟨sd', h1', h2', h3'⟩ := h'
  have : sd = sd' := Option.some.inj ((((struct?_iff hw).2 h1).symm).trans ((struct?_iff hw).2 h1'))
  subst this
  exact camel_inj hc h1 h2 h2' (h3.symm.trans h3')

theorem spell_eq (hw : WellNamed S) (hc : S.Compiles nm) {d l k : Ident} (h : Spells nm S d l k) : S.spell nm d l = k := by
  obtain ⟨sd, h1, h2, h3⟩ := h
  simp only [spell, (struct?_iff hw).2 h1]
  cases hf : sd.logNames.find? (fun k => nm.camel k = nm.camel l) with
  | none => exact absurd h3.symm (by simpa using List.find?_eq_none.1 hf k (StructDecl.mem_logNames.2 h2))
  | some k' =>
    exact camel_inj hc h1 (StructDecl.mem_logNames.1 (List.mem_of_find?_eq_some hf)) h2
      ((by simpa using List.find?_some hf : nm.camel k' = nm.camel l).trans h3)

theorem spells_of_resolves (hne : NoEmpty nm S) {d l : Ident} (hl : LinkWord S l) (h : S.resolves nm (d, l) = true) : ∃ k, Spells nm S d l k := by
  simp only [resolves] at h
  cases hs : S.struct? d with
  | none => rw [hs] at h; exact absurd h (by simp)
  | some sd =>
    rw [hs] at h
    simp only [decide_eq_true_eq, StructDecl.logVariants, List.mem_append, List.mem_map] at h
    rcases h with h | ⟨k, hk, he⟩
    · split at h
      · exact absurd (List.mem_singleton.1 h) (hne l hl)
      · exact absurd h (by simp)
    · exact ⟨k, sd, struct?_mem hs, StructDecl.mem_logNames.1 hk, he.symm⟩

/-- All variants in the lines are known. -/
theorem expandVar_disc (hc : S.Compiles nm) {b : BidirDecl} (hb : b ∈ S.bidirs) {d : Ident} (hd : d ∈ S.expandVar b.var1 ∨ d ∈ S.expandVar b.var2) :
    d ∈ S.discs := by
  obtain ⟨h1, h2⟩ := hc.2.2.2.2.2.1 b hb
  rcases hd with hd | hd
  · exact (expandVar_known hc.2.2.2.2.1 h1).2 d hd
  · exact (expandVar_known hc.2.2.2.2.1 h2).2 d hd

theorem mem_expandVar' (hw : WellNamed S) (hc : S.Compiles nm) {b : BidirDecl} (hb : b ∈ S.bidirs) (d : Ident) :
    (d ∈ S.expandVar b.var1 ↔ VarNames S b.var1 d) ∧ (d ∈ S.expandVar b.var2 ↔ VarNames S b.var2 d) :=
  ⟨⟨fun h => (mem_expandVar hw).1 ⟨h, expandVar_disc hc hb (Or.inl h)⟩, fun h => ((mem_expandVar hw).2 h).1⟩,
   ⟨fun h => (mem_expandVar hw).1 ⟨h, expandVar_disc hc hb (Or.inr h)⟩, fun h => ((mem_expandVar hw).2 h).1⟩⟩

theorem mentions_iff (hw : WellNamed S) (hc : S.Compiles nm) {d l : Ident} : LineUses S d l ↔ ∃ b ∈ S.bidirs,
    (d ∈ S.expandVar b.var1 ∧ b.link1 = l) ∨ (d ∈ S.expandVar b.var2 ∧ b.link2 = l) :=
  exists_congr fun b => and_congr_right fun hb => by rw [(mem_expandVar' hw hc hb d).1, (mem_expandVar' hw hc hb d).2]

theorem mentions_spells (hw : WellNamed S) (hc : S.Compiles nm) (hne : NoEmpty nm S) {d l : Ident} (h : LineUses S d l) : ∃ k, Spells nm S d l k := by
  have hn : ∀ b ∈ S.bidirs, S.expandVar b.var1 ≠ [] ∧ S.expandVar b.var2 ≠ [] := fun b hb =>
    ⟨(expandVar_known hc.2.2.2.2.1 (hc.2.2.2.2.2.1 b hb).1).1, (expandVar_known hc.2.2.2.2.1 (hc.2.2.2.2.2.1 b hb).2).1⟩
  obtain ⟨b, hb, h1⟩ := (mentions_iff hw hc).1 h
  have h2 : (d, l) ∈ S.bidirRefs := (bidirRefs_iff (fun b hb d hd => expandVar_disc hc hb hd) hn).2
    ⟨b, hb, h1.imp (fun h => ⟨h.1, h.2.symm⟩) (fun h => ⟨h.1, h.2.symm⟩)⟩
  refine spells_of_resolves hne ?_ (hc.2.2.2.2.2.2.1 _ h2)
  rcases h1 with ⟨_, rfl⟩ | ⟨_, rfl⟩
  · exact (bidir_word hb).1
  · exact (bidir_word hb).2

theorem mentions_of_bLinks (hw : WellNamed S) (hc : S.Compiles nm) {d l : Ident} {p : Ident × Ident} (h : p ∈ S.bLinks d l) :
    LineUses S p.1 p.2 := by
  obtain ⟨e, he, h1⟩ := mem_bLinks.1 h
  obtain ⟨b, hb, h2, h3, h4, h5⟩ := mem_expandedBidirs.1 he
  rcases h1 with ⟨_, _, rfl⟩ | ⟨_, _, rfl⟩
  · exact (mentions_iff hw hc).2 ⟨b, hb, Or.inr ⟨h4, h5.symm⟩⟩
  · exact (mentions_iff hw hc).2 ⟨b, hb, Or.inl ⟨h2, h3.symm⟩⟩

theorem mentions_of_bLinkNames (hw : WellNamed S) (hc : S.Compiles nm) {d l : Ident} : l ∈ S.bLinkNames d ↔ LineUses S d l := by
  rw [mentions_iff hw hc, mem_bLinkNames]
  constructor
  · rintro ⟨e, he, h1⟩
    obtain ⟨b, hb, h2, h3, h4, h5⟩ := mem_expandedBidirs.1 he
    rcases h1 with ⟨rfl, rfl⟩ | ⟨rfl, rfl⟩
    · exact ⟨b, hb, Or.inl ⟨h2, h3.symm⟩⟩
    · exact ⟨b, hb, Or.inr ⟨h4, h5.symm⟩⟩
  · have hn : ∀ b ∈ S.bidirs, S.expandVar b.var1 ≠ [] ∧ S.expandVar b.var2 ≠ [] := fun b hb =>
      ⟨(expandVar_known hc.2.2.2.2.1 (hc.2.2.2.2.2.1 b hb).1).1, (expandVar_known hc.2.2.2.2.1 (hc.2.2.2.2.2.1 b hb).2).1⟩
    rintro ⟨b, hb, ⟨h1, rfl⟩ | ⟨h1, rfl⟩⟩
    · obtain ⟨d', hd'⟩ := List.exists_mem_of_ne_nil _ (hn b hb).2
      exact ⟨⟨d, b.link1, d', b.link2⟩, mem_expandedBidirs.2 ⟨b, hb, h1, rfl, hd', rfl⟩, Or.inl ⟨rfl, rfl⟩⟩
    · obtain ⟨d', hd'⟩ := List.exists_mem_of_ne_nil _ (hn b hb).1
      exact ⟨⟨d', b.link1, d, b.link2⟩, mem_expandedBidirs.2 ⟨b, hb, hd', rfl, h1, rfl⟩, Or.inr ⟨rfl, rfl⟩⟩

theorem _root_.TTGraph.Spec.VarNames.disc {v d : Ident} (h : VarNames S v d) : d ∈ S.discs := by
  rcases h with ⟨_, h⟩ | ⟨_, _, _, h⟩ <;> exact h

theorem armFor_iff {d c k : Ident} : S.armFor nm d c = some k ↔
    k ∈ S.bLinkNames d ∧ nm.camel k = c ∧ ∀ k' ∈ S.bLinkNames d, nm.camel k' = c → k ≤ k' := by
  rw [armFor, List.min?_eq_some_iff]
  simp only [List.mem_filter, decide_eq_true_eq, and_assoc, and_imp]

theorem mem_logToLinksC {d c : Ident} {sd : StructDecl} (hw : WellNamed S) (hc : S.Compiles nm) (hm : (d, sd) ∈ S.variants) (hne : c ≠ nm.empty) {p : Nat} :
    p ∈ sd.logToLinksC nm c ↔ ∃ k, nm.camel k = c ∧ FieldNames sd k p := by
  have hl := fun k => StructDecl.mem_logToLinks (hw.fields d sd hm) (hw.linkGroup d sd hm) (log := k) (pos := p)
  simp only [StructDecl.logToLinksC]
  cases hf : sd.logNames.find? (fun k => nm.camel k = c) with
  | none =>
    simp only [hne, and_false, if_false, List.not_mem_nil, false_iff]
    rintro ⟨k, h1, h2⟩
    exact absurd h1 (by simpa using List.find?_eq_none.1 hf k (StructDecl.mem_logNames.2 (Or.inl ⟨p, h2⟩)))
  | some k =>
    have hk := StructDecl.mem_logNames.1 (List.mem_of_find?_eq_some hf)
    have he : nm.camel k = c := by simpa using List.find?_some hf
    simp only [hl]
    exact ⟨fun h => ⟨k, he, h⟩, fun ⟨k', h1, h2⟩ => camel_inj hc hm (Or.inl ⟨p, h2⟩) hk (h1.trans he.symm) ▸ h2⟩

/-- The table of opposites, whatever spellings are used. -/
theorem mem_mirrorsOfC (hw : WellNamed S) (hc : S.Compiles nm) (hne : NoEmpty nm S) {m m' : Mirror} : m' ∈ S.mirrorsOfC nm m ↔ OppositeLed nm S m m' := by
  have hexp : ∀ {v l : Ident}, LinkWord S l → VarNames S v m'.disc → (m' ∈ S.expandLogC nm m'.disc (nm.camel l) ↔ NamesAs nm S v l m') := by
    intro v l hl hv
    obtain ⟨sd, hm⟩ := mem_discs.1 hv.disc
    simp only [expandLogC, (struct?_iff hw).2 hm, List.mem_map, mem_logToLinksC hw hc hm (hne l hl), NamesAs]
    constructor
    · rintro ⟨p, ⟨k, h1, h2⟩, e⟩; exact ⟨hv, sd, k, hm, h1, by rw [← e]; exact h2⟩
    · rintro ⟨_, sd', k, h1, h2, h3⟩
      obtain rfl : sd' = sd := Option.some.inj (((struct?_iff hw).2 h1).symm.trans ((struct?_iff hw).2 hm))
      exact ⟨m'.pos, ⟨k, h2, h3⟩, rfl⟩
  have hdisc : ∀ {d c : Ident}, m' ∈ S.expandLogC nm d c → m'.disc = d := by
    intro d c h
    simp only [expandLogC] at h
    split at h
    · obtain ⟨_, _, rfl⟩ := List.mem_map.1 h; rfl
    · exact absurd h (by simp)
  simp only [mirrorsOfC, List.mem_flatMap]
  constructor
  · rintro ⟨log, hlog, h⟩
    obtain ⟨sd, h1, h2⟩ := (mem_toLog hw).1 hlog
    simp only [mirrorsOfLogC] at h
    cases ha : S.armFor nm m.disc (nm.camel log) with
    | none => rw [ha] at h; exact absurd h (by simp)
    | some k =>
      rw [ha] at h
      obtain ⟨q, hq, hx⟩ := List.mem_flatMap.1 h
      obtain ⟨_, a2, a3⟩ := armFor_iff.1 ha
      have lead : Leads nm S m.disc k := fun l' hl' e => a3 l' ((mentions_of_bLinkNames hw hc).2 hl') (e.trans a2)
      obtain ⟨e, he, h3⟩ := mem_bLinks.1 hq
      obtain ⟨b, hb, e1, e2, e3, e4⟩ := mem_expandedBidirs.1 he
      have v1 := (mem_expandVar' hw hc hb _).1.1 e1
      have v2 := (mem_expandVar' hw hc hb _).2.1 e3
      have hd := hdisc hx
      rcases h3 with ⟨h3, h4, rfl⟩ | ⟨h3, h4, rfl⟩
      · subst h4
        simp only at hx hd
        rw [← hd] at hx v2; rw [h3] at v1; rw [e4] at hx
        refine ⟨b, hb, Or.inl ⟨⟨v1, sd, log, h1, by rw [← e2, a2], h2⟩, (hexp (bidir_word hb).2 v2).1 hx, e2 ▸ lead⟩⟩
      · subst h4
        simp only at hx hd
        rw [← hd] at hx v1; rw [h3] at v2; rw [e2] at hx
        refine ⟨b, hb, Or.inr ⟨(hexp (bidir_word hb).1 v1).1 hx, ⟨v2, sd, log, h1, by rw [← e4, a2], h2⟩, e4 ▸ lead⟩⟩
  · rintro ⟨b, hb, ⟨⟨v1, sd, log, h1, h2, h3⟩, hn, lead⟩ | ⟨hn, ⟨v1, sd, log, h1, h2, h3⟩, lead⟩⟩
    · refine ⟨log, (mem_toLog hw).2 ⟨sd, h1, h3⟩, ?_⟩
      have ha : S.armFor nm m.disc (nm.camel log) = some b.link1 := armFor_iff.2 ⟨(mentions_of_bLinkNames hw hc).2 ⟨b, hb, Or.inl ⟨v1, rfl⟩⟩, h2.symm,
        fun k' hk' e => lead k' ((mentions_of_bLinkNames hw hc).1 hk') (e.trans h2)⟩
      simp only [mirrorsOfLogC, ha, List.mem_flatMap]
      refine ⟨(m'.disc, b.link2), mem_bLinks.2 ⟨⟨m.disc, b.link1, m'.disc, b.link2⟩, mem_expandedBidirs.2 ⟨b, hb, ?_, rfl, ?_, rfl⟩,
        Or.inl ⟨rfl, rfl, rfl⟩⟩, (hexp (bidir_word hb).2 hn.1).2 hn⟩
      · exact (mem_expandVar' hw hc hb _).1.2 v1
      · exact (mem_expandVar' hw hc hb _).2.2 hn.1
    · refine ⟨log, (mem_toLog hw).2 ⟨sd, h1, h3⟩, ?_⟩
      have ha : S.armFor nm m.disc (nm.camel log) = some b.link2 := armFor_iff.2 ⟨(mentions_of_bLinkNames hw hc).2 ⟨b, hb, Or.inr ⟨v1, rfl⟩⟩, h2.symm,
        fun k' hk' e => lead k' ((mentions_of_bLinkNames hw hc).1 hk') (e.trans h2)⟩
      simp only [mirrorsOfLogC, ha, List.mem_flatMap]
      refine ⟨(m'.disc, b.link1), mem_bLinks.2 ⟨⟨m'.disc, b.link1, m.disc, b.link2⟩, mem_expandedBidirs.2 ⟨b, hb, ?_, rfl, ?_, rfl⟩,
        Or.inr ⟨rfl, rfl, rfl⟩⟩, (hexp (bidir_word hb).1 hn.1).2 hn⟩
      · exact (mem_expandVar' hw hc hb _).1.2 hn.1
      · exact (mem_expandVar' hw hc hb _).2.2 v1

end Schema

namespace Spec.Respelled

theorem named (h : Respelled nm S S') (hw : WellNamed S) : WellNamed S' := by
  obtain ⟨h1, h2, h3, h4, h5, h6, h7⟩ := hw
  have e : S'.discs = S.discs := by simp only [Schema.discs, h.variants]
  exact ⟨by rw [e]; exact h1, by rw [h.groups]; exact h2, by rw [h.groups, e]; exact h3, by rw [h.variants]; exact h4, by rw [h.variants]; exact h5,
    by rw [h.variants]; exact h6, by rw [h.variants]; exact h7⟩

theorem struct? (h : Respelled nm S S') (d : Ident) : S'.struct? d = S.struct? d := by simp only [Schema.struct?, h.variants]

theorem expandVar (h : Respelled nm S S') (v : Ident) : S'.expandVar v = S.expandVar v := by simp only [Schema.expandVar, Schema.group?, h.groups]

/-- A variant is not the name of a group. -/
theorem _root_.TTGraph.Schema.expandVar_disc_self (hw : WellNamed S) {d : Ident} (hd : d ∈ S.discs) : S.expandVar d = [d] := by
  simp only [Schema.expandVar]
  cases hg : S.group? d with
  | none => rfl
  | some ds => exact absurd hd (hw.groupVar d ds ((Schema.group?_iff hw).1 hg))

theorem expandedBidirs (h : Respelled nm S S') (hw : WellNamed S) {e : BidirDecl} : e ∈ S'.expandedBidirs ↔ e ∈ S'.bidirs := by
  rw [Schema.mem_expandedBidirs]
  have key : ∀ b ∈ S'.bidirs, S'.expandVar b.var1 = [b.var1] ∧ S'.expandVar b.var2 = [b.var2] := fun b hb => by
    obtain ⟨_, _, h1, _, h2, _⟩ := (h.bidirs b).1 hb
    rw [h.expandVar, h.expandVar]
    exact ⟨Schema.expandVar_disc_self hw h1.disc, Schema.expandVar_disc_self hw h2.disc⟩
  constructor
  · rintro ⟨b, hb, h1, h2, h3, h4⟩
    rw [(key b hb).1, List.mem_singleton] at h1
    rw [(key b hb).2, List.mem_singleton] at h3
    have : e = b := by cases e; cases b; simp_all
    rwa [this]
  · intro he
    exact ⟨e, he, by rw [(key e he).1]; simp, rfl, by rw [(key e he).2]; simp, rfl⟩

theorem mem_bLinks (h : Respelled nm S S') (hw : WellNamed S) {d k : Ident} {q : Ident × Ident} :
    q ∈ S'.bLinks d k ↔ ∃ b ∈ S.bidirs,
      (VarNames S b.var1 d ∧ Spells nm S d b.link1 k ∧ VarNames S b.var2 q.1 ∧ Spells nm S q.1 b.link2 q.2) ∨
      (VarNames S b.var2 d ∧ Spells nm S d b.link2 k ∧ VarNames S b.var1 q.1 ∧ Spells nm S q.1 b.link1 q.2) := by
  rw [Schema.mem_bLinks]
  constructor
  · rintro ⟨e, he, h1⟩
    obtain ⟨b, hb, h2, h3, h4, h5⟩ := (h.bidirs e).1 ((h.expandedBidirs hw).1 he)
    rcases h1 with ⟨rfl, rfl, rfl⟩ | ⟨rfl, rfl, rfl⟩
    · exact ⟨b, hb, Or.inl ⟨h2, h3, h4, h5⟩⟩
    · exact ⟨b, hb, Or.inr ⟨h4, h5, h2, h3⟩⟩
  · rintro ⟨b, hb, ⟨h2, h3, h4, h5⟩ | ⟨h2, h3, h4, h5⟩⟩
    · exact ⟨⟨d, k, q.1, q.2⟩, (h.expandedBidirs hw).2 ((h.bidirs _).2 ⟨b, hb, h2, h3, h4, h5⟩), Or.inl ⟨rfl, rfl, rfl⟩⟩
    · exact ⟨⟨q.1, q.2, d, k⟩, (h.expandedBidirs hw).2 ((h.bidirs _).2 ⟨b, hb, h4, h5, h2, h3⟩), Or.inr ⟨rfl, rfl, rfl⟩⟩

theorem bLinks (h : Respelled nm S S') (hw : WellNamed S) (hc : S.Compiles nm) (hne : NoEmpty nm S) (ho : OneSpelling nm S) {d l k : Ident}
    (hl : LineUses S d l) (hk : Spells nm S d l k) :
    ((S.bLinks d l).map fun p => (p.1, S.spell nm p.1 p.2)).Perm (S'.bLinks d k) := by
  refine (List.perm_ext_iff_of_nodup ?_ (List.nodup_dedup _)).2 fun q => ?_
  · refine List.Nodup.map_on ?_ (List.nodup_dedup _)
    rintro ⟨d1, l1⟩ h1 ⟨d2, l2⟩ h2 he
    have m1 := Schema.mentions_of_bLinks hw hc h1
    have m2 := Schema.mentions_of_bLinks hw hc h2
    obtain ⟨k1, s1⟩ := Schema.mentions_spells hw hc hne m1
    obtain ⟨k2, s2⟩ := Schema.mentions_spells hw hc hne m2
    simp only [Prod.mk.injEq] at he s1 s2 m1 m2 ⊢
    obtain ⟨rfl, he⟩ := he
    rw [Schema.spell_eq hw hc s1, Schema.spell_eq hw hc s2] at he
    subst he
    obtain ⟨_, _, _, e1⟩ := s1
    obtain ⟨_, _, _, e2⟩ := s2
    exact ⟨rfl, ho _ _ _ m1 m2 (e1.trans e2.symm)⟩
  · show _ ↔ q ∈ S'.bLinks d k
    rw [h.mem_bLinks hw, List.mem_map]
    have same : ∀ l', LineUses S d l' → Spells nm S d l' k → l' = l := fun l' hl' hs => by
      obtain ⟨_, _, _, e1⟩ := hs
      obtain ⟨_, _, _, e2⟩ := hk
      exact ho _ _ _ hl' hl (e1.trans e2.symm)
    constructor
    · rintro ⟨p, hp, rfl⟩
      obtain ⟨k2, s2⟩ := Schema.mentions_spells hw hc hne (Schema.mentions_of_bLinks hw hc hp)
      simp only [Schema.spell_eq hw hc s2]
      obtain ⟨e, he, h1⟩ := Schema.mem_bLinks.1 hp
      obtain ⟨b, hb, h2, h3, h4, h5⟩ := Schema.mem_expandedBidirs.1 he
      have hv := fun d => Schema.mem_expandVar' hw hc hb d
      rcases h1 with ⟨rfl, rfl, rfl⟩ | ⟨rfl, rfl, rfl⟩
      · exact ⟨b, hb, Or.inl ⟨(hv _).1.1 h2, h3 ▸ hk, (hv _).2.1 h4, h5 ▸ s2⟩⟩
      · exact ⟨b, hb, Or.inr ⟨(hv _).2.1 h4, h5 ▸ hk, (hv _).1.1 h2, h3 ▸ s2⟩⟩
    · rintro ⟨b, hb, ⟨h2, h3, h4, h5⟩ | ⟨h2, h3, h4, h5⟩⟩
      · have el := same _ ⟨b, hb, Or.inl ⟨h2, rfl⟩⟩ h3
        refine ⟨(q.1, b.link2), Schema.mem_bLinks.2 ⟨⟨d, b.link1, q.1, b.link2⟩, Schema.mem_expandedBidirs.2 ⟨b, hb, ?_, rfl, ?_, rfl⟩, Or.inl ⟨rfl, el, rfl⟩⟩, ?_⟩
        · exact (Schema.mem_expandVar' hw hc hb _).1.2 h2
        · exact (Schema.mem_expandVar' hw hc hb _).2.2 h4
        · simp only [Schema.spell_eq hw hc h5]
      · have el := same _ ⟨b, hb, Or.inr ⟨h2, rfl⟩⟩ h3
        refine ⟨(q.1, b.link1), Schema.mem_bLinks.2 ⟨⟨q.1, b.link1, d, b.link2⟩, Schema.mem_expandedBidirs.2 ⟨b, hb, ?_, rfl, ?_, rfl⟩, Or.inr ⟨rfl, el, rfl⟩⟩, ?_⟩
        · exact (Schema.mem_expandVar' hw hc hb _).1.2 h4
        · exact (Schema.mem_expandVar' hw hc hb _).2.2 h2
        · simp only [Schema.spell_eq hw hc h5]

theorem mirrorsOf (h : Respelled nm S S') (hw : WellNamed S) (hc : S.Compiles nm) (hne : NoEmpty nm S) (ho : OneSpelling nm S) (m : Mirror) :
    (S.mirrorsOfC nm m).Perm (S'.mirrorsOf m) := by
  have hl : S'.toLog m = S.toLog m := by simp only [Schema.toLog, h.struct?]
  simp only [Schema.mirrorsOfC, Schema.mirrorsOf, hl]
  refine List.Perm.flatMap_left _ fun log hlog => ?_
  obtain ⟨sd, h1, h2⟩ := Schema.toLog_declares hw hlog
  simp only [Schema.mirrorsOfLogC, Schema.mirrorsOfLog]
  by_cases hk : ∃ k, LineUses S m.disc k ∧ nm.camel k = nm.camel log
  · obtain ⟨k, hk1, hk2⟩ := hk
    rw [Schema.armFor_some ((Schema.mentions_of_bLinkNames hw hc).2 hk1) hk2 fun k' hk' he =>
      ho _ _ _ ((Schema.mentions_of_bLinkNames hw hc).1 hk') hk1 (he.trans hk2.symm)]
    refine List.Perm.trans (.of_eq ?_) ((h.bLinks hw hc hne ho hk1 ⟨sd, h1, h2, hk2⟩).flatMap_right _)
    rw [List.flatMap_map]
    refine List.flatMap_congr fun p hp => ?_
    obtain ⟨k2, s2⟩ := Schema.mentions_spells hw hc hne (Schema.mentions_of_bLinks hw hc hp)
    simp only [Schema.spell_eq hw hc s2, Schema.expandLogC, Schema.expandLog, h.struct?]
    obtain ⟨sd2, s3, s4, s5⟩ := s2
    rw [(Schema.struct?_iff hw).2 s3]
    simp only
    rw [Schema.logToLinksC_eq s4 s5.symm fun l hl he => Schema.camel_inj hc s3 hl s4 (he.trans s5)]
  · rw [Schema.armFor_none fun k hk' he => hk ⟨k, (Schema.mentions_of_bLinkNames hw hc).1 hk', he⟩]
    have : S'.bLinks m.disc log = [] := List.eq_nil_iff_forall_not_mem.2 fun p hp => by
      obtain ⟨b, hb, ⟨v1, ⟨_, _, _, e⟩, _⟩ | ⟨v1, ⟨_, _, _, e⟩, _⟩⟩ := (h.mem_bLinks hw).1 hp
      · exact hk ⟨_, ⟨b, hb, Or.inl ⟨v1, rfl⟩⟩, e⟩
      · exact hk ⟨_, ⟨b, hb, Or.inr ⟨v1, rfl⟩⟩, e⟩
    rw [this]; exact .nil

theorem checkLinkType (h : Respelled nm S S') (hw : WellNamed S) (d : Ident) (m : Mirror) :
    S.checkLinkTypeC nm d m = S'.checkLinkType d m := by
  have hl : S'.toLog m = S.toLog m := by simp only [Schema.toLog, h.struct?]
  have key : ∀ log ∈ S.toLog m, S.checkLinkTypeByLogC nm d m.disc (nm.camel log) = S'.checkLinkTypeByLog d m.disc log := by
    intro log hlog
    obtain ⟨sd, h1, h2⟩ := Schema.toLog_declares hw hlog
    have hdisc : m.disc ∈ S.discs := Schema.mem_discs.2 ⟨sd, h1⟩
    have hm : ∀ vs, vs ∈ (S.expandedAnnos.filter (fun a => a.var = m.disc ∧ nm.camel a.link = nm.camel log)).map TypeAnno.var2 ↔
        vs ∈ (S'.expandedAnnos.filter (fun a => a.var = m.disc ∧ a.link = log)).map TypeAnno.var2 := by
      intro vs
      simp only [List.mem_map, List.mem_filter, Schema.mem_expandedAnnos, decide_eq_true_eq,
        show S'.expandVar = S.expandVar from funext h.expandVar]
      constructor
      · rintro ⟨e, ⟨⟨a, ha, e1, e2, e3⟩, e4, e5⟩, rfl⟩
        refine ⟨⟨m.disc, log, e.var2⟩, ⟨⟨⟨m.disc, log, a.var2⟩, (h.annos _).2 ⟨a, ha, ?_, ?_, rfl⟩, ?_, rfl, e3⟩, rfl, rfl⟩, rfl⟩
        · exact (Schema.mem_expandVar hw).1 ⟨e4 ▸ e1, hdisc⟩
        · exact ⟨sd, h1, h2, e2 ▸ e5⟩
        · rw [Schema.expandVar_disc_self hw hdisc]; simp
      · rintro ⟨e, ⟨⟨a', ha', e1, e2, e3⟩, e4, e5⟩, rfl⟩
        obtain ⟨a, ha, v1, ⟨sd', s1, s2, s3⟩, v3⟩ := (h.annos a').1 ha'
        rw [Schema.expandVar_disc_self hw v1.disc, List.mem_singleton] at e1
        refine ⟨⟨m.disc, a.link, e.var2⟩, ⟨⟨a, ha, ?_, rfl, ?_⟩, rfl, ?_⟩, rfl⟩
        · rw [← e4, e1]; exact ((Schema.mem_expandVar hw).2 v1).1
        · rw [e3, v3]
        · rw [s3, ← e2, e5]
    unfold Schema.checkLinkTypeByLogC Schema.checkLinkTypeByLog
    rw [Schema.lexMin_congr hm]
    generalize Schema.lexMin _ = o
    cases o <;> rfl
  rw [Bool.eq_iff_iff, Schema.checkLinkTypeC, Schema.checkLinkType, List.all_eq_true, List.all_eq_true, hl]
  exact ⟨fun h log hl => key log hl ▸ h log hl, fun h log hl => (key log hl).symm ▸ h log hl⟩

end Spec.Respelled

/-- Every line written out, with the declared names. -/
def Schema.respell (nm : Naming) (S : Schema) : Schema :=
  { S with
    bidirs := S.expandedBidirs.map fun e => ⟨e.var1, S.spell nm e.var1 e.link1, e.var2, S.spell nm e.var2 e.link2⟩
    annos := S.annos.flatMap fun a => ((S.expandVar a.var).filter (· ∈ S.discs)).map fun v => ⟨v, S.spell nm v a.link, a.var2⟩ }

theorem Schema.respelled (hw : WellNamed S) (hc : S.Compiles nm) (hne : NoEmpty nm S) : Respelled nm S (S.respell nm) where
  variants := rfl
  groups := rfl
  bidirs := by
    intro b'
    simp only [Schema.respell, List.mem_map, Schema.mem_expandedBidirs]
    constructor
    · rintro ⟨e, ⟨b, hb, h1, h2, h3, h4⟩, rfl⟩
      have v1 := (Schema.mem_expandVar' hw hc hb _).1.1 h1
      have v2 := (Schema.mem_expandVar' hw hc hb _).2.1 h3
      obtain ⟨k1, s1⟩ := Schema.mentions_spells hw hc hne ⟨b, hb, Or.inl ⟨v1, rfl⟩⟩
      obtain ⟨k2, s2⟩ := Schema.mentions_spells hw hc hne ⟨b, hb, Or.inr ⟨v2, rfl⟩⟩
      refine ⟨b, hb, v1, ?_, v2, ?_⟩
      · simp only [h2, Schema.spell_eq hw hc s1]; exact s1
      · simp only [h4, Schema.spell_eq hw hc s2]; exact s2
    · rintro ⟨b, hb, v1, s1, v2, s2⟩
      refine ⟨⟨b'.var1, b.link1, b'.var2, b.link2⟩, ⟨b, hb, (Schema.mem_expandVar' hw hc hb _).1.2 v1, rfl, (Schema.mem_expandVar' hw hc hb _).2.2 v2, rfl⟩, ?_⟩
      simp only [Schema.spell_eq hw hc s1, Schema.spell_eq hw hc s2]
  annos := by
    intro a'
    simp only [Schema.respell, List.mem_flatMap, List.mem_map, List.mem_filter, decide_eq_true_eq]
    constructor
    · rintro ⟨a, ha, v, ⟨h1, h2⟩, rfl⟩
      refine ⟨a, ha, (Schema.mem_expandVar hw).1 ⟨h1, h2⟩, ?_, rfl⟩
      have hu : (⟨v, a.link, a.var2.flatMap S.expandVar⟩ : TypeAnno) ∈ S.usedAnnos := Schema.mem_usedAnnos.2 ⟨a, ha, h1, h2, rfl, rfl⟩
      obtain ⟨k, s⟩ := Schema.spells_of_resolves hne (Schema.anno_word ha) (hc.2.2.2.2.2.2.2 _ hu).1
      simp only [Schema.spell_eq hw hc s]; exact s
    · rintro ⟨a, ha, v1, s1, e⟩
      refine ⟨a, ha, a'.var, (Schema.mem_expandVar hw).2 v1, ?_⟩
      rw [Schema.spell_eq hw hc s1, ← e]

end TTGraph
