import Verif.Lemmas.Commit

/-!
# The generated tables against the declarations
-/

set_option autoImplicit false

namespace TTGraph

open Spec

namespace Schema
variable {S : Schema}

theorem find?_fst {α : Type} {l : List (Ident × α)} (hn : (l.map Prod.fst).Nodup) {v : Ident} {x : α} :
    (l.find? (fun g => g.1 = v)).map Prod.snd = some x ↔ (v, x) ∈ l := by
  induction l with
  | nil => simp
  | cons p l ih =>
    simp only [List.map_cons, List.nodup_cons] at hn
    rw [List.find?_cons]
    by_cases hp : p.1 = v
    · subst hp
      simp only [decide_true, Option.map_some, Option.some.injEq, List.mem_cons]
      constructor
      · rintro rfl; exact Or.inl rfl
      · rintro (e | e)
        · rw [← e]
        · exact absurd (List.mem_map_of_mem (f := Prod.fst) e) hn.1
    · simp only [hp, decide_false, List.mem_cons]
      rw [ih hn.2]
      constructor
      · exact Or.inr
      · rintro (e | e)
        · exact absurd (by rw [← e]) hp
        · exact e

theorem struct?_iff (h : WellNamed S) {d : Ident} {sd : StructDecl} : S.struct? d = some sd ↔ (d, sd) ∈ S.variants := find?_fst h.variants

theorem mem_discs {d : Ident} : d ∈ S.discs ↔ ∃ sd, (d, sd) ∈ S.variants := by
  simp [discs]

theorem group?_iff (h : WellNamed S) {v : Ident} {ds : List Ident} : S.group? v = some ds ↔ (v, ds) ∈ S.groups := by
  simp only [group?]
  rw [find?_fst (by rw [List.map_reverse]; exact List.nodup_reverse.2 h.groups)]
  simp

theorem mem_expandVar (h : WellNamed S) {v d : Ident} : d ∈ S.expandVar v ∧ d ∈ S.discs ↔ VarNames S v d := by
  simp only [expandVar, VarNames]
  cases hg : S.group? v with
  | none =>
    have hno : ∀ ds, (v, ds) ∉ S.groups := fun ds hds => by
      rw [(group?_iff h).2 hds] at hg; exact absurd hg (by simp)
    constructor
    · rintro ⟨h1, h2⟩
      simp at h1
      exact Or.inl ⟨h1.symm, h2⟩
    · rintro (⟨rfl, h2⟩ | ⟨ds, hds, _⟩)
      · exact ⟨by simp, h2⟩
      · exact absurd hds (hno ds)
  | some ds =>
    have hm := (group?_iff h).1 hg
    constructor
    · rintro ⟨h1, h2⟩
      exact Or.inr ⟨ds, hm, h1, h2⟩
    · rintro (⟨rfl, h2⟩ | ⟨ds', hds, h1, h2⟩)
      · exact absurd h2 (h.groupVar _ _ hm)
      · have := (group?_iff h).2 hds
        rw [hg] at this
        simp only [Option.some.injEq] at this
        subst this
        exact ⟨h1, h2⟩

end Schema

namespace StructDecl
variable {sd : StructDecl}

theorem groupsVec_eq (h : ∀ f ∈ sd.fields, f.groupAttrs.length ≤ 1) : sd.groupsVec = sd.links.map (fun f => f.groupAttrs.flatten) := by
  simp only [groupsVec, links]
  generalize sd.fields = l at h
  induction l with
  | nil => rfl
  | cons f l ih =>
    rw [List.flatMap_cons, ih (fun g hg => h g (by simp [hg])), List.filter_cons]
    by_cases hf : f.isLink
    · simp only [hf, if_true, List.map_cons]
      have h1 := h f (by simp)
      cases ha : f.groupAttrs with
      | nil => simp
      | cons a as =>
        rw [ha] at h1
        have : as = [] := by simpa using h1
        subst this
        simp
    · simp [hf]

theorem mem_toLog (h : ∀ f ∈ sd.fields, f.groupAttrs.length ≤ 1) {log : Ident} {pos : Nat} : log ∈ sd.toLog pos ↔ FieldNames sd log pos := by
  simp only [toLog, groupsVec_eq h, linkNames, FieldNames, List.zip_map', List.getElem?_map]
  cases hp : sd.links[pos]? with
  | none => simp
  | some f => simp [eq_comm]

theorem linkNames_nodup (h : (sd.fields.map FieldDecl.name).Nodup) : sd.linkNames.Nodup := by
  simp only [linkNames, links]
  exact h.sublist (List.filter_sublist.map _)

theorem links_mem {pos : Nat} {f : FieldDecl} (h : sd.links[pos]? = some f) : f ∈ sd.fields ∧ f.isLink = true := by
  have := List.mem_of_getElem? h
  simpa [links] using this

theorem linkPos_iff (h : (sd.fields.map FieldDecl.name).Nodup) {log : Ident} {pos : Nat} :
    sd.linkPos log = some pos ↔ ∃ f, sd.links[pos]? = some f ∧ f.name = log := by
  have hn := linkNames_nodup h
  simp only [linkPos]
  rw [List.idxOf?_eq_some_iff]
  constructor
  · rintro ⟨hl, h1, _⟩
    simp only [linkNames, List.length_map] at hl
    refine ⟨sd.links[pos], List.getElem?_eq_getElem hl, ?_⟩
    simpa [linkNames] using h1
  · rintro ⟨f, h1, rfl⟩
    obtain ⟨hl, h2⟩ := List.getElem?_eq_some_iff.1 h1
    have hl' : pos < sd.linkNames.length := by simpa [linkNames] using hl
    have hv : sd.linkNames[pos] = f.name := by simp [linkNames, h2]
    refine ⟨hl', hv, ?_⟩
    intro j hj
    rw [← hv]
    intro e
    have := (List.Nodup.getElem_inj_iff hn).1 e
    omega

theorem mem_groupMembers {g x : Ident} : x ∈ sd.groupMembers g ↔ ∃ f ∈ sd.fields, f.isLink = true ∧ (∃ gs ∈ f.groupAttrs, g ∈ gs) ∧ f.name = x := by
  simp only [groupMembers, List.mem_flatMap]
  constructor
  · rintro ⟨f, hf, hx⟩
    by_cases hl : f.isLink
    · simp only [hl, if_true, List.mem_map, List.mem_filter, List.mem_flatten, decide_eq_true_eq] at hx
      obtain ⟨y, ⟨⟨gs, h1, h2⟩, rfl⟩, rfl⟩ := hx
      exact ⟨f, hf, hl, ⟨gs, h1, h2⟩, rfl⟩
    · simp [hl] at hx
  · rintro ⟨f, hf, hl, ⟨gs, h1, h2⟩, rfl⟩
    refine ⟨f, hf, ?_⟩
    simp only [hl, if_true, List.mem_map, List.mem_filter, List.mem_flatten]
    exact ⟨g, ⟨⟨gs, h1, h2⟩, by simp⟩, by simp⟩

theorem mem_logToLinks (h : (sd.fields.map FieldDecl.name).Nodup)
    (hg : ∀ f ∈ sd.fields, ∀ gs ∈ f.groupAttrs, ∀ g ∈ gs, g ∉ sd.linkNames) {log : Ident} {pos : Nat} :
    pos ∈ sd.logToLinks log ↔ FieldNames sd log pos := by
  simp only [logToLinks, FieldNames]
  cases hp : sd.linkPos log with
  | some p =>
    obtain ⟨f, hf, hfn⟩ := (linkPos_iff h).1 hp
    simp only [List.mem_singleton]
    constructor
    · rintro rfl
      exact ⟨f, hf, Or.inl hfn⟩
    · rintro ⟨f', hf', e | ⟨gs, h1, h2⟩⟩
      · have := (linkPos_iff h).2 ⟨f', hf', e⟩
        rw [hp] at this
        simpa using this.symm
      · refine absurd ?_ (hg f' (links_mem hf').1 gs h1 log h2)
        exact List.mem_map.2 ⟨f, List.mem_of_getElem? hf, hfn⟩
  | none =>
    simp only [List.mem_filterMap, mem_groupMembers]
    constructor
    · rintro ⟨x, ⟨f, hf, hl, hgs, rfl⟩, hx⟩
      obtain ⟨f', hf', hn⟩ := (linkPos_iff h).1 hx
      have : f' = f := by
        have := List.inj_on_of_nodup_map h (links_mem hf').1 hf hn
        exact this
      subst this
      exact ⟨f', hf', Or.inr hgs⟩
    · rintro ⟨f, hf, e | hgs⟩
      · rw [(linkPos_iff h).2 ⟨f, hf, e⟩] at hp
        exact absurd hp (by simp)
      · exact ⟨f.name, ⟨f, (links_mem hf).1, (links_mem hf).2, hgs, rfl⟩, (linkPos_iff h).2 ⟨f, hf, rfl⟩⟩

end StructDecl

namespace Schema
variable {S : Schema}

theorem mem_toLog (h : WellNamed S) {m : Mirror} {log : Ident} :
    log ∈ S.toLog m ↔ ∃ sd, (m.disc, sd) ∈ S.variants ∧ FieldNames sd log m.pos := by
  simp only [toLog]
  cases hs : S.struct? m.disc with
  | none =>
    simp only [List.not_mem_nil, false_iff]
    rintro ⟨sd, hm, _⟩
    rw [(struct?_iff h).2 hm] at hs
    exact absurd hs (by simp)
  | some sd =>
    have hm := (struct?_iff h).1 hs
    simp only
    rw [StructDecl.mem_toLog (h.oneAttr _ _ hm)]
    constructor
    · intro hf; exact ⟨sd, hm, hf⟩
    · rintro ⟨sd', hm', hf⟩
      have := (struct?_iff h).2 hm'
      rw [hs] at this
      simp only [Option.some.injEq] at this
      subst this
      exact hf

theorem mem_expandLog (h : WellNamed S) {d log : Ident} {m : Mirror} :
    m ∈ S.expandLog d log ↔ m.disc = d ∧ ∃ sd, (m.disc, sd) ∈ S.variants ∧ FieldNames sd log m.pos := by
  simp only [expandLog]
  cases hs : S.struct? d with
  | none =>
    simp only [List.not_mem_nil, false_iff]
    rintro ⟨rfl, sd, hm, _⟩
    rw [(struct?_iff h).2 hm] at hs
    exact absurd hs (by simp)
  | some sd =>
    have hm := (struct?_iff h).1 hs
    simp only [List.mem_map]
    constructor
    · rintro ⟨p, hp, rfl⟩
      exact ⟨rfl, sd, hm, (StructDecl.mem_logToLinks (h.fields _ _ hm) (h.linkGroup _ _ hm)).1 hp⟩
    · rintro ⟨rfl, sd', hm', hf⟩
      have := (struct?_iff h).2 hm'
      rw [hs] at this
      simp only [Option.some.injEq] at this
      subst this
      exact ⟨m.pos, (StructDecl.mem_logToLinks (h.fields _ _ hm) (h.linkGroup _ _ hm)).2 hf, rfl⟩

theorem mem_expandedBidirs {e : BidirDecl} : e ∈ S.expandedBidirs ↔ ∃ l ∈ S.bidirs, e.var1 ∈ S.expandVar l.var1 ∧ e.link1 = l.link1 ∧
    e.var2 ∈ S.expandVar l.var2 ∧ e.link2 = l.link2 := by
  simp only [expandedBidirs, List.mem_flatMap, List.mem_map]
  constructor
  · rintro ⟨l, hl, v1, h1, v2, h2, rfl⟩
    exact ⟨l, hl, h1, rfl, h2, rfl⟩
  · rintro ⟨l, hl, h1, h2, h3, h4⟩
    refine ⟨l, hl, e.var1, h1, e.var2, h3, ?_⟩
    cases e; simp_all

theorem mem_bLinks {v l : Ident} {p : Ident × Ident} : p ∈ S.bLinks v l ↔ ∃ e ∈ S.expandedBidirs,
    (e.var1 = v ∧ e.link1 = l ∧ p = (e.var2, e.link2)) ∨ (e.var2 = v ∧ e.link2 = l ∧ p = (e.var1, e.link1)) := by
  simp only [bLinks, List.mem_dedup, List.mem_flatMap, List.mem_append]
  constructor
  · rintro ⟨e, he, h | h⟩
    · split at h
      · rename_i hc; exact ⟨e, he, Or.inl ⟨hc.1, hc.2, by simpa using h⟩⟩
      · simp at h
    · split at h
      · rename_i hc; exact ⟨e, he, Or.inr ⟨hc.1, hc.2, by simpa using h⟩⟩
      · simp at h
  · rintro ⟨e, he, ⟨h1, h2, rfl⟩ | ⟨h1, h2, rfl⟩⟩
    · exact ⟨e, he, Or.inl (by simp [h1, h2])⟩
    · exact ⟨e, he, Or.inr (by simp [h1, h2])⟩

theorem mem_mirrorsOf (h : WellNamed S) {m m' : Mirror} : m' ∈ S.mirrorsOf m ↔ Opposite S m m' := by
  have hdisc : ∀ {m : Mirror} {log : Ident}, (∃ sd, (m.disc, sd) ∈ S.variants ∧ FieldNames sd log m.pos) → m.disc ∈ S.discs := by
    rintro m log ⟨sd, hm, _⟩; exact mem_discs.2 ⟨sd, hm⟩
  have hvar : ∀ {v : Ident} {m : Mirror} {log : Ident}, (∃ sd, (m.disc, sd) ∈ S.variants ∧ FieldNames sd log m.pos) →
      (m.disc ∈ S.expandVar v ↔ VarNames S v m.disc) := by
    intro v m log hs
    rw [← mem_expandVar h]
    exact ⟨fun h1 => ⟨h1, hdisc hs⟩, fun h1 => h1.1⟩
  simp only [mirrorsOf, mirrorsOfLog, List.mem_flatMap, mem_toLog h, mem_bLinks, mem_expandedBidirs, mem_expandLog h]
  simp only [Opposite, Names]
  constructor
  · rintro ⟨log, hm, p, ⟨e, ⟨l, hl, e1, e2, e3, e4⟩, hp⟩, hd, hm'⟩
    refine ⟨l, hl, ?_⟩
    rcases hp with ⟨h1, h2, rfl⟩ | ⟨h1, h2, rfl⟩
    · left
      simp only at hd hm'
      subst h2
      rw [e2] at hm
      rw [e4] at hm'
      refine ⟨⟨(hvar hm).1 (h1 ▸ e1), hm⟩, ⟨(hvar hm').1 (hd ▸ e3), hm'⟩⟩
    · right
      simp only at hd hm'
      subst h2
      rw [e4] at hm
      rw [e2] at hm'
      refine ⟨⟨(hvar hm').1 (hd ▸ e1), hm'⟩, ⟨(hvar hm).1 (h1 ▸ e3), hm⟩⟩
  · rintro ⟨l, hl, ⟨⟨h1, h2⟩, h3, h4⟩ | ⟨⟨h3, h4⟩, h1, h2⟩⟩
    · refine ⟨l.link1, h2, (m'.disc, l.link2), ⟨⟨m.disc, l.link1, m'.disc, l.link2⟩, ⟨l, hl, (hvar h2).2 h1, rfl, (hvar h4).2 h3, rfl⟩,
        Or.inl ⟨rfl, rfl, rfl⟩⟩, rfl, h4⟩
    · refine ⟨l.link2, h2, (m'.disc, l.link1), ⟨⟨m'.disc, l.link1, m.disc, l.link2⟩, ⟨l, hl, (hvar h4).2 h3, rfl, (hvar h2).2 h1, rfl⟩,
        Or.inr ⟨rfl, rfl, rfl⟩⟩, rfl, h4⟩

theorem mem_opposites_iff (h : WellNamed S) {m m' : Mirror} {d : Ident} : m' ∈ S.opposites m d ↔ Opposite S m m' ∧ m'.disc = d := by
  rw [mem_opposites, mem_mirrorsOf h]

end Schema

namespace Spec

theorem Opposite.symm {S : Schema} {m m' : Mirror} (h : Opposite S m m') : Opposite S m' m := by
  obtain ⟨l, hl, h | h⟩ := h
  · exact ⟨l, hl, Or.inr h⟩
  · exact ⟨l, hl, Or.inl h⟩

theorem NoVec.noVecBd {S : Schema} (hw : WellNamed S) (h : NoVec S) : S.NoVecBd := by
  intro m m' hm
  exact h m' m ((Schema.mem_mirrorsOf hw).1 hm).symm

end Spec

namespace StructDecl
variable {sd : StructDecl}

theorem toLog_nodup (h : ∀ f ∈ sd.fields, f.groupAttrs.length ≤ 1) (hg : ∀ f ∈ sd.fields, ∀ gs ∈ f.groupAttrs, ∀ g ∈ gs, g ∉ sd.linkNames)
    (ho : ∀ f ∈ sd.fields, ∀ gs ∈ f.groupAttrs, gs.Nodup) (pos : Nat) : (sd.toLog pos).Nodup := by
  simp only [toLog, groupsVec_eq h, linkNames, List.zip_map', List.getElem?_map]
  cases hp : sd.links[pos]? with
  | none => simp
  | some f =>
    obtain ⟨hf, _⟩ := links_mem hp
    simp only [Option.map_some, List.nodup_cons, List.mem_flatten, not_exists, not_and]
    constructor
    · intro gs hgs hn
      exact hg f hf gs hgs _ hn (List.mem_map_of_mem (List.mem_of_getElem? hp))
    · have h1 := h f hf
      cases ha : f.groupAttrs with
      | nil => simp
      | cons a as =>
        rw [ha] at h1
        have : as = [] := by simpa using h1
        subst this
        simpa using ho f hf a (by simp [ha])

theorem groupMembers_nodup (h : (sd.fields.map FieldDecl.name).Nodup) (h1 : ∀ f ∈ sd.fields, f.groupAttrs.length ≤ 1)
    (ho : ∀ f ∈ sd.fields, ∀ gs ∈ f.groupAttrs, gs.Nodup) (g : Ident) : (sd.groupMembers g).Nodup := by
  simp only [groupMembers]
  rw [List.nodup_flatMap]
  constructor
  · intro f hf
    split
    · have hl := h1 f hf
      have hfl : f.groupAttrs.flatten.Nodup := by
        cases ha : f.groupAttrs with
        | nil => simp
        | cons a as =>
          rw [ha] at hl
          have : as = [] := by simpa using hl
          subst this
          simpa using ho f hf a (by simp [ha])
      have hc := List.nodup_iff_count_le_one.1 hfl g
      have hrep : f.groupAttrs.flatten.filter (· = g) = List.replicate (f.groupAttrs.flatten.count g) g := by
        exact List.filter_eq g
      rw [hrep]
      rcases Nat.le_one_iff_eq_zero_or_eq_one.1 hc with e | e <;> rw [e] <;> simp
    · simp
  · have hp : sd.fields.Pairwise (fun a b => a.name ≠ b.name) := by
      rw [List.nodup_iff_pairwise_ne, List.pairwise_map] at h
      exact h
    refine hp.imp ?_
    intro a b hab
    simp only [Function.onFun, List.disjoint_left]
    intro x hx hx'
    split at hx
    · split at hx'
      · simp only [List.mem_map] at hx hx'
        obtain ⟨_, _, rfl⟩ := hx
        obtain ⟨_, _, e⟩ := hx'
        exact hab e.symm
      · simp at hx'
    · simp at hx

theorem logToLinks_nodup (h : (sd.fields.map FieldDecl.name).Nodup) (h1 : ∀ f ∈ sd.fields, f.groupAttrs.length ≤ 1)
    (ho : ∀ f ∈ sd.fields, ∀ gs ∈ f.groupAttrs, gs.Nodup) (log : Ident) : (sd.logToLinks log).Nodup := by
  simp only [logToLinks]
  split
  · simp
  · refine (groupMembers_nodup h h1 ho log).filterMap ?_
    intro a a' b hb hb'
    obtain ⟨f, hf, rfl⟩ := (linkPos_iff h).1 hb
    obtain ⟨f', hf', rfl⟩ := (linkPos_iff h).1 hb'
    rw [hf] at hf'
    simp only [Option.some.injEq] at hf'
    rw [hf']

end StructDecl

namespace Schema
variable {S : Schema}

theorem declares_of (h : WellNamed S) {m m' : Mirror} {log : Ident} {p : Ident × Ident} (h1 : log ∈ S.toLog m) (h2 : p ∈ S.bLinks m.disc log)
    (h3 : m' ∈ S.expandLog p.1 p.2) : m'.disc = p.1 ∧ DeclaresAs S m log p.2 m' := by
  have h1 := (mem_toLog h).1 h1
  have h3 := (mem_expandLog h).1 h3
  obtain ⟨hd, sd', hm', hf'⟩ := h3
  obtain ⟨sd, hm, hf⟩ := h1
  refine ⟨hd, ⟨sd, hm, hf⟩, ⟨sd', hm', hf'⟩, ?_⟩
  have d1 : m.disc ∈ S.discs := mem_discs.2 ⟨_, hm⟩
  have d2 : m'.disc ∈ S.discs := mem_discs.2 ⟨_, hm'⟩
  obtain ⟨e, he, hp⟩ := mem_bLinks.1 h2
  obtain ⟨l, hl, e1, e2, e3, e4⟩ := mem_expandedBidirs.1 he
  refine ⟨l, hl, ?_⟩
  rcases hp with ⟨a1, a2, rfl⟩ | ⟨a1, a2, rfl⟩
  · exact Or.inl ⟨(mem_expandVar h).1 ⟨a1 ▸ e1, d1⟩, by rw [← e2, a2], (mem_expandVar h).1 ⟨by rw [hd]; exact e3, d2⟩, e4.symm⟩
  · exact Or.inr ⟨(mem_expandVar h).1 ⟨by rw [hd]; exact e1, d2⟩, e2.symm, (mem_expandVar h).1 ⟨a1 ▸ e3, d1⟩, by rw [← e4, a2]⟩

/-- The list of opposites with the names under which they are declared. -/
def ways (S : Schema) (m : Mirror) : List (Ident × Ident × Mirror) :=
  (S.toLog m).flatMap fun log => (S.bLinks m.disc log).flatMap fun p => (S.expandLog p.1 p.2).map fun m' => (log, p.2, m')

theorem ways_mirrors (m : Mirror) : (S.ways m).map (fun w => w.2.2) = S.mirrorsOf m := by
  simp only [ways, mirrorsOf, mirrorsOfLog, List.map_flatMap, List.map_map, Function.comp_def, List.map_id']

theorem ways_declares (h : WellNamed S) {m : Mirror} {w : Ident × Ident × Mirror} (hw : w ∈ S.ways m) : DeclaresAs S m w.1 w.2.1 w.2.2 := by
  simp only [ways, List.mem_flatMap, List.mem_map] at hw
  obtain ⟨log, h1, p, h2, m', h3, rfl⟩ := hw
  exact (declares_of h h1 h2 h3).2

theorem expandLog_nodup (h : WellNamed S) (d log : Ident) : (S.expandLog d log).Nodup := by
  simp only [expandLog]
  cases hs : S.struct? d with
  | none => simp
  | some sd =>
    have hm := (struct?_iff h).1 hs
    exact (StructDecl.logToLinks_nodup (h.fields _ _ hm) (h.oneAttr _ _ hm) (h.groupOnce _ _ hm) log).map (by
      intro a b e; simpa using e)

theorem toLog_nodup (h : WellNamed S) (m : Mirror) : (S.toLog m).Nodup := by
  simp only [toLog]
  cases hs : S.struct? m.disc with
  | none => simp
  | some sd =>
    have hm := (struct?_iff h).1 hs
    exact StructDecl.toLog_nodup (h.oneAttr _ _ hm) (h.linkGroup _ _ hm) (h.groupOnce _ _ hm) _

theorem ways_nodup (h : WellNamed S) (m : Mirror) : (S.ways m).Nodup := by
  simp only [ways]
  rw [List.nodup_flatMap]
  constructor
  · intro log hlog
    rw [List.nodup_flatMap]
    refine ⟨fun p _ => (expandLog_nodup h _ _).map fun a b e => by simpa using e, ?_⟩
    have hnd : (S.bLinks m.disc log).Nodup := List.nodup_dedup _
    refine (List.nodup_iff_pairwise_ne.1 hnd).imp_of_mem ?_
    intro p p' hp hp' hne
    simp only [Function.onFun, List.disjoint_left, List.mem_map]
    rintro w ⟨m1, h1, rfl⟩ ⟨m2, h2, e⟩
    simp only [Prod.mk.injEq, true_and] at e
    obtain ⟨e1, rfl⟩ := e
    exact hne (Prod.ext ((declares_of h hlog hp h1).1.symm.trans (declares_of h hlog hp' h2).1) e1.symm)
  · refine (List.nodup_iff_pairwise_ne.1 (toLog_nodup h m)).imp_of_mem ?_
    intro log log' _ _ hne
    simp only [Function.onFun, List.disjoint_left, List.mem_flatMap, List.mem_map]
    rintro w ⟨p, _, m1, _, rfl⟩ ⟨p', _, m2, _, e⟩
    exact hne (by simpa using (congrArg Prod.fst e).symm)

/-- If the list of opposites has an entry, but is not of length 1, there are several ways. -/
theorem manyWays_of (h : WellNamed S) {m m1 : Mirror} {d : Ident} (h1 : m1 ∈ S.opposites m d) (h2 : ∀ m', S.opposites m d ≠ [m']) : ManyWays S m d := by
  have e : S.opposites m d = ((S.ways m).filter (fun w => w.2.2.disc = d)).map (fun w => w.2.2) := by
    rw [opposites, matchBd, ← ways_mirrors, List.filter_map]
    rfl
  have hn : ((S.ways m).filter (fun w => w.2.2.disc = d)).Nodup := (ways_nodup h m).filter _
  have hm : ∀ w ∈ (S.ways m).filter (fun w => w.2.2.disc = d), DeclaresAs S m w.1 w.2.1 w.2.2 ∧ w.2.2.disc = d := by
    intro w hw
    rw [List.mem_filter] at hw
    exact ⟨ways_declares h hw.1, by simpa using hw.2⟩
  match hl : (S.ways m).filter (fun w => w.2.2.disc = d) with
  | [] => rw [e, hl] at h1; exact absurd h1 (by simp)
  | [w] => exact absurd (by rw [e, hl]; rfl) (h2 w.2.2)
  | w1 :: w2 :: ws =>
    rw [hl] at hm hn
    obtain ⟨a1, a2⟩ := hm w1 (by simp)
    obtain ⟨b1, b2⟩ := hm w2 (by simp)
    refine ⟨_, _, _, _, _, _, a1, b1, a2, b2, fun hE => ?_⟩
    have : w1 = w2 := hE
    simp [this] at hn

theorem _root_.TTGraph.Spec.DeclaresAs.opposite {m m' : Mirror} {l l' : Ident} (h : DeclaresAs S m l l' m') : Opposite S m m' := by
  obtain ⟨h1, h2, b, hb, ⟨c1, rfl, c3, rfl⟩ | ⟨c1, rfl, c3, rfl⟩⟩ := h
  · exact ⟨b, hb, Or.inl ⟨⟨c1, h1⟩, c3, h2⟩⟩
  · exact ⟨b, hb, Or.inr ⟨⟨c1, h2⟩, c3, h1⟩⟩

/-- With one opposite per variant, declared once, there are not. -/
theorem not_manyWays (hw : WellNamed S) (ho : OneOpposite S) (hd : DeclaredOnce S) (m : Mirror) (d : Ident) : ¬ ManyWays S m d := by
  rintro ⟨l1, l1', m1, l2, l2', m2, a, b, ha, hb, hne⟩
  obtain rfl := ho m m1 m2 a.opposite b.opposite (ha.trans hb.symm)
  obtain ⟨⟨sd, hm, f1⟩, ⟨sd', hm', f1'⟩, c1⟩ := a
  obtain ⟨⟨sd2, hm2, f2⟩, ⟨sd2', hm2', f2'⟩, c2⟩ := b
  have e1 : sd2 = sd := by
    have a := (struct?_iff hw).2 hm; have b := (struct?_iff hw).2 hm2; rw [a] at b; simpa using b.symm
  have e2 : sd2' = sd' := by
    have a := (struct?_iff hw).2 hm'; have b := (struct?_iff hw).2 hm2'; rw [a] at b; simpa using b.symm
  subst e1; subst e2
  obtain ⟨e3, e4⟩ := hd _ _ _ _ _ _ _ _ _ _ hm hm' f1 f2 f1' f2' c1 c2
  exact hne (by rw [e3, e4])

theorem mirrorsOf_nodup (h : WellNamed S) (ho : DeclaredOnce S) (m : Mirror) : (S.mirrorsOf m).Nodup := by
  have hconn : ∀ {log : Ident} {p : Ident × Ident} {m' : Mirror}, log ∈ S.toLog m → p ∈ S.bLinks m.disc log → m' ∈ S.expandLog p.1 p.2 →
      (∃ sd, (m.disc, sd) ∈ S.variants ∧ FieldNames sd log m.pos) ∧ (m'.disc = p.1 ∧ ∃ sd, (m'.disc, sd) ∈ S.variants ∧ FieldNames sd p.2 m'.pos) ∧
      Connected S m.disc log m'.disc p.2 := by
    intro log p m' h1 h2 h3
    have h1 := (mem_toLog h).1 h1
    have h3 := (mem_expandLog h).1 h3
    refine ⟨h1, h3, ?_⟩
    obtain ⟨hd, sd', hm', _⟩ := h3
    obtain ⟨sd, hm, _⟩ := h1
    have d1 : m.disc ∈ S.discs := mem_discs.2 ⟨_, hm⟩
    have d2 : m'.disc ∈ S.discs := mem_discs.2 ⟨_, hm'⟩
    obtain ⟨e, he, hp⟩ := mem_bLinks.1 h2
    obtain ⟨l, hl, e1, e2, e3, e4⟩ := mem_expandedBidirs.1 he
    refine ⟨l, hl, ?_⟩
    rcases hp with ⟨a1, a2, rfl⟩ | ⟨a1, a2, rfl⟩
    · exact Or.inl ⟨(mem_expandVar h).1 ⟨a1 ▸ e1, d1⟩, by rw [← e2, a2], (mem_expandVar h).1 ⟨by rw [hd]; exact e3, d2⟩, e4.symm⟩
    · exact Or.inr ⟨(mem_expandVar h).1 ⟨by rw [hd]; exact e1, d2⟩, e2.symm, (mem_expandVar h).1 ⟨a1 ▸ e3, d1⟩, by rw [← e4, a2]⟩
  have huniq : ∀ {log log' : Ident} {p p' : Ident × Ident} {m' : Mirror}, log ∈ S.toLog m → p ∈ S.bLinks m.disc log → m' ∈ S.expandLog p.1 p.2 →
      log' ∈ S.toLog m → p' ∈ S.bLinks m.disc log' → m' ∈ S.expandLog p'.1 p'.2 → log = log' ∧ p = p' := by
    intro log log' p p' m' h1 h2 h3 h1' h2' h3'
    obtain ⟨⟨sd, hm, f1⟩, ⟨hd, sd', hm', f1'⟩, c1⟩ := hconn h1 h2 h3
    obtain ⟨⟨sd2, hm2, f2⟩, ⟨hd2, sd2', hm2', f2'⟩, c2⟩ := hconn h1' h2' h3'
    have e1 : sd2 = sd := by
      have a := (struct?_iff h).2 hm; have b := (struct?_iff h).2 hm2; rw [a] at b; simpa using b.symm
    have e2 : sd2' = sd' := by
      have a := (struct?_iff h).2 hm'; have b := (struct?_iff h).2 hm2'; rw [a] at b; simpa using b.symm
    subst e1; subst e2
    obtain ⟨e3, e4⟩ := ho _ _ _ _ _ _ _ _ _ _ hm hm' f1 f2 f1' f2' c1 c2
    refine ⟨e3, Prod.ext ?_ e4⟩
    rw [← hd, ← hd2]
  have hexp : ∀ d log, (S.expandLog d log).Nodup := by
    intro d log
    simp only [expandLog]
    cases hs : S.struct? d with
    | none => simp
    | some sd =>
      have hm := (struct?_iff h).1 hs
      exact (StructDecl.logToLinks_nodup (h.fields _ _ hm) (h.oneAttr _ _ hm) (h.groupOnce _ _ hm) log).map (by
        intro a b e; simpa using e)
  simp only [mirrorsOf]
  rw [List.nodup_flatMap]
  constructor
  · intro log hlog
    simp only [mirrorsOfLog]
    rw [List.nodup_flatMap]
    refine ⟨fun p _ => hexp _ _, ?_⟩
    have hnd : (S.bLinks m.disc log).Nodup := List.nodup_dedup _
    refine (List.nodup_iff_pairwise_ne.1 hnd).imp_of_mem ?_
    intro p p' hp hp' hne
    simp only [Function.onFun, List.disjoint_left]
    intro m' h1 h2
    exact hne (huniq hlog hp h1 hlog hp' h2).2
  · have hnd : (S.toLog m).Nodup := by
      simp only [toLog]
      cases hs : S.struct? m.disc with
      | none => simp
      | some sd =>
        have hm := (struct?_iff h).1 hs
        exact StructDecl.toLog_nodup (h.oneAttr _ _ hm) (h.linkGroup _ _ hm) (h.groupOnce _ _ hm) _
    refine (List.nodup_iff_pairwise_ne.1 hnd).imp_of_mem ?_
    intro log log' hp hp' hne
    simp only [Function.onFun, List.disjoint_left, mirrorsOfLog, List.mem_flatMap]
    rintro m' ⟨p, h1, h2⟩ ⟨p', h1', h2'⟩
    exact hne (huniq hp h1 h2 hp' h1' h2').1

theorem opposites_nodup (h : WellNamed S) (ho : DeclaredOnce S) (m : Mirror) (d : Ident) : (S.opposites m d).Nodup := by
  simp only [opposites, matchBd]
  exact (mirrorsOf_nodup h ho m).filter _

theorem opposites_single (h : WellNamed S) (ho : DeclaredOnce S) {m m' : Mirror} {d : Ident} (hm : OnlyOpposite S m d m') : S.opposites m d = [m'] := by
  have h1 : ∀ x ∈ S.opposites m d, x = m' := fun x hx => by
    have := (mem_opposites_iff h).1 hx
    exact hm.2.2 x this.1 this.2
  have h2 : m' ∈ S.opposites m d := (mem_opposites_iff h).2 ⟨hm.1, hm.2.1⟩
  have hn := opposites_nodup h ho m d
  cases hl : S.opposites m d with
  | nil => rw [hl] at h2; simp at h2
  | cons a as =>
    rw [hl] at h1 hn
    have ha := h1 a (by simp)
    cases as with
    | nil => rw [ha]
    | cons b bs =>
      have hb := h1 b (by simp)
      rw [ha, hb] at hn
      simp at hn

theorem onlyOpposite_of_single (h : WellNamed S) {m m' : Mirror} {d : Ident} (hm : S.opposites m d = [m']) : OnlyOpposite S m d m' := by
  have : m' ∈ S.opposites m d := by rw [hm]; simp
  obtain ⟨h1, h2⟩ := (mem_opposites_iff h).1 this
  refine ⟨h1, h2, ?_⟩
  intro m'' h3 h4
  have : m'' ∈ S.opposites m d := (mem_opposites_iff h).2 ⟨h3, h4⟩
  rw [hm] at this
  simpa using this

end Schema
end TTGraph
