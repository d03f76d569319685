import Verif.Lemmas.BidirVec
import Verif.Lemmas.Unique
import Verif.Lemmas.Types
import Verif.Spec.Groups

/-!
# Groups written out
-/

set_option autoImplicit false

namespace TTGraph
open Spec

namespace Spec
variable {S S' : Schema}

/-- `m` is the field named `f` of the variant `d`. -/
def Field (S : Schema) (d f : Ident) (m : Mirror) : Prop :=
  m.disc = d ∧ ∃ sd fd, (d, sd) ∈ S.variants ∧ sd.links[m.pos]? = some fd ∧ fd.name = f

theorem VarNames.mem {v d : Ident} (h : VarNames S v d) : d ∈ S.discs := by
  rcases h with ⟨_, h⟩ | ⟨_, _, _, h⟩ <;> exact h

theorem varNames_plain (hw : WellNamed S) {v d : Ident} (hv : v ∈ S.discs) : VarNames S v d ↔ v = d := by
  constructor
  · rintro (⟨h, _⟩ | ⟨ds, h1, _⟩)
    · exact h
    · exact absurd hv (hw.groupVar _ _ h1)
  · rintro rfl; exact Or.inl ⟨rfl, hv⟩

theorem Member.mem {d l f : Ident} (h : Member S d l f) : d ∈ S.discs := by
  obtain ⟨sd, _, h, _⟩ := h
  exact Schema.mem_discs.2 ⟨sd, h⟩

theorem names_plain (hw : WellNamed S) {d l f : Ident} (h : Member S d l f) {m : Mirror} : Names S d f m ↔ Field S d f m := by
  have hd := h.mem
  obtain ⟨sd, fd, h1, h2, h3, h4, _⟩ := h
  simp only [Names, Field, varNames_plain hw hd]
  constructor
  · rintro ⟨rfl, sd', h1', fd', h5, h6⟩
    have e : sd' = sd := by
      have a := (Schema.struct?_iff hw).2 h1; have b := (Schema.struct?_iff hw).2 h1'; rw [a] at b; simpa using b.symm
    subst e
    refine ⟨rfl, sd', fd', h1, h5, ?_⟩
    rcases h6 with h6 | ⟨gs, h6, h7⟩
    · exact h6
    · refine absurd ?_ (hw.linkGroup _ _ h1 fd' (StructDecl.links_mem h5).1 gs h6 f h7)
      exact List.mem_map.2 ⟨fd, List.mem_filter.2 ⟨h2, h3⟩, h4⟩
  · rintro ⟨rfl, sd', fd', h1', h5, h6⟩
    exact ⟨rfl, sd', h1', fd', h5, Or.inl h6⟩

theorem names_iff (hw : WellNamed S) {v l : Ident} {m : Mirror} :
    Names S v l m ↔ ∃ d f, VarNames S v d ∧ Member S d l f ∧ Field S d f m := by
  constructor
  · rintro ⟨h1, sd, h2, fd, h3, h4⟩
    obtain ⟨h5, h6⟩ := StructDecl.links_mem h3
    exact ⟨m.disc, fd.name, h1, ⟨sd, fd, h2, h5, h6, rfl, h4⟩, rfl, sd, fd, h2, h3, rfl⟩
  · rintro ⟨d, f, h1, ⟨sd, fd, h2, h3, h4, h5, h6⟩, rfl, sd', fd', h7, h8, h9⟩
    have e : sd' = sd := by
      have a := (Schema.struct?_iff hw).2 h2; have b := (Schema.struct?_iff hw).2 h7; rw [a] at b; simpa using b.symm
    subst e
    have e : fd' = fd := List.inj_on_of_nodup_map (hw.fields _ _ h2) (StructDecl.links_mem h8).1 h3 (h9.trans h5.symm)
    subst e
    refine ⟨h1, sd', h2, fd', h8, ?_⟩
    rcases h6 with h6 | h6
    · exact Or.inl (h5.trans h6)
    · exact Or.inr h6

namespace Expansion

theorem eq (h : Expansion S S') : S' = ⟨S.variants, S.groups, S'.bidirs, S'.annos⟩ := by
  cases S'
  have := h.variants
  have := h.groups
  simp_all

theorem discs (h : Expansion S S') : S'.discs = S.discs := by simp [Schema.discs, h.variants]

theorem struct? (h : Expansion S S') (d : Ident) : S'.struct? d = S.struct? d := by simp [Schema.struct?, h.variants]

theorem kind? (h : Expansion S S') (m : Mirror) : S'.kind? m = S.kind? m := by simp [Schema.kind?, h.struct?]

theorem wt (h : Expansion S S') (n : Node) : S'.WT n ↔ S.WT n := by simp [Schema.WT, h.struct?]

theorem named (h : Expansion S S') (hw : WellNamed S) : WellNamed S' where
  variants := by rw [h.discs]; exact hw.variants
  groups := by rw [h.groups]; exact hw.groups
  groupVar := by rw [h.groups, h.discs]; exact hw.groupVar
  fields := by rw [h.variants]; exact hw.fields
  oneAttr := by rw [h.variants]; exact hw.oneAttr
  linkGroup := by rw [h.variants]; exact hw.linkGroup
  groupOnce := by rw [h.variants]; exact hw.groupOnce

theorem varNames (h : Expansion S S') {v d : Ident} : VarNames S' v d ↔ VarNames S v d := by simp [VarNames, h.discs, h.groups]

theorem names (h : Expansion S S') {v l : Ident} {m : Mirror} : Names S' v l m ↔ Names S v l m := by simp [Names, h.varNames, h.variants]

/-- Writing out the groups does not change which fields are opposite. -/
theorem opposite (h : Expansion S S') (hw : WellNamed S) {m m' : Mirror} : Opposite S' m m' ↔ Opposite S m m' := by
  have key : ∀ m m' : Mirror, (∃ b ∈ S'.bidirs, Names S b.var1 b.link1 m ∧ Names S b.var2 b.link2 m') ↔
      ∃ l ∈ S.bidirs, Names S l.var1 l.link1 m ∧ Names S l.var2 l.link2 m' := by
    intro m m'
    constructor
    · rintro ⟨b, hb, h1, h2⟩
      obtain ⟨l, hl, h3, h4, h5, h6⟩ := (h.bidirs b).1 hb
      exact ⟨l, hl, (names_iff hw).2 ⟨_, _, h3, h4, (names_plain hw h4).1 h1⟩, (names_iff hw).2 ⟨_, _, h5, h6, (names_plain hw h6).1 h2⟩⟩
    · rintro ⟨l, hl, h1, h2⟩
      obtain ⟨d, f, h3, h4, h5⟩ := (names_iff hw).1 h1
      obtain ⟨d', f', h6, h7, h8⟩ := (names_iff hw).1 h2
      exact ⟨⟨d, f, d', f'⟩, (h.bidirs _).2 ⟨l, hl, h3, h4, h6, h7⟩, (names_plain hw h4).2 h5, (names_plain hw h7).2 h8⟩
  simp only [Opposite, h.names, and_or_left, exists_or, key]

/-- Writing out the groups does not change which targets are allowed. -/
theorem allAccept (h : Expansion S S') (hw : WellNamed S) {m : Mirror} {d : Ident} : AllAccept S' m d ↔ AllAccept S m d := by
  have acc : ∀ a a' : TypeAnno, (∀ d, d ∈ a'.var2 ↔ Accepts S a d) → (Accepts S' a' d ↔ Accepts S a d) := by
    intro a a' ha
    constructor
    · rintro ⟨v, h1, h2⟩
      have h3 := (ha v).1 h1
      obtain ⟨u, _, h4⟩ := h3
      rw [h.varNames, varNames_plain hw h4.mem] at h2
      subst h2; exact (ha v).1 h1
    · intro hd
      obtain ⟨u, _, h4⟩ := id hd
      exact ⟨d, (ha d).2 hd, h.varNames.2 ((varNames_plain hw h4.mem).2 rfl)⟩
  simp only [AllAccept, h.names]
  constructor
  · intro h1 a ha hn
    obtain ⟨v, f, h2, h3, h4⟩ := (names_iff hw).1 hn
    obtain ⟨a', ha', rfl, rfl, h5⟩ := h.allAnnos a ha v f h2 h3
    exact (acc a a' h5).1 (h1 a' ha' ((names_plain hw h3).2 h4))
  · intro h1 a' ha' hn
    obtain ⟨a, ha, h2, h3, h4⟩ := h.annos a' ha'
    exact (acc a a' h4).2 (h1 a ha ((names_iff hw).2 ⟨_, _, h2, h3, (names_plain hw h3).1 hn⟩))

/-- In the written out declaration, no pair is declared twice. -/
theorem once (h : Expansion S S') (hw : WellNamed S) : DeclaredOnce S' := by
  intro d d' sd sd' p p' l1 l2 l1' l2' hd hd' f1 f2 f1' f2' c1 c2
  rw [h.variants] at hd hd'
  have uniq : ∀ {d : Ident} {sd : StructDecl} {p : Nat} {l l0 : Ident}, (d, sd) ∈ S.variants → FieldNames sd l p → Member S d l0 l →
      ∃ fd, sd.links[p]? = some fd ∧ fd.name = l := by
    intro d sd p l l0 hd hf hm
    obtain ⟨_, sd2, fd, h1, h2, h3⟩ := (names_plain hw hm (m := ⟨d, p⟩)).1 ⟨(varNames_plain hw hm.mem).2 rfl, sd, hd, hf⟩
    have e : sd2 = sd := by
      have a := (Schema.struct?_iff hw).2 h1; have b := (Schema.struct?_iff hw).2 hd; rw [a] at b; simpa using b
    subst e
    exact ⟨fd, h2, h3⟩
  have plain : ∀ {d d' l l' : Ident}, Connected S' d l d' l' → (∃ l0, Member S d l0 l) ∧ ∃ l0, Member S d' l0 l' := by
    rintro d d' l l' ⟨b, hb, h1⟩
    obtain ⟨l, hl, h3, h4, h5, h6⟩ := (h.bidirs b).1 hb
    simp only [h.varNames, varNames_plain hw h4.mem, varNames_plain hw h6.mem] at h1
    rcases h1 with ⟨rfl, rfl, rfl, rfl⟩ | ⟨rfl, rfl, rfl, rfl⟩
    · exact ⟨⟨_, h4⟩, _, h6⟩
    · exact ⟨⟨_, h6⟩, _, h4⟩
  obtain ⟨⟨_, a1⟩, _, a2⟩ := plain c1
  obtain ⟨⟨_, a3⟩, _, a4⟩ := plain c2
  obtain ⟨x1, b1, rfl⟩ := uniq hd f1 a1
  obtain ⟨x2, b2, rfl⟩ := uniq hd f2 a3
  obtain ⟨x3, b3, rfl⟩ := uniq hd' f1' a2
  obtain ⟨x4, b4, rfl⟩ := uniq hd' f2' a4
  rw [b1] at b2
  rw [b3] at b4
  cases b2
  cases b4
  exact ⟨rfl, rfl⟩

theorem noVec (h : Expansion S S') (hw : WellNamed S) (hv : NoVec S) : NoVec S' := by
  intro m m' hm
  rw [h.kind?]
  exact hv m m' ((h.opposite hw).1 hm)

theorem inv (h : Expansion S S') {e0 : Prop} {g : Graph} (hg : g.Inv S e0) : g.Inv S' e0 where
  arena := ⟨hg.arena.home, by rw [h.discs]; exact hg.arena.decl⟩
  known := hg.known
  recd := hg.recd
  exact := hg.exact
  noEmpty := hg.noEmpty
  wt := fun x n hn => (h.wt n).2 (hg.wt x n hn)

end Expansion
end Spec

namespace Graph
variable [SetImpl] {S S' : Schema} {e0 e0' : Prop}

/-- Two schemas give the same possible opposites. -/
def SameOpp (S S' : Schema) : Prop :=
  (∀ (v : View) c m, View.Opp S' v c m ↔ View.Opp S v c m) ∧ ∀ (v : View) c m, View.OnlyOpp S' v c m ↔ View.OnlyOpp S v c m

omit [SetImpl] in
theorem same_opp {v v' : View} (hs : View.Same v v') (c : Change) (m : Mirror) : View.Opp S v' c m ↔ View.Opp S v c m :=
  (View.same_iff.1 hs).1.opp c m

omit [SetImpl] in
theorem same_onlyOpp {v v' : View} (hs : View.Same v v') (c : Change) (m : Mirror) : View.OnlyOpp S v' c m ↔ View.OnlyOpp S v c m :=
  (View.same_iff.1 hs).1.onlyOpp c m

/-- One step of the first loop under two schemas. -/
theorem bdRemove_sim (ho : SameOpp S S') (hk : ∀ m, S'.kind? m = S.kind? m) {g g' : Graph} (h : g.Inv S e0) (h' : g'.Inv S' e0')
    (hs : View.Same g.get? g'.get?) (c : Change) :
    (∃ g1 g1', bdRemove S g c = .ok g1 ∧ bdRemove S' g' c = .ok g1' ∧ Kept S e0 g g1 ∧ Kept S' e0' g' g1' ∧ View.Same g1.get? g1'.get?) ∨
      ∃ e, bdRemove S g c = .error e ∧ bdRemove S' g' c = .error e := by
  have hopp : ∀ m, View.Opp S' g'.get? c m ↔ View.Opp S g.get? c m := fun m => (ho.1 _ _ _).trans (same_opp hs _ _)
  rcases bdRemove_kept h c with ⟨g1, a1, _⟩ | ⟨a1, m, a2, a3⟩ <;> rcases bdRemove_kept h' c with ⟨g1', b1, _⟩ | ⟨b1, m', b2, b3⟩
  · obtain ⟨a2, _, a3⟩ := bdRemove_vec h a1
    obtain ⟨b2, _, b3⟩ := bdRemove_vec h' b1
    refine Or.inl ⟨g1, g1', a1, b1, a2, b2, View.same_iff.2 ⟨a2.shape.symm.trans ((View.same_iff.1 hs).1.trans b2.shape), fun z t w => ?_⟩⟩
    rw [a3, b3, (View.same_iff.1 hs).2, hopp]
  · exact absurd (hk m' ▸ b3) ((bdRemove_vec h a1).2.1 m' ((hopp m').1 b2))
  · exact absurd ((hk m).trans a3) ((bdRemove_vec h' b1).2.1 m ((hopp m).2 a2))
  · exact Or.inr ⟨_, a1, b1⟩

/-- One step of the second loop under two schemas. -/
theorem bdAdd_sim (ho : SameOpp S S') (hk : ∀ m, S'.kind? m = S.kind? m) {g g' : Graph} (h : g.Inv S e0) (h' : g'.Inv S' e0')
    (hs : View.Same g.get? g'.get?) (c : Change) :
    (∃ g1 g1', bdAdd S g c = .ok g1 ∧ bdAdd S' g' c = .ok g1' ∧ Kept S e0 g g1 ∧ Kept S' e0' g' g1' ∧ View.Same g1.get? g1'.get?) ∨
      ∃ e, bdAdd S g c = .error e ∧ bdAdd S' g' c = .error e := by
  have only : ∀ {v : View} {m m' : Mirror}, View.OnlyOpp S v c m → View.OnlyOpp S v c m' → m = m' := by
    rintro v m m' ⟨_, n, h1, h2⟩ ⟨_, n', h3, h4⟩
    rw [h1, Option.some.injEq] at h3
    subst h3
    rw [h2, List.cons.injEq] at h4
    exact h4.1
  have okMulti : ∀ {T T' : Schema} {f f' f1 : Graph}, SameOpp T T' → View.Same f.get? f'.get? →
      (∀ z t w, View.Holds f1.get? z t w ↔ View.Holds f.get? z t w ∨
        (z = c.2.1 ∧ w = c.1 ∧ t.slot = 0 ∧ T.kind? t.mirror ≠ some .vec ∧ View.OnlyOpp T f.get? c t.mirror)) →
      ((∃ m, View.Opp T f.get? c m) → ∃ m, View.Opp T f.get? c m ∧ View.Link f1.get? c.2.1 m c.1) →
      (∃ m, View.Opp T' f'.get? c m) → (∀ m, T'.kind? m = T.kind? m) → (∀ m, View.OnlyOpp T' f'.get? c m → T'.kind? m = some .vec) →
      (∀ m, View.Opp T' f'.get? c m → ¬ View.Link f'.get? c.2.1 m c.1) → False := by
    intro T T' f f' f1 ho hs h1 h2 h3 hk h4 h5
    obtain ⟨m, hm⟩ := h3
    obtain ⟨m, h6, h7⟩ := h2 ⟨m, by rwa [ho.1, same_opp hs] at hm⟩
    obtain ⟨k, h8⟩ := View.link_iff.1 h7
    rcases (h1 _ _ _).1 h8 with h9 | ⟨_, _, _, h10, h9⟩
    · exact h5 m ((ho.1 _ _ _).2 ((same_opp hs _ _).2 h6)) ((hs.link _ _ _).2 (View.link_iff.2 ⟨k, h9⟩))
    · exact h10 ((hk _).symm.trans (h4 _ ((ho.2 _ _ _).2 ((same_onlyOpp hs _ _).2 h9))))
  have okExisting : ∀ {T T' : Schema} {f f' f1 : Graph}, SameOpp T T' → (∀ m, T'.kind? m = T.kind? m) → View.Same f.get? f'.get? →
      (∀ x n, f1.get? x = some n → T.WT n) →
      (∀ z t w, View.Holds f1.get? z t w ↔ View.Holds f.get? z t w ∨
        (z = c.2.1 ∧ w = c.1 ∧ t.slot = 0 ∧ T.kind? t.mirror ≠ some .vec ∧ View.OnlyOpp T f.get? c t.mirror)) →
      (∃ m i, View.OnlyOpp T' f'.get? c m ∧ T'.kind? m = some .direct ∧ View.Link f'.get? c.2.1 m i ∧ i ≠ c.1) → False := by
    intro T T' f f' f1 ho hk hs hw h1 ⟨m, i, h2, h3, h4, h5⟩
    rw [ho.2, same_onlyOpp hs] at h2
    rw [hs.link] at h4
    rw [hk] at h3
    obtain ⟨k, h6⟩ := View.link_iff.1 h4
    exact h5 (direct_unique hw h3 (View.link_iff.2 ⟨k, (h1 _ _ _).2 (Or.inl h6)⟩)
      (View.link_iff.2 ⟨0, (h1 _ _ _).2 (Or.inr ⟨rfl, rfl, rfl, by rw [show T.kind? (⟨m.disc, m.pos, 0⟩ : Source).mirror = T.kind? m from rfl, h3]; simp, h2⟩)⟩))
  have ho' : SameOpp S' S := ⟨fun v c m => (ho.1 v c m).symm, fun v c m => (ho.2 v c m).symm⟩
  have hk' : ∀ m, S.kind? m = S'.kind? m := fun m => (hk m).symm
  have hl : ∀ m, View.OnlyOpp S' g'.get? c m ↔ View.OnlyOpp S g.get? c m := fun m => (ho.2 _ _ _).trans (same_onlyOpp hs _ _)
  have single : ∀ {T : Schema} {v : View} {m : Mirror}, View.OnlyOpp T v c m → (∃ m, View.Opp T v c m) ∧ ∀ m', View.Opp T v c m' → m' = m := by
    rintro T v m ⟨h0, n, h1, h2⟩
    refine ⟨⟨m, h0, n, h1, by rw [h2]; simp⟩, ?_⟩
    rintro m' ⟨_, n', h3, h4⟩
    rw [h1, Option.some.injEq] at h3
    subst h3
    rw [h2, List.mem_singleton] at h4
    exact h4
  rcases bdAdd_all h c with ⟨g1, a1⟩ | ⟨a1, a2, a3, a4⟩ | ⟨a1, a2⟩ | ⟨a1, m, a2, a3, a4⟩ <;>
    rcases bdAdd_all h' c with ⟨g1', b1⟩ | ⟨b1, b2, b3, b4⟩ | ⟨b1, b2⟩ | ⟨b1, m', b2, b3, b4⟩
  · obtain ⟨a2, a3, _⟩ := bdAdd_vec h a1
    obtain ⟨b2, b3, _⟩ := bdAdd_vec h' b1
    refine Or.inl ⟨g1, g1', a1, b1, a2, b2, View.same_iff.2 ⟨a2.shape.symm.trans ((View.same_iff.1 hs).1.trans b2.shape), fun z t w => ?_⟩⟩
    rw [a3, b3, (View.same_iff.1 hs).2, hl, hk]
  · obtain ⟨_, a3, a4⟩ := bdAdd_vec h a1
    exact absurd (okMulti ho hs a3 a4 b2 hk (fun m hm => absurd hm (b3 m)) b4) id
  · obtain ⟨a2, a3, _⟩ := bdAdd_vec h a1
    exact absurd (okExisting ho hk hs a2.inv.wt a3 b2) id
  · obtain ⟨_, a3, a4⟩ := bdAdd_vec h a1
    have hu := single b2
    exact absurd (okMulti ho hs a3 a4 hu.1 hk
      (fun m hm => (only ((hl m).1 hm) ((hl m').1 b2)) ▸ b3) (fun m hm => (hu.2 m hm) ▸ b4)) id
  · obtain ⟨_, b3, b4⟩ := bdAdd_vec h' b1
    exact absurd (okMulti ho' hs.symm b3 b4 a2 hk' (fun m hm => absurd hm (a3 m)) a4) id
  · exact Or.inr ⟨_, a1, b1⟩
  · obtain ⟨m, i, h2, _⟩ := b2
    exact absurd ((hl m).1 h2) (a3 m)
  · exact absurd ((hl m').1 b2) (a3 m')
  · obtain ⟨b2, b3, _⟩ := bdAdd_vec h' b1
    exact absurd (okExisting ho' hk' hs.symm b2.inv.wt b3 a2) id
  · obtain ⟨m, i, h2, _⟩ := a2
    exact absurd ((hl m).2 h2) (b3 m)
  · exact Or.inr ⟨_, a1, b1⟩
  · obtain ⟨m, i, h2, h3, _⟩ := a2
    rw [hk, ← only h2 ((hl m').1 b2), h3] at b3
    exact absurd b3 (by simp)
  · obtain ⟨_, b3, b4⟩ := bdAdd_vec h' b1
    have hu := single a2
    exact absurd (okMulti ho' hs.symm b3 b4 hu.1 hk' (fun m1 hm => (only a2 hm) ▸ a3) (fun m1 hm => (hu.2 m1 hm) ▸ a4)) id
  · exact absurd ((hl m).2 a2) (b3 m)
  · obtain ⟨m1, i, h2, h3, _⟩ := b2
    rw [only a2 ((hl m1).1 h2), ← hk, h3] at a3
    exact absurd a3 (by simp)
  · exact Or.inr ⟨_, a1, b1⟩

omit [SetImpl] in
/-- A loop under two schemas. -/
theorem loop_sim {f f' : Graph → Change → Except Panic Graph}
    (hf : ∀ {g g' : Graph}, g.Inv S e0 → g'.Inv S' e0' → View.Same g.get? g'.get? → ∀ c,
      (∃ g1 g1', f g c = .ok g1 ∧ f' g' c = .ok g1' ∧ Kept S e0 g g1 ∧ Kept S' e0' g' g1' ∧ View.Same g1.get? g1'.get?) ∨
        ∃ e, f g c = .error e ∧ f' g' c = .error e) (l : List Change) :
    ∀ {g g' : Graph}, g.Inv S e0 → g'.Inv S' e0' → View.Same g.get? g'.get? →
    (∃ g1 g1', foldE f g l = .ok g1 ∧ foldE f' g' l = .ok g1' ∧ Kept S e0 g g1 ∧ Kept S' e0' g' g1' ∧ View.Same g1.get? g1'.get?) ∨
      ∃ e, foldE f g l = .error e ∧ foldE f' g' l = .error e := by
  induction l with
  | nil => exact fun h h' hs => Or.inl ⟨_, _, rfl, rfl, Kept.refl h, Kept.refl h', hs⟩
  | cons c l ih =>
    intro g g' h h' hs
    rcases hf h h' hs c with ⟨g1, g1', a1, b1, a2, b2, hs1⟩ | ⟨e, a1, b1⟩
    · simp only [foldE, a1, b1]
      rcases ih a2.inv b2.inv hs1 with ⟨g2, g2', c1, d1, c2, d2, hs2⟩ | hr
      · exact Or.inl ⟨g2, g2', c1, d1, a2.trans c2, b2.trans d2, hs2⟩
      · exact Or.inr hr
    · exact Or.inr ⟨e, by simp only [foldE, a1], by simp only [foldE, b1]⟩

theorem applyBidirectional_sim (ho : SameOpp S S') (hk : ∀ m, S'.kind? m = S.kind? m) {g : Graph} (h : g.Inv S e0) (h' : g.Inv S' e0') (r : Lcr) :
    (∃ g1 g1', applyBidirectional S g r = .ok g1 ∧ applyBidirectional S' g r = .ok g1' ∧ Kept S e0 g g1 ∧ View.Same g1.get? g1'.get?) ∨
      ∃ e, applyBidirectional S g r = .error e ∧ applyBidirectional S' g r = .error e := by
  simp only [applyBidirectional]
  rcases loop_sim (fun h h' hs c => bdRemove_sim ho hk h h' hs c) r.removes.elems h h' (View.Same.refl _) with
    ⟨g1, g1', a1, b1, a2, b2, hs⟩ | ⟨e, a1, b1⟩
  · simp only [a1, b1]
    rcases loop_sim (fun h h' hs c => bdAdd_sim ho hk h h' hs c) r.adds.elems a2.inv b2.inv hs with ⟨g2, g2', c1, d1, c2, _, hs2⟩ | hr
    · exact Or.inl ⟨g2, g2', c1, d1, a2.trans c2, hs2⟩
    · exact Or.inr hr
  · exact Or.inr ⟨e, by simp only [a1], by simp only [b1]⟩

omit [SetImpl] in
theorem checkLinkType_sim (hty : ∀ m d, d ∈ S.discs → S'.checkLinkType d m = S.checkLinkType d m) {g g' : Graph} (hs : View.Same g.get? g'.get?)
    (hd : ∀ x n, g.get? x = some n → n.disc ∈ S.discs) (r : Lcr) : checkLinkType S' g' r = checkLinkType S g r := by
  have key : checkLinkType S' g' r = .ok () ↔ checkLinkType S g r = .ok () := by
    rw [checkLinkType_ok, checkLinkType_ok]
    refine forall_congr' fun c => forall_congr' fun _ => ?_
    constructor
    · intro h n hn
      obtain ⟨n', hn', hnn⟩ := hs.some hn
      have e : n'.disc = n.disc := hnn.1
      rw [← hty _ _ (hd _ _ hn), ← e]
      exact h n' hn'
    · intro h n' hn'
      obtain ⟨n, hn, hnn⟩ := hs.symm.some hn'
      have e : n.disc = n'.disc := hnn.1
      rw [← e, hty _ _ (hd _ _ hn)]
      exact h n hn
  cases h1 : checkLinkType S g r with
  | ok _ => exact key.2 h1
  | error e =>
    cases h2 : checkLinkType S' g' r with
    | ok _ => rw [key.1 h2] at h1; exact absurd h1 (by simp)
    | error e' => rw [(checkLinkType_err h1).1, (checkLinkType_err h2).1]

/-- The commit under a declaration and under the same declaration with groups written out. -/
theorem commit_expansion (hw : WellNamed S) (hd : DeclaredOnce S) (ha : AnnotatedOnce S) (he : Expansion S S')
    (ha' : AnnotatedOnce S') {dbg : Bool} {g : Graph} {t : Trans} (h : g.Inv S e0) (ht : t.Good S) (hdis : g.nodes.Disjoint t.inc) (hz : t.NoFromEmpty) :
    (∃ g1 g1', g.commit S dbg t = .ok g1 ∧ g.commit S' dbg t = .ok g1' ∧ View.Same g1.get? g1'.get?) ∨
      ∃ e, g.commit S dbg t = .error e ∧ g.commit S' dbg t = .error e := by
  have hw' := he.named hw
  have hopp : SameOpp S S' := by
    refine ⟨fun v c m => ?_, fun v c m => ?_⟩
    · rw [opp_iff hw, opp_iff hw']; simp only [he.opposite hw]
    · rw [onlyOpp_iff hw hd, onlyOpp_iff hw' (he.once hw)]
      simp only [OnlyOpposite, he.opposite hw]
  have hty : ∀ m d, d ∈ S.discs → S'.checkLinkType d m = S.checkLinkType d m := by
    intro m d hd
    rw [Bool.eq_iff_iff]
    constructor
    · intro h1
      exact Schema.checkLinkType_of_accept hw ((he.allAccept hw).1 (Schema.accept_of_checkLinkType hw' ha' (by rw [he.discs]; exact hd) h1))
    · intro h1
      exact Schema.checkLinkType_of_accept hw' ((he.allAccept hw).2 (Schema.accept_of_checkLinkType hw ha hd h1))
  have hperf : perform S' g t = perform S g t := by
    simp only [perform, mergeNodes, Arena.entries, he.discs]
  simp only [commit, doCommit_eq, hperf]
  by_cases h1 : (dbg && decide (t.ctxId ≠ g.ctxId)) = true
  · simp only [h1, if_true]; exact Or.inr ⟨_, rfl, rfl⟩
  · simp only [h1, if_false, Bool.false_eq_true]
    by_cases h2 : (dbg && !t.allocs.isEmpty) = true
    · simp only [h2, if_true]; exact Or.inr ⟨_, rfl, rfl⟩
    · simp only [h2, if_false, Bool.false_eq_true]
      cases hp : perform S g t with
      | error e => exact Or.inr ⟨e, rfl, rfl⟩
      | ok st =>
        obtain ⟨g6, r6⟩ := st
        have out := perform_out hw.variants h ht hdis hz hp
        rcases applyBidirectional_sim hopp he.kind? out.inv (he.inv out.inv) r6 with ⟨g1, g1', a1, b1, hk, hs⟩ | ⟨e, a1, b1⟩
        · have hdisc : ∀ x n, g1.get? x = some n → n.disc ∈ S.discs := by
            intro x n hn
            obtain ⟨sd, hsd, _⟩ := hk.inv.wt x n hn
            exact Schema.mem_discs.2 ⟨sd, (Schema.struct?_iff hw).1 hsd⟩
          have hc := checkLinkType_sim hty hs hdisc r6
          simp only [a1, b1, hc]
          cases hct : checkLinkType S g1 r6 with
          | error e => exact Or.inr ⟨e, rfl, rfl⟩
          | ok _ => exact Or.inl ⟨g1, g1', rfl, rfl, hs⟩
        · simp only [a1, b1]
          exact Or.inr ⟨e, rfl, rfl⟩

end Graph
end TTGraph
