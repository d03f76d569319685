import Verif.Lemmas.Move


set_option autoImplicit false
namespace TTGraph
namespace Graph

theorem redirectLinks_unknown [SetImpl] {g : Graph} {old new : NodeIndex} {r : Lcr} (hk : ¬ g.back.Known old) :
    redirectLinks g old new r = .error .backMissing := by
  cases hb : g.back.get? old with
  | none => simp only [redirectLinks, hb]
  | some st => exact absurd ⟨st, hb⟩ hk

/-- A slot of a `Vec` holds one index. -/
theorem vec_slot {S : Schema} {v : View} (hw : ∀ x n, v x = some n → S.WT n) {x : NodeIndex} {s : Source} {y z : NodeIndex}
    (hk : S.kind? s.mirror = some .vec) (h : v.Holds x s y) (h' : v.Holds x s z) : y = z := by
  obtain ⟨n, hn, hd, w, hw1, hw2⟩ := h
  obtain ⟨n', hn', hd', w', hw1', hw2'⟩ := h'
  rw [hn] at hn'
  simp only [Option.some.injEq] at hn'
  subst hn'
  rw [hw1] at hw1'
  simp only [Option.some.injEq] at hw1'
  subst hw1'
  have := Node.kindAt_wt (hw x n hn) s.pos
  rw [show (⟨n.disc, s.pos⟩ : Mirror) = s.mirror by rw [← hd]; rfl, hk] at this
  simp only [Node.kindAt, hw1, Option.map_some, Option.some.injEq] at this
  cases w with
  | direct i => simp [LinkVal.kind] at this
  | set st => simp [LinkVal.kind] at this
  | vec l =>
    simp only [LinkVal.Holds] at hw2 hw2'
    have h1 := hw2.1
    rw [hw2'.1] at h1
    exact (Option.some.inj h1).symm

/-- One redirection. -/
theorem redirectLinks_ok [SetImpl] {S : Schema} {e0 : Prop} {g : Graph} {old new : NodeIndex} {r : Lcr} (h : g.Inv S e0)
    (hk : g.back.Known old) (h0 : old ≠ emptyIdx ∨ e0) (hne : old ≠ new) (L0 : Change → Prop) :
    ∃ g' r', redirectLinks g old new r = .ok (g', r') ∧ g'.Inv S (e0 ∧ new ≠ emptyIdx) ∧ g'.ctxId = g.ctxId ∧
      g'.nodes.disp = g.nodes.disp ∧ View.Moved old new (fun e => View.Holds g.get? e.1 e.2 old) g.get? g'.get? ∧
      (∀ y, g'.back.Known y ↔ g.back.Known y ∨ y = new) ∧ (g.nodes.Typed → g'.nodes.Typed) ∧
      Lcr.Keeps S L0 g.get? r g'.get? r' := by
  obtain ⟨ol, hol⟩ := hk
  have hmem0 : ∀ e, e ∈ ol ↔ View.Holds g.get? e.1 e.2 old := by
    intro e
    have h1 : e ∈ ol ↔ g.back.Rec old e := by
      simp only [Back.Rec, hol, Option.some.injEq, exists_eq_left']
    rw [h1]
    exact ⟨h.exact e.1 e.2 old h0, h.recd e.1 e.2 old⟩
  let b2 : Back := Back.touch ((g.back.swapRemove old).insert old OrderSet.empty) new
  have hb2r : ∀ z f, b2.Rec z f ↔ g.back.Rec z f ∧ z ≠ old := by
    intro z f
    rw [Back.rec_touch, Back.rec_insert]
    split
    · rename_i hz; subst hz; simp [OrderSet.not_mem_empty]
    · rename_i hz
      rw [Back.rec_swapRemove]
  have hb2k : ∀ z, b2.Known z ↔ g.back.Known z ∨ z = new := by
    intro z
    rw [Back.known_touch, Back.known_insert, Back.known_swapRemove]
    constructor
    · rintro (h1 | h1 | h1)
      · exact Or.inr h1
      · subst h1; exact Or.inl ⟨ol, hol⟩
      · exact Or.inl h1.1
    · rintro (h1 | h1)
      · by_cases hz : z = old
        · exact Or.inr (Or.inl hz)
        · exact Or.inr (Or.inr ⟨h1, hz⟩)
      · exact Or.inl h1
  -- at most one slot of the field holds `old` or `new`
  let Joint (x : NodeIndex) (m : Mirror) : Prop := ∀ k k', (View.Holds g.get? x ⟨m.disc, m.pos, k⟩ new ∨ View.Holds g.get? x ⟨m.disc, m.pos, k⟩ old) →
    (View.Holds g.get? x ⟨m.disc, m.pos, k'⟩ new ∨ View.Holds g.get? x ⟨m.disc, m.pos, k'⟩ old) → k = k'
  have hloop : ∃ st', foldE (redirectOne old new) (g.nodes, b2, r) ol.elems = .ok st' ∧
      (View.Moved old new (· ∈ ol.elems) g.get? st'.1.get? ∧ st'.1.disp = g.nodes.disp ∧ st'.1.Inv S ∧ (g.nodes.Typed → st'.1.Typed) ∧
        (∀ z f, st'.2.1.Rec z f ↔ b2.Rec z f ∨ (z = new ∧ f ∈ ol.elems)) ∧ (∀ z, st'.2.1.Known z ↔ b2.Known z) ∧
        (∀ D : Change → Prop, (∀ c, D c → c.2.1 ≠ emptyIdx ∧ View.Once g.get? c.1 c.2.2 c.2.1 ∧ (c.2.1 = new → new ≠ emptyIdx → Joint c.1 c.2.2)) →
          Lcr.Ok D L0 (View.L g.get?) r → Lcr.Ok D L0 (fun c => (View.L g.get? c ∧ ¬ ∃ e ∈ ol.elems, c = (e.1, old, e.2.mirror)) ∨
            (new ≠ emptyIdx ∧ ∃ e ∈ ol.elems, c = (e.1, new, e.2.mirror))) st'.2.2)) := by
    refine foldE_total (P := fun P (st : Arena × Back × Lcr) =>
      View.Moved old new (· ∈ P) g.get? st.1.get? ∧ st.1.disp = g.nodes.disp ∧ st.1.Inv S ∧ (g.nodes.Typed → st.1.Typed) ∧
        (∀ z f, st.2.1.Rec z f ↔ b2.Rec z f ∨ (z = new ∧ f ∈ P)) ∧ (∀ z, st.2.1.Known z ↔ b2.Known z) ∧
        (∀ D : Change → Prop, (∀ c, D c → c.2.1 ≠ emptyIdx ∧ View.Once g.get? c.1 c.2.2 c.2.1 ∧ (c.2.1 = new → new ≠ emptyIdx → Joint c.1 c.2.2)) →
          Lcr.Ok D L0 (View.L g.get?) r → Lcr.Ok D L0 (fun c => (View.L g.get? c ∧ ¬ ∃ e ∈ P, c = (e.1, old, e.2.mirror)) ∨
            (new ≠ emptyIdx ∧ ∃ e ∈ P, c = (e.1, new, e.2.mirror))) st.2.2)) ?_ ?_
    · exact ⟨View.Moved.nil _ _ _, rfl, h.arena, id, by simp, by simp, fun _ _ hok => hok.congr (by simp)⟩
    · rintro pre e post ⟨a, b, q⟩ hsplit ⟨hmv, hdisp, hai, hat, hbr, hbk, hq⟩
      simp only at hmv hdisp hai hat hbr hbk hq
      have hnd := ol.nodup
      have hmem : ∀ p, p ∈ pre ++ e :: post → View.Holds g.get? p.1 p.2 old := by
        intro p hp
        rw [← hsplit] at hp
        exact (hmem0 p).1 hp
      have hep : e ∉ pre := by
        rw [hsplit, List.nodup_append] at hnd
        intro hc
        exact hnd.2.2 e hc e (by simp) rfl
      obtain ⟨a', add, m1, m2, m3, m4, m5, m6, m7⟩ := moved_step (S := S) h.wt hmv (hmem e (by simp)) hep hne
      refine ⟨(a', b.link new e, (if add then q.addLink e.1 new e.2.mirror else q).removeLink e.1 old e.2.mirror), ?_, m2, m3.trans hdisp, m4 hai, fun ht => m5 (hat ht), ?_, ?_, ?_⟩
      · simp only [redirectOne, m1]
        cases add <;> rfl
      · intro z f
        rw [Back.rec_link, hbr]
        simp only [List.mem_append, List.mem_singleton, and_or_left, or_assoc]
      · intro z
        rw [Back.known_link, hbk]
        constructor
        · rintro (h1 | h1)
          · rw [hb2k]; exact Or.inr h1
          · exact h1
        · exact Or.inr
      · intro D hD hok
        have hq' := hq D hD hok
        have hplace : ∀ p ∈ pre, e.1 = p.1 ∧ e.2.mirror = p.2.mirror → e.2.slot ≠ p.2.slot := by
          rintro ⟨p1, p2, p3, p4⟩ hp hpe h4
          obtain ⟨e1, e2, e3, e4⟩ := e
          simp only [Source.mirror, Mirror.mk.injEq] at hpe
          obtain ⟨rfl, rfl, rfl⟩ := hpe
          simp only at h4
          subst h4
          exact hep hp
        -- uniqueness of the place for fields that are not `Vec`
        have huniq : S.kind? e.2.mirror ≠ some .vec → ∀ p ∈ pre, ¬ (e.1 = p.1 ∧ e.2.mirror = p.2.mirror) := by
          intro hd p hp hpe
          have s1 := View.slot_zero h.wt (hmem e (by simp)) hd
          have s2 := View.slot_zero h.wt (hmem p (by simp [hp])) (by rw [← hpe.2]; exact hd)
          apply hep
          have : e = p := by
            obtain ⟨e1, e2, e3, e4⟩ := e
            obtain ⟨p1, p2, p3, p4⟩ := p
            simp_all [Source.mirror]
          rw [this]; exact hp
        have hVnew : S.kind? e.2.mirror ≠ some .vec → (((View.L g.get? (e.1, new, e.2.mirror) ∧
            ¬ ∃ p ∈ pre, (e.1, new, e.2.mirror) = (p.1, old, p.2.mirror)) ∨
            (new ≠ emptyIdx ∧ ∃ p ∈ pre, (e.1, new, e.2.mirror) = (p.1, new, p.2.mirror))) ↔
            View.Link g.get? e.1 e.2.mirror new) := by
          intro hd
          constructor
          · rintro (⟨h1, _⟩ | ⟨_, p, hp, hpe⟩)
            · exact h1
            · simp only [Prod.mk.injEq, true_and] at hpe
              exact absurd hpe (huniq hd p hp)
          · intro h1
            refine Or.inl ⟨h1, ?_⟩
            rintro ⟨p, _, hpe⟩
            simp only [Prod.mk.injEq] at hpe
            exact hne hpe.2.1.symm
        have hadd : Lcr.Ok D L0 (fun c => ((View.L g.get? c ∧ ¬ ∃ e ∈ pre, c = (e.1, old, e.2.mirror)) ∨
            (new ≠ emptyIdx ∧ ∃ e ∈ pre, c = (e.1, new, e.2.mirror))) ∨ (new ≠ emptyIdx ∧ c = (e.1, new, e.2.mirror)))
            (if add then q.addLink e.1 new e.2.mirror else q) := by
          by_cases ha : add = true
          · rw [if_pos ha]
            have hn0 : new ≠ emptyIdx := by
              by_cases hkv : S.kind? e.2.mirror = some .vec
              · exact (m6 hkv).1 ha
              · exact ((m7 hkv).1 ha).1
            refine (hq'.add (fun c hc => (hD c hc).1) ?_).congr ?_
            · intro hd hV
              by_cases hkv : S.kind? e.2.mirror = some .vec
              · have hj := (hD _ hd).2.2 rfl hn0
                rcases hV with ⟨⟨n, hn, k, hnk⟩, _⟩ | ⟨_, p, hp, hpe⟩
                · have hk := hj k e.2.slot (Or.inl ⟨n, hn, hnk⟩) (Or.inr (hmem e (by simp)))
                  subst hk
                  exact hne (vec_slot h.wt hkv (hmem e (by simp)) ⟨n, hn, hnk⟩)
                · simp only [Prod.mk.injEq, true_and] at hpe
                  refine hplace p hp hpe (hj _ _ (Or.inr (hmem e (by simp))) (Or.inr ?_))
                  have := hmem p (by simp [hp])
                  rw [hpe.1, hpe.2]
                  exact this
              · exact ((m7 hkv).1 ha).2 ((hVnew hkv).1 hV)
            · intro c; simp [hn0]
          · rw [if_neg ha]
            refine hq'.congr ?_
            intro c
            constructor
            · rintro (h1 | ⟨h1, rfl⟩)
              · exact h1
              · by_cases hkv : S.kind? e.2.mirror = some .vec
                · exact absurd ((m6 hkv).2 h1) ha
                · by_contra hc
                  apply ha
                  rw [m7 hkv]
                  exact ⟨h1, fun hl => hc ((hVnew hkv).2 hl)⟩
            · exact Or.inl
        refine (hadd.remove (fun c hc => (hD c hc).1) ?_).congr ?_
        · intro hd
          obtain ⟨m, hm1, hm2⟩ := hmem e (by simp)
          refine Or.inl (Or.inl ⟨⟨m, hm1, Node.hasLink_of_holds hm2⟩, ?_⟩)
          rintro ⟨p, hp, hpe⟩
          simp only [Prod.mk.injEq, true_and] at hpe
          refine hplace p hp hpe ((hD _ hd).2.1 _ _ (hmem e (by simp)) ?_)
          have := hmem p (by simp [hp])
          simp only [hpe.1, hpe.2]
          exact this
        · intro c
          simp only [List.mem_append, List.mem_singleton]
          constructor
          · rintro (⟨h1, h2⟩ | ⟨h1, p, (hp | rfl), rfl⟩)
            · exact ⟨Or.inl (Or.inl ⟨h1, fun ⟨q, hq, he⟩ => h2 ⟨q, Or.inl hq, he⟩⟩), fun he => h2 ⟨e, Or.inr rfl, he⟩⟩
            · refine ⟨Or.inl (Or.inr ⟨h1, p, hp, rfl⟩), ?_⟩
              intro he; simp only [Prod.mk.injEq] at he; exact hne he.2.1.symm
            · refine ⟨Or.inr ⟨h1, rfl⟩, ?_⟩
              intro he; simp only [Prod.mk.injEq] at he; exact hne he.2.1.symm
          · rintro ⟨((⟨h1, h2⟩ | ⟨h1, p, hp, rfl⟩) | ⟨h1, rfl⟩), h3⟩
            · refine Or.inl ⟨h1, ?_⟩
              rintro ⟨q, hq | rfl, he⟩
              · exact h2 ⟨q, hq, he⟩
              · exact h3 he
            · exact Or.inr ⟨h1, p, Or.inl hp, rfl⟩
            · exact Or.inr ⟨h1, e, Or.inr rfl, rfl⟩
  obtain ⟨⟨a', b', r'⟩, hf, hmv, hdisp, hai, hat, hbr, hbk, hlcr⟩ := hloop
  simp only at hmv hdisp hai hat hbr hbk hlcr
  have hmv' : View.Moved old new (fun e => View.Holds g.get? e.1 e.2 old) g.get? a'.get? := by
    have : (fun e => e ∈ ol.elems) = (fun e => View.Holds g.get? e.1 e.2 old) := funext fun e => propext (hmem0 e)
    rw [← this]; exact hmv
  have hrec' : ∀ z f, Back.Rec b' z f ↔ (g.back.Rec z f ∧ z ≠ old) ∨ (z = new ∧ View.Holds g.get? f.1 f.2 old) := by
    intro z f
    rw [hbr, hb2r, ← hmem0]
    rfl
  let g' : Graph := { g with nodes := a', back := b' }
  have hgs : ∀ y m, g'.get? y = some m → ∃ m0, g.get? y = some m0 ∧ m.shape = m0.shape := fun y m hm => hmv'.shape.some hm
  refine ⟨g', r', ?_, ⟨hai, ?_, ?_, ?_, ?_, ?_⟩, rfl, hdisp, hmv', ?_, hat, ?_⟩
  · simp only [redirectLinks, hol]
    simp only [show Back.touch ((OrderMap.swapRemove g.back old).insert old OrderSet.empty) new = b2 from rfl, hf]
    rfl
  · intro y m hm
    obtain ⟨m0, hm0, _⟩ := hgs y m hm
    show Back.Known b' y
    rw [hbk, hb2k]
    exact Or.inl (h.known y m0 hm0)
  · intro y s w hh
    have hh' : View.Holds a'.get? y s w := hh
    rw [hmv'.holds] at hh'
    show Back.Rec b' w (y, s)
    rw [hrec']
    rcases hh' with ⟨h1, h2⟩ | ⟨h1, _, h3⟩
    · refine Or.inl ⟨h.recd y s w h1, ?_⟩
      intro hw; subst hw; exact h2 ⟨rfl, h1⟩
    · exact Or.inr ⟨h1, h3⟩
  · intro y s w hw hr
    have hr' : Back.Rec b' w (y, s) := hr
    rw [hrec'] at hr'
    show View.Holds a'.get? y s w
    rw [hmv'.holds]
    rcases hr' with ⟨h1, h2⟩ | ⟨h1, h2⟩
    · exact Or.inl ⟨h.exact y s w (hw.imp id And.left) h1, fun hc => h2 hc.1⟩
    · refine Or.inr ⟨h1, ?_, h2⟩
      subst h1
      exact hw.elim id And.right
  · exact (hmv'.shape.none emptyIdx).2 h.noEmpty
  · intro y m hm
    obtain ⟨m0, hm0, hs⟩ := hgs y m hm
    exact Schema.wt_of_shape hs (h.wt y m0 hm0)
  · intro y
    show Back.Known b' y ↔ _
    rw [hbk, hb2k]
  · intro D hD hok
    have hwt' : ∀ y m, g'.get? y = some m → S.WT m := by
      intro y m hm
      obtain ⟨m0, hm0, hs⟩ := hgs y m hm
      exact Schema.wt_of_shape hs (h.wt y m0 hm0)
    refine (hlcr D (fun c hc => ⟨(hD c hc).1, (hD c hc).left h.wt, fun hcn hn0 k k' h1 h2 => ?_⟩) hok).congr ?_
    · have hold : ∀ k, (View.Holds g.get? c.1 ⟨c.2.2.disc, c.2.2.pos, k⟩ new ∨ View.Holds g.get? c.1 ⟨c.2.2.disc, c.2.2.pos, k⟩ old) →
          View.Holds g'.get? c.1 ⟨c.2.2.disc, c.2.2.pos, k⟩ c.2.1 := by
        rintro k (h1 | h1)
        · exact (hmv'.holds _ _ _).2 (Or.inl ⟨hcn ▸ h1, fun hc' => hne (hc'.1.symm.trans hcn)⟩)
        · exact (hmv'.holds _ _ _).2 (Or.inr ⟨hcn, hn0, h1⟩)
      exact (hD c hc).right hwt' k k' (hold k h1) (hold k' h2)
    intro c
    have := hmv'.link (c := c) (fun e => Iff.rfl) hne
    refine this.trans ?_
    have hex : ∀ (p : NodeIndex × Source → Prop), (∃ e, View.Holds g.get? e.1 e.2 old ∧ p e) ↔ ∃ e ∈ ol.elems, p e := by
      intro p
      constructor
      · rintro ⟨e, h1, h2⟩; exact ⟨e, (hmem0 e).2 h1, h2⟩
      · rintro ⟨e, h1, h2⟩; exact ⟨e, (hmem0 e).1 h1, h2⟩
    rw [hex, hex]

end Graph
end TTGraph
