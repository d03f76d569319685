import Verif.Lemmas.Bidir

/-!
# Completion that returns, without conditions on the declarations
-/

set_option autoImplicit false

namespace TTGraph
namespace Graph
variable [SetImpl] {S : Schema} {e0 : Prop}

theorem bdRemove_noVec {g g' : Graph} (h : g.Inv S e0) {c : Change} (hok : bdRemove S g c = .ok g') (m : Mirror) (hm : View.Opp S g.get? c m) :
    S.kind? m ≠ some .vec := by
  obtain ⟨x, y, l⟩ := c
  obtain ⟨hx, ny, hy, hmem⟩ := hm
  obtain ⟨nx, hx'⟩ := Option.ne_none_iff_exists'.1 hx
  have hx1 : g.nodes.get? x = some nx := hx'
  have hy1 : g.nodes.get? y = some ny := hy
  simp only [bdRemove, hx1, hy1] at hok
  rcases foldE_cases (f := bdRemoveOne S x y) (l := S.opposites l ny.disc) (s := g)
    (P := fun pre (g' : Graph) => Edited S e0 g g' ∧ ∀ m ∈ pre, S.kind? m ≠ some .vec) (E := fun _ => True) ⟨Edited.refl h, by simp⟩ (by
      intro pre m post g1 hsplit ⟨hk, hp⟩
      obtain ⟨ny1, hy1, hs1⟩ := hk.kept.shape.some' hy
      have hd1 : ny1.disc = ny.disc := by simp only [Node.shape, Prod.mk.injEq] at hs1; exact hs1.1
      have hx1 : g1.get? x ≠ none := (hk.kept.shape.exists x).2 hx
      have hm : m ∈ S.opposites l ny1.disc := by rw [hd1, hsplit]; simp
      by_cases hkind : S.kind? m = some .vec
      · right
        obtain ⟨hd, l, hl⟩ := Schema.opposite_vec hkind (hk.kept.inv.wt _ _ hy1) hm
        have : ny1.removeLink m x = .error .removeOnVec := by simp only [Node.removeLink, if_pos hd, hl, LinkVal.remove]
        exact ⟨.removeOnVec, by simp only [bdRemoveOne, Arena.modifyAt_err (f := fun n => n.removeLink m x) hy1 this], trivial⟩
      · rcases bdRemoveOne_kept hk.kept.inv hx1 hy1 hm with ⟨g2, h1, h2⟩ | ⟨h1, h2⟩
        · refine Or.inl ⟨g2, h1, hk.trans h2, fun m' hm' => ?_⟩
          rcases List.mem_append.1 hm' with hm' | hm'
          · exact hp m' hm'
          · rw [List.mem_singleton] at hm'
            rw [hm']; exact hkind
        · exact absurd h2 hkind) with ⟨g1, _, _, h2⟩ | ⟨e, h1, _⟩
  · exact h2 m hmem
  · rw [h1] at hok; exact absurd hok (by simp)

/-- A step of the first loop that returns. -/
theorem bdRemove_vec {g g' : Graph} (h : g.Inv S e0) {c : Change} (hok : bdRemove S g c = .ok g') :
    Kept S e0 g g' ∧ (∀ m, View.Opp S g.get? c m → S.kind? m ≠ some .vec) ∧
      ∀ z t w, View.Holds g'.get? z t w ↔ View.Holds g.get? z t w ∧ ¬ (z = c.2.1 ∧ w = c.1 ∧ View.Opp S g.get? c t.mirror) := by
  have hv := bdRemove_noVec h hok
  obtain ⟨g1, h1, h2, h3⟩ := bdRemove_ok h c hv
  rw [hok, Except.ok.injEq] at h1
  subst h1
  exact ⟨h2, hv, h3⟩

/-- A step of the second loop that returns. -/
theorem bdAdd_vec {g g' : Graph} (h : g.Inv S e0) {c : Change} (hok : bdAdd S g c = .ok g') :
    Kept S e0 g g' ∧
      (∀ z t w, View.Holds g'.get? z t w ↔ View.Holds g.get? z t w ∨
        (z = c.2.1 ∧ w = c.1 ∧ t.slot = 0 ∧ S.kind? t.mirror ≠ some .vec ∧ View.OnlyOpp S g.get? c t.mirror)) ∧
      ((∃ m, View.Opp S g.get? c m) → ∃ m, View.Opp S g.get? c m ∧ View.Link g'.get? c.2.1 m c.1) := by
  by_cases hv : ∀ m, View.OnlyOpp S g.get? c m → S.kind? m ≠ some .vec
  · rcases bdAdd_cases h c hv with ⟨g1, h1, h2, h3, h4⟩ | ⟨h1, _⟩ | ⟨h1, _⟩
    · rw [hok, Except.ok.injEq] at h1
      subst h1
      refine ⟨h2, fun z t w => (h3 z t w).trans ?_, h4⟩
      constructor
      · rintro (h5 | ⟨h5, h6, h7, h8⟩)
        · exact Or.inl h5
        · exact Or.inr ⟨h5, h6, h7, hv _ h8, h8⟩
      · rintro (h5 | ⟨h5, h6, h7, _, h8⟩)
        · exact Or.inl h5
        · exact Or.inr ⟨h5, h6, h7, h8⟩
    all_goals (rw [hok] at h1; exact absurd h1 (by simp))
  · have : ∃ m, View.OnlyOpp S g.get? c m ∧ S.kind? m = some .vec := by
      by_contra hc
      exact hv fun m hm hk => hc ⟨m, hm, hk⟩
    obtain ⟨m, ⟨hx, n, hy, ho⟩, hk⟩ := this
    obtain ⟨x, y, l⟩ := c
    obtain ⟨nx, hx'⟩ := Option.ne_none_iff_exists'.1 hx
    have hx1 : g.nodes.get? x = some nx := hx'
    have hy1 : g.nodes.get? y = some n := hy
    have ho' : S.opposites l n.disc = [m] := ho
    have hx0 : x ≠ emptyIdx := by rintro rfl; rw [h.noEmpty] at hx'; simp at hx'
    by_cases hf : ([m].any fun m => n.containsLink m x) = true
    · have : bdAdd S g (x, y, l) = .ok g := by simp only [bdAdd, hx1, hy1, ho', if_pos hf]
      rw [this, Except.ok.injEq] at hok
      subst hok
      refine ⟨Kept.refl h, fun z t w => ⟨Or.inl, ?_⟩, fun _ => ⟨m, ⟨hx, n, hy, by rw [ho]; simp⟩, n, hy, ?_⟩⟩
      · rintro (h1 | ⟨_, _, _, h1, _, n', h2, h3⟩)
        · exact h1
        · have h2' : g.get? y = some n' := h2
          have hy' : g.get? y = some n := hy
          rw [hy', Option.some.injEq] at h2'
          subst h2'
          rw [ho, List.cons.injEq] at h3
          rw [h3.1] at hk
          exact absurd hk h1
      · simp only [List.any_cons, List.any_nil, Bool.or_false] at hf
        exact (Node.containsLink_iff hx0).1 hf
    · obtain ⟨hd, l', hl⟩ := Schema.opposite_vec (m := l) hk (h.wt _ _ hy) (by rw [ho']; simp)
      have : n.addLink m x = .error .addOnVec := by simp only [Node.addLink, if_pos hd, hl, LinkVal.add]
      have : bdAdd S g (x, y, l) = .error .addOnVec := by
        simp only [bdAdd, hx1, hy1, ho', if_neg hf, Arena.modifyAt_err (f := fun n => n.addLink m x) hy this]
        simp
      rw [this] at hok
      exact absurd hok (by simp)

/-- A step of the second loop whose only opposite is a `Vec`. -/
theorem bdAdd_onVec {g : Graph} (h : g.Inv S e0) {c : Change} {m : Mirror} (hm : View.OnlyOpp S g.get? c m) (hk : S.kind? m = some .vec) :
    (bdAdd S g c = .ok g ∧ View.Link g.get? c.2.1 m c.1) ∨ (bdAdd S g c = .error .addOnVec ∧ ¬ View.Link g.get? c.2.1 m c.1) := by
  obtain ⟨x, y, l⟩ := c
  obtain ⟨hx, n, hy, ho⟩ := hm
  obtain ⟨nx, hx'⟩ := Option.ne_none_iff_exists'.1 hx
  have hx1 : g.nodes.get? x = some nx := hx'
  have hy1 : g.nodes.get? y = some n := hy
  have hyg : g.get? y = some n := hy
  have ho' : S.opposites l n.disc = [m] := ho
  have hx0 : x ≠ emptyIdx := by rintro rfl; rw [h.noEmpty] at hx'; simp at hx'
  by_cases hf : ([m].any fun m => n.containsLink m x) = true
  · left
    refine ⟨by simp only [bdAdd, hx1, hy1, ho', if_pos hf], n, hy, ?_⟩
    simp only [List.any_cons, List.any_nil, Bool.or_false] at hf
    exact (Node.containsLink_iff hx0).1 hf
  · right
    obtain ⟨hd, l', hl⟩ := Schema.opposite_vec (m := l) hk (h.wt _ _ hy) (by rw [ho']; simp)
    have : n.addLink m x = .error .addOnVec := by simp only [Node.addLink, if_pos hd, hl, LinkVal.add]
    refine ⟨?_, fun ⟨n', hn', hl'⟩ => ?_⟩
    · simp only [bdAdd, hx1, hy1, ho', if_neg hf, Arena.modifyAt_err (f := fun n => n.addLink m x) hy this]
      simp
    · have hn' : g.get? y = some n' := hn'
      rw [hyg, Option.some.injEq] at hn'
      subst hn'
      simp only [List.any_cons, List.any_nil, Bool.or_false] at hf
      exact hf ((Node.containsLink_iff hx0).2 hl')

/-- All outcomes of a step of the second loop. -/
theorem bdAdd_all {g : Graph} (h : g.Inv S e0) (c : Change) :
    (∃ g', bdAdd S g c = .ok g') ∨
    (bdAdd S g c = .error .multiChoice ∧ (∃ m, View.Opp S g.get? c m) ∧ (∀ m, ¬ View.OnlyOpp S g.get? c m) ∧
      ∀ m, View.Opp S g.get? c m → ¬ View.Link g.get? c.2.1 m c.1) ∨
    (bdAdd S g c = .error .addOnExisting ∧ ∃ m i, View.OnlyOpp S g.get? c m ∧ S.kind? m = some .direct ∧ View.Link g.get? c.2.1 m i ∧ i ≠ c.1) ∨
    (bdAdd S g c = .error .addOnVec ∧ ∃ m, View.OnlyOpp S g.get? c m ∧ S.kind? m = some .vec ∧ ¬ View.Link g.get? c.2.1 m c.1) := by
  by_cases hv : ∀ m, View.OnlyOpp S g.get? c m → S.kind? m ≠ some .vec
  · rcases bdAdd_cases h c hv with ⟨g1, h1, _⟩ | h1 | h1
    · exact Or.inl ⟨g1, h1⟩
    · exact Or.inr (Or.inl h1)
    · exact Or.inr (Or.inr (Or.inl h1))
  · simp only [not_forall] at hv
    obtain ⟨m, hm, hk⟩ := hv
    have hk := Decidable.not_not.1 hk
    rcases bdAdd_onVec h hm hk with ⟨h1, _⟩ | ⟨h1, h2⟩
    · exact Or.inl ⟨g, h1⟩
    · exact Or.inr (Or.inr (Or.inr ⟨h1, m, hm, hk, h2⟩))

omit [SetImpl] in
/-- An invariant of a loop that returns. -/
theorem foldE_returned {σ α : Type} {f : σ → α → Except Panic σ} {l : List α} {s s' : σ} (P : List α → σ → Prop) (h0 : P [] s)
    (hstep : ∀ pre a post s1 s2, l = pre ++ a :: post → P pre s1 → f s1 a = .ok s2 → P (pre ++ [a]) s2) (hok : foldE f s l = .ok s') : P l s' := by
  rcases foldE_cases (f := f) (l := l) (s := s) P (fun _ => True) h0 (by
    intro pre a post s1 hl hp
    cases hf : f s1 a with
    | error e => exact Or.inr ⟨e, rfl, trivial⟩
    | ok s2 => exact Or.inl ⟨s2, rfl, hstep pre a post s1 s2 hl hp hf⟩) with ⟨s2, h1, h2⟩ | ⟨e, h1, _⟩
  · rw [hok, Except.ok.injEq] at h1
    subst h1
    exact h2
  · rw [hok] at h1; exact absurd h1 (by simp)

/-- Completion that returns. -/
theorem applyBidirectional_vec {g g' : Graph} (h : g.Inv S e0) {r : Lcr} (hok : applyBidirectional S g r = .ok g') :
    Kept S e0 g g' ∧ (∀ c ∈ r.removes, ∀ m, View.Opp S g.get? c m → S.kind? m ≠ some .vec) ∧
      (∀ z t w, View.Holds g'.get? z t w ↔
        (View.Holds g.get? z t w ∧ ¬ ∃ c ∈ r.removes.elems, z = c.2.1 ∧ w = c.1 ∧ View.Opp S g.get? c t.mirror) ∨
        ∃ c ∈ r.adds.elems, z = c.2.1 ∧ w = c.1 ∧ t.slot = 0 ∧ S.kind? t.mirror ≠ some .vec ∧ View.OnlyOpp S g.get? c t.mirror) ∧
      ∀ c ∈ r.adds, (∃ m, View.Opp S g.get? c m) → ∃ m, View.Opp S g.get? c m ∧ View.Link g'.get? c.2.1 m c.1 := by
  simp only [applyBidirectional] at hok
  cases h1 : foldE (bdRemove S) g r.removes.elems with
  | error e => rw [h1] at hok; exact absurd hok (by simp)
  | ok g1 =>
    rw [h1] at hok
    simp only at hok
    obtain ⟨k1, k2, k3⟩ := foldE_returned (fun P (g' : Graph) => Kept S e0 g g' ∧ (∀ c ∈ P, ∀ m, View.Opp S g.get? c m → S.kind? m ≠ some .vec) ∧
      ∀ z t w, View.Holds g'.get? z t w ↔ View.Holds g.get? z t w ∧ ¬ ∃ c ∈ P, z = c.2.1 ∧ w = c.1 ∧ View.Opp S g.get? c t.mirror)
      ⟨Kept.refl h, by simp, by simp⟩ (by
        intro pre c post s1 s2 _ ⟨hk, hn, hH⟩ hs
        obtain ⟨e1, e2, e3⟩ := bdRemove_vec hk.inv hs
        refine ⟨hk.trans e1, fun q hq m hm => ?_, fun z t w => ?_⟩
        · rcases List.mem_append.1 hq with hq | hq
          · exact hn q hq m hm
          · rw [List.mem_singleton] at hq
            subst hq
            exact e2 m ((hk.shape.opp _ _).2 hm)
        · rw [e3, hH, hk.shape.opp]
          constructor
          · rintro ⟨⟨h1, h2⟩, h3⟩
            refine ⟨h1, ?_⟩
            rintro ⟨q, hq, hh⟩
            rcases List.mem_append.1 hq with hq | hq
            · exact h2 ⟨q, hq, hh⟩
            · simp at hq; subst hq; exact h3 hh
          · rintro ⟨h1, h2⟩
            exact ⟨⟨h1, fun ⟨q, hq, hh⟩ => h2 ⟨q, by simp [hq], hh⟩⟩, fun hh => h2 ⟨c, by simp, hh⟩⟩) h1
    obtain ⟨j1, j2, j3⟩ := foldE_returned (fun P (g' : Graph) => Kept S e0 g1 g' ∧
      (∀ z t w, View.Holds g'.get? z t w ↔ View.Holds g1.get? z t w ∨
        ∃ c ∈ P, z = c.2.1 ∧ w = c.1 ∧ t.slot = 0 ∧ S.kind? t.mirror ≠ some .vec ∧ View.OnlyOpp S g1.get? c t.mirror) ∧
      ∀ c ∈ P, (∃ m, View.Opp S g1.get? c m) → ∃ m, View.Opp S g1.get? c m ∧ View.Link g'.get? c.2.1 m c.1)
      ⟨Kept.refl k1.inv, by simp, by simp⟩ (by
        intro pre c post s1 s2 _ ⟨hk, hH, hC⟩ hs
        obtain ⟨e2, e3, e4⟩ := bdAdd_vec hk.inv hs
        refine ⟨hk.trans e2, fun z t w => ?_, fun q hq hm => ?_⟩
        · rw [e3, hH, hk.shape.onlyOpp]
          constructor
          · rintro ((h1 | ⟨q, hq, hh⟩) | hh)
            · exact Or.inl h1
            · exact Or.inr ⟨q, by simp [hq], hh⟩
            · exact Or.inr ⟨c, by simp, hh⟩
          · rintro (h1 | ⟨q, hq, hh⟩)
            · exact Or.inl (Or.inl h1)
            · rcases List.mem_append.1 hq with hq | hq
              · exact Or.inl (Or.inr ⟨q, hq, hh⟩)
              · simp at hq; subst hq; exact Or.inr hh
        · rcases List.mem_append.1 hq with hq | hq
          · obtain ⟨m, h1, h2⟩ := hC q hq hm
            refine ⟨m, h1, ?_⟩
            obtain ⟨k, hk2⟩ := View.link_iff.1 h2
            exact View.link_iff.2 ⟨k, (e3 _ _ _).2 (Or.inl hk2)⟩
          · simp at hq; subst hq
            obtain ⟨m0, hm0⟩ := hm
            obtain ⟨m, h1, h2⟩ := e4 ⟨m0, (hk.shape.opp _ _).2 hm0⟩
            exact ⟨m, (hk.shape.opp _ _).1 h1, h2⟩) hok
    refine ⟨k1.trans j1, k2, fun z t w => ?_, fun c hc hm => ?_⟩
    · rw [j2, k3]
      simp only [k1.shape.onlyOpp]
    · simp only [← k1.shape.opp] at hm ⊢
      exact j3 c hc hm

/-- All outcomes of completion. -/
theorem applyBidirectional_all {g : Graph} (h : g.Inv S e0) (r : Lcr) :
    (applyBidirectional S g r = .error .removeOnVec ∧ ∃ c ∈ r.removes.elems, ∃ m, View.Opp S g.get? c m ∧ S.kind? m = some .vec) ∨
    ((∀ c ∈ r.removes.elems, ∀ m, View.Opp S g.get? c m → S.kind? m ≠ some .vec) ∧ ∃ v1, Cleared S g.get? v1 r.removes.elems ∧
      ((∃ g', applyBidirectional S g r = .ok g' ∧ ¬ Conflict S v1 r.adds.elems) ∨
      (applyBidirectional S g r = .error .multiChoice ∧ Undecided S v1 r.adds.elems) ∨
      (applyBidirectional S g r = .error .addOnExisting ∧ Conflict S v1 r.adds.elems) ∨
      (applyBidirectional S g r = .error .addOnVec ∧
        ∃ c ∈ r.adds.elems, ∃ m, View.OnlyOpp S g.get? c m ∧ S.kind? m = some .vec ∧ ¬ View.Link g.get? c.2.1 m c.1))) := by
  rcases foldE_cases (f := bdRemove S) (l := r.removes.elems) (s := g)
    (P := fun P (g' : Graph) => Kept S e0 g g' ∧ (∀ c ∈ P, ∀ m, View.Opp S g.get? c m → S.kind? m ≠ some .vec) ∧
      ∀ z t w, View.Holds g'.get? z t w ↔ View.Holds g.get? z t w ∧ ¬ ∃ c ∈ P, z = c.2.1 ∧ w = c.1 ∧ View.Opp S g.get? c t.mirror)
    (E := fun e => e = .removeOnVec ∧ ∃ c ∈ r.removes.elems, ∃ m, View.Opp S g.get? c m ∧ S.kind? m = some .vec)
    ⟨Kept.refl h, by simp, by simp⟩ (by
      intro pre c post s1 hl ⟨hk, hn, hH⟩
      rcases bdRemove_kept hk.inv c with ⟨s2, hs, _⟩ | ⟨hs, m, hm, hkm⟩
      · left
        obtain ⟨e1, e2, e3⟩ := bdRemove_vec hk.inv hs
        refine ⟨s2, hs, hk.trans e1, fun q hq m hm => ?_, fun z t w => ?_⟩
        · rcases List.mem_append.1 hq with hq | hq
          · exact hn q hq m hm
          · rw [List.mem_singleton] at hq
            subst hq
            exact e2 m ((hk.shape.opp _ _).2 hm)
        · rw [e3, hH, hk.shape.opp]
          constructor
          · rintro ⟨⟨h1, h2⟩, h3⟩
            refine ⟨h1, ?_⟩
            rintro ⟨q, hq, hh⟩
            rcases List.mem_append.1 hq with hq | hq
            · exact h2 ⟨q, hq, hh⟩
            · simp at hq; subst hq; exact h3 hh
          · rintro ⟨h1, h2⟩
            exact ⟨⟨h1, fun ⟨q, hq, hh⟩ => h2 ⟨q, by simp [hq], hh⟩⟩, fun hh => h2 ⟨c, by simp, hh⟩⟩
      · exact Or.inr ⟨_, hs, rfl, c, by rw [hl]; simp, m, (hk.shape.opp _ _).1 hm, hkm⟩) with ⟨g1, h1, k1, k2, k3⟩ | ⟨e, h1, rfl, h2⟩
  · right
    refine ⟨k2, g1.get?, ⟨k1.shape, k3⟩, ?_⟩
    rcases foldE_cases (f := bdAdd S) (l := r.adds.elems) (s := g1)
      (P := fun P (g' : Graph) => Kept S e0 g1 g' ∧
        (∀ z t w, View.Holds g'.get? z t w ↔ View.Holds g1.get? z t w ∨
          ∃ c ∈ P, z = c.2.1 ∧ w = c.1 ∧ t.slot = 0 ∧ S.kind? t.mirror ≠ some .vec ∧ View.OnlyOpp S g1.get? c t.mirror))
      (E := fun e => (e = .multiChoice ∧ Undecided S g1.get? r.adds.elems) ∨ (e = .addOnExisting ∧ Conflict S g1.get? r.adds.elems) ∨
        (e = .addOnVec ∧ ∃ c ∈ r.adds.elems, ∃ m, View.OnlyOpp S g1.get? c m ∧ S.kind? m = some .vec ∧ ¬ View.Link g1.get? c.2.1 m c.1))
      ⟨Kept.refl k1.inv, by simp⟩ (by
        intro pre c post s1 hl ⟨hk, hH⟩
        have hcl : c ∈ r.adds.elems := by rw [hl]; simp
        have hgrow : ∀ z m w, View.Link g1.get? z m w → View.Link s1.get? z m w := by
          intro z m w hl
          obtain ⟨k, hk⟩ := View.link_iff.1 hl
          exact View.link_iff.2 ⟨k, (hH _ _ _).2 (Or.inl hk)⟩
        rcases bdAdd_all hk.inv c with ⟨s2, hs⟩ | ⟨e1, ⟨m, e2⟩, e3, e4⟩ | ⟨e1, m, i, e2, e3, e4, e5⟩ | ⟨e1, m, e2, e3, e4⟩
        · left
          obtain ⟨e2, e3, _⟩ := bdAdd_vec hk.inv hs
          refine ⟨s2, hs, hk.trans e2, fun z t w => ?_⟩
          rw [e3, hH, hk.shape.onlyOpp]
          constructor
          · rintro ((h1 | ⟨q, hq, hh⟩) | hh)
            · exact Or.inl h1
            · exact Or.inr ⟨q, by simp [hq], hh⟩
            · exact Or.inr ⟨c, by simp, hh⟩
          · rintro (h1 | ⟨q, hq, hh⟩)
            · exact Or.inl (Or.inl h1)
            · rcases List.mem_append.1 hq with hq | hq
              · exact Or.inl (Or.inr ⟨q, hq, hh⟩)
              · simp at hq; subst hq; exact Or.inr hh
        · refine Or.inr ⟨_, e1, Or.inl ⟨rfl, c, hcl, ⟨m, (hk.shape.opp _ _).1 e2⟩, ?_, ?_⟩⟩
          · intro m' hm'; exact e3 m' ((hk.shape.onlyOpp _ _).2 hm')
          · intro m' hm' hl
            exact e4 m' ((hk.shape.opp _ _).2 hm') (hgrow _ _ _ hl)
        · refine Or.inr ⟨_, e1, Or.inr (Or.inl ⟨rfl, c, hcl, m, i, (hk.shape.onlyOpp _ _).1 e2, e3, e5, ?_⟩)⟩
          obtain ⟨k, hk4⟩ := View.link_iff.1 e4
          rcases (hH _ _ _).1 hk4 with h1 | ⟨q, hq, h2, h3, h4, _, h5⟩
          · exact Or.inl (View.link_iff.2 ⟨k, h1⟩)
          · exact Or.inr ⟨q, by rw [hl]; simp [hq], h3.symm, h2.symm, h5⟩
        · exact Or.inr ⟨_, e1, Or.inr (Or.inr ⟨rfl, c, hcl, m, (hk.shape.onlyOpp _ _).1 e2, e3, fun hl => e4 (hgrow _ _ _ hl)⟩)⟩)
      with ⟨g', j1, j2, j3⟩ | ⟨e, j1, ⟨rfl, j2⟩ | ⟨rfl, j2⟩ | ⟨rfl, c, j2, m, j3, j4, j5⟩⟩
    · refine Or.inl ⟨g', by simp only [applyBidirectional, h1, j1], ?_⟩
      rintro ⟨c, hc, m, i, ho, hk, hi, hor⟩
      have hnv : S.kind? m ≠ some .vec := by rw [hk]; simp
      have l1 : View.Link g'.get? c.2.1 m c.1 := View.link_iff.2 ⟨0, (j3 _ _ _).2 (Or.inr ⟨c, hc, rfl, rfl, rfl, hnv, ho⟩)⟩
      have l2 : View.Link g'.get? c.2.1 m i := by
        rcases hor with h4 | ⟨c', hc', h5, h6, h7⟩
        · obtain ⟨k, hk⟩ := View.link_iff.1 h4
          exact View.link_iff.2 ⟨k, (j3 _ _ _).2 (Or.inl hk)⟩
        · exact View.link_iff.2 ⟨0, (j3 _ _ _).2 (Or.inr ⟨c', hc', h6.symm, h5.symm, rfl, hnv, h7⟩)⟩
      exact hi (direct_unique j2.inv.wt hk l2 l1)
    · exact Or.inr (Or.inl ⟨by simp only [applyBidirectional, h1, j1], j2⟩)
    · exact Or.inr (Or.inr (Or.inl ⟨by simp only [applyBidirectional, h1, j1], j2⟩))
    · refine Or.inr (Or.inr (Or.inr ⟨by simp only [applyBidirectional, h1, j1], c, j2, m, (k1.shape.onlyOpp _ _).1 j3, j4, fun hl => j5 ?_⟩))
      obtain ⟨k, hk⟩ := View.link_iff.1 hl
      exact View.link_iff.2 ⟨k, (k3 _ _ _).2 ⟨hk, fun ⟨q, hq, _, _, hopp⟩ => k2 q hq m hopp j4⟩⟩
  · left
    exact ⟨by simp only [applyBidirectional, h1], h2⟩

end Graph
end TTGraph
