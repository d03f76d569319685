import Verif.Lemmas.Fa


set_option autoImplicit false
namespace TTGraph

/-- `v'` is `v` with all links renamed by `ρ`, in terms of places. -/
structure View.RenH (ρ : NodeIndex → NodeIndex) (v v' : View) : Prop where
  shape : View.SameShape v v'
  holds : ∀ y t w, v'.Holds y t w ↔ ∃ u, v.Holds y t u ∧ ρ u = w ∧ (w ≠ emptyIdx ∨ u = emptyIdx)

theorem View.RenH.id (v : View) : View.RenH id v v :=
  ⟨View.SameShape.refl v, fun y t w => by
    constructor
    · intro h; exact ⟨w, h, rfl, by by_cases hw : w = emptyIdx <;> simp [hw]⟩
    · rintro ⟨u, h, rfl, _⟩; exact h⟩

namespace Graph

/-- Where the links of `u` go: to the root of the first request for `u`. -/
def firstTarget (R : NodeIndex → NodeIndex) (reps : List (NodeIndex × NodeIndex)) (u : NodeIndex) : NodeIndex :=
  match reps.find? (fun p => p.1 = u) with
  | some p => R p.2
  | none => u

theorem firstTarget_not_old {R : NodeIndex → NodeIndex} {reps : List (NodeIndex × NodeIndex)} {u : NodeIndex}
    (h : ∀ n, (u, n) ∉ reps) : firstTarget R reps u = u := by
  have : reps.find? (fun p => p.1 = u) = none := by
    rw [List.find?_eq_none]
    rintro ⟨a, b⟩ hp ha
    simp at ha; subst ha; exact h b hp
  simp [firstTarget, this]

theorem firstTarget_first {R : NodeIndex → NodeIndex} {pre post : List (NodeIndex × NodeIndex)} {u n : NodeIndex}
    (h : ∀ m, (u, m) ∉ pre) : firstTarget R (pre ++ (u, n) :: post) u = R n := by
  have : pre.find? (fun p => p.1 = u) = none := by
    rw [List.find?_eq_none]
    rintro ⟨a, b⟩ hp ha
    simp at ha; subst ha; exact h b hp
  simp [firstTarget, List.find?_append, this]

theorem firstTarget_append_old {R : NodeIndex → NodeIndex} {pre : List (NodeIndex × NodeIndex)} {p : NodeIndex × NodeIndex} {u : NodeIndex}
    (h : ∃ m, (u, m) ∈ pre) : firstTarget R (pre ++ [p]) u = firstTarget R pre u := by
  obtain ⟨m, hm⟩ := h
  cases hf : pre.find? (fun p => p.1 = u) with
  | none =>
    rw [List.find?_eq_none] at hf
    exact absurd (hf _ hm) (by simp)
  | some q => simp [firstTarget, List.find?_append, hf]

theorem firstTarget_append_ne {R : NodeIndex → NodeIndex} {pre : List (NodeIndex × NodeIndex)} {p : NodeIndex × NodeIndex} {u : NodeIndex}
    (h : p.1 ≠ u) : firstTarget R (pre ++ [p]) u = firstTarget R pre u := by
  cases hf : pre.find? (fun p => p.1 = u) with
  | none => simp [firstTarget, List.find?_append, hf, h]
  | some q => simp [firstTarget, List.find?_append, hf]

theorem firstTarget_cases (R : NodeIndex → NodeIndex) (reps : List (NodeIndex × NodeIndex)) (u : NodeIndex) :
    ((∀ n, (u, n) ∉ reps) ∧ firstTarget R reps u = u) ∨ (∃ n, (u, n) ∈ reps ∧ firstTarget R reps u = R n) := by
  cases hf : reps.find? (fun p => p.1 = u) with
  | none =>
    refine Or.inl ⟨?_, by simp [firstTarget, hf]⟩
    intro n hn
    rw [List.find?_eq_none] at hf
    exact absurd (hf _ hn) (by simp)
  | some q =>
    have h1 := List.mem_of_find?_eq_some hf
    have h2 := List.find?_some hf
    simp at h2
    refine Or.inr ⟨q.2, ?_, by simp [firstTarget, hf]⟩
    rw [← h2]; exact h1

theorem firstTarget_append {R : NodeIndex → NodeIndex} {pre post : List (NodeIndex × NodeIndex)} {u : NodeIndex}
    (h : ∃ m, (u, m) ∈ pre) : firstTarget R (pre ++ post) u = firstTarget R pre u := by
  obtain ⟨m, hm⟩ := h
  cases hf : pre.find? (fun p => p.1 = u) with
  | none =>
    rw [List.find?_eq_none] at hf
    exact absurd (hf _ hm) (by simp)
  | some q => simp [firstTarget, List.find?_append, hf]

/-- After the requests `pre` the field holds the index once. -/
def OnceAfter (g0 : Graph) (R : NodeIndex → NodeIndex) (pre : List (NodeIndex × NodeIndex)) (c : Change) : Prop :=
  ∀ k k' u u', View.Holds g0.get? c.1 ⟨c.2.2.disc, c.2.2.pos, k⟩ u → View.Holds g0.get? c.1 ⟨c.2.2.disc, c.2.2.pos, k'⟩ u' →
    firstTarget R pre u = c.2.1 → firstTarget R pre u' = c.2.1 → k = k'

/-- State of the third loop after the requests `pre`. -/
structure RedirInv (S : Schema) (L0 : Change → Prop) (e0 : Prop) (g0 : Graph) (r0 : Lcr) (fa0 : Fa) (R : NodeIndex → NodeIndex)
    (pre : List (NodeIndex × NodeIndex)) (st : Fa × Graph × Lcr) : Prop where
  paths : ∀ u j r, PathN fa0 u j r → ∃ j', PathN st.1 u j' r
  inv : st.2.1.Inv S (e0 ∧ ∀ p ∈ pre, R p.2 ≠ emptyIdx)
  ctx : st.2.1.ctxId = g0.ctxId
  disp : st.2.1.nodes.disp = g0.nodes.disp
  ren : View.RenH (firstTarget R pre) g0.get? st.2.1.get?
  known : ∀ y, st.2.1.back.Known y ↔ g0.back.Known y ∨ ∃ p ∈ pre, y = R p.2
  typed : g0.nodes.Typed → st.2.1.nodes.Typed
  lcr : ∀ D : Change → Prop, (∀ c, D c → c.2.1 ≠ emptyIdx ∧ (S.kind? c.2.2 ≠ some .vec ∨ ∀ p, p <+: pre → OnceAfter g0 R p c)) →
    Lcr.Ok D L0 (View.L g0.get?) r0 → Lcr.Ok D L0 (View.L st.2.1.get?) st.2.2

section
variable [SetImpl] {S : Schema} {L0 : Change → Prop} {e0 : Prop} {g0 : Graph} {r0 : Lcr} {fa0 : Fa} {R : NodeIndex → NodeIndex}
  {reps : List (NodeIndex × NodeIndex)}

theorem redirStep_ok (hR : ∀ u, Mentioned reps u → ∃ k, PathN fa0 u k (R u)) (hRo : ∀ u, Mentioned reps u → ∀ n, (R u, n) ∉ reps)
    (h0 : (∃ n, (emptyIdx, n) ∈ reps) → e0)
    {pre post : List (NodeIndex × NodeIndex)} {p : NodeIndex × NodeIndex} (hsplit : reps = pre ++ p :: post)
    {st : Fa × Graph × Lcr} (h : RedirInv S L0 e0 g0 r0 fa0 R pre st) (hk : g0.back.Known p.1) :
    ∃ st', redirStep st p = .ok st' ∧ RedirInv S L0 e0 g0 r0 fa0 R (pre ++ [p]) st' := by
  obtain ⟨fa, g, r⟩ := st
  obtain ⟨old, new⟩ := p
  have hsub : ∀ q ∈ pre, q ∈ reps := by intro q hq; rw [hsplit]; simp [hq]
  have hpm : (old, new) ∈ reps := by rw [hsplit]; simp
  have hment : Mentioned reps new := ⟨_, hpm, Or.inr rfl⟩
  obtain ⟨k0, hp0⟩ := hR new hment
  obtain ⟨k, hp⟩ := h.paths new k0 (R new) hp0
  have hp : PathN fa new k (R new) := hp
  obtain ⟨y, hy⟩ := OrderMap.mem_keys.1 hp.key
  have hb := hp.bound
  have hch : chase fa (fa.len + 1) new y = .ok (R new) := chase_ok hp (by omega) hy
  have hxold : old ≠ R new := by
    intro e; exact hRo new hment new (e ▸ hpm)
  have hRp : ∀ q ∈ pre, ∀ n, (R q.2, n) ∉ reps := fun q hq => hRo q.2 ⟨q, hsub q hq, Or.inr rfl⟩
  have hcond : old ≠ emptyIdx ∨ (e0 ∧ ∀ q ∈ pre, R q.2 ≠ emptyIdx) := by
    by_cases ho : old = emptyIdx
    · refine Or.inr ⟨h0 ⟨new, ho ▸ hpm⟩, ?_⟩
      intro q hq e
      have := hRp q hq new
      rw [e, ← ho] at this
      exact this hpm
    · exact Or.inl ho
  have hkold : g.back.Known old := (h.known old).2 (Or.inl hk)
  obtain ⟨g', r', e1, e2, e3, e4, e5, e6, e7, e8⟩ := redirectLinks_ok (r := r) h.inv hkold hcond hxold L0
  obtain ⟨fa', c1, c2⟩ := compress_ok (y := R new) (fuel := fa.len + 1) hp (by omega)
  refine ⟨(fa', g', r'), ?_, ?_⟩
  · simp only [redirStep, hy, hch, e1, c1]
  · have hnew0 : ∀ u : NodeIndex, firstTarget R pre u = old → u = old ∧ ∀ n, (old, n) ∉ pre := by
      intro u hu
      rcases firstTarget_cases R pre u with ⟨h1, h2⟩ | ⟨n, h1, h2⟩
      · rw [h2] at hu; subst hu; exact ⟨rfl, h1⟩
      · rw [h2] at hu
        exact absurd (hu ▸ hpm) (hRp (u, n) h1 new)
    have hren : View.RenH (firstTarget R (pre ++ [(old, new)])) g0.get? g'.get? := by
      refine ⟨h.ren.shape.trans e5.shape, ?_⟩
      intro z t w
      have e5h : View.Holds g'.get? z t w ↔ (View.Holds g.get? z t w ∧ w ≠ old) ∨ (w = R new ∧ R new ≠ emptyIdx ∧ View.Holds g.get? z t old) := by
        rw [e5.holds]
        constructor
        · rintro (⟨a1, a2⟩ | a)
          · exact Or.inl ⟨a1, fun hw => a2 ⟨hw, hw ▸ a1⟩⟩
          · exact Or.inr a
        · rintro (⟨a1, a2⟩ | a)
          · exact Or.inl ⟨a1, fun hw => a2 hw.1⟩
          · exact Or.inr a
      show View.Holds g'.get? z t w ↔ _
      have hold : View.Holds g.get? z t old ↔ View.Holds g0.get? z t old ∧ ∀ n, (old, n) ∉ pre := by
        have := h.ren.holds z t old
        refine this.trans ?_
        constructor
        · rintro ⟨u, hu, hf, _⟩
          obtain ⟨rfl, hn⟩ := hnew0 u hf
          exact ⟨hu, hn⟩
        · rintro ⟨hu, hn⟩
          refine ⟨old, hu, firstTarget_not_old hn, ?_⟩
          by_cases ho : old = emptyIdx
          · exact Or.inr ho
          · exact Or.inl ho
      rw [e5h, hold]
      have hw := h.ren.holds z t w
      have hw : View.Holds g.get? z t w ↔ ∃ u, View.Holds g0.get? z t u ∧ firstTarget R pre u = w ∧ (w ≠ emptyIdx ∨ u = emptyIdx) := hw
      rw [hw]
      constructor
      · rintro (⟨⟨u, hu, hf, hs⟩, hwo⟩ | ⟨rfl, hR0, hu, hn⟩)
        · refine ⟨u, hu, ?_, hs⟩
          by_cases huo : old = u
          · subst huo
            have : ∃ m, (old, m) ∈ pre := by
              by_contra hc
              have hc' : ∀ m, (old, m) ∉ pre := fun m hm => hc ⟨m, hm⟩
              rw [firstTarget_not_old hc'] at hf
              exact hwo hf.symm
            rw [firstTarget_append_old this]; exact hf
          · rw [firstTarget_append_ne (p := (old, new)) huo]; exact hf
        · exact ⟨old, hu, firstTarget_first hn, Or.inl hR0⟩
      · rintro ⟨u, hu, hf, hs⟩
        by_cases huo : u = old ∧ ∀ n, (old, n) ∉ pre
        · obtain ⟨rfl, hn⟩ := huo
          rw [firstTarget_first hn] at hf
          subst hf
          refine Or.inr ⟨rfl, ?_, hu, hn⟩
          rcases hs with hs | hs
          · exact hs
          · exact fun hc => hxold (hs.trans hc.symm)
        · have hf' : firstTarget R pre u = w := by
            by_cases hu' : old = u
            · subst hu'
              have : ∃ m, (old, m) ∈ pre := by
                by_contra hc
                exact huo ⟨rfl, fun m hm => hc ⟨m, hm⟩⟩
              rw [firstTarget_append_old this] at hf; exact hf
            · rw [firstTarget_append_ne (p := (old, new)) hu'] at hf; exact hf
          refine Or.inl ⟨⟨u, hu, hf', hs⟩, ?_⟩
          intro hwo
          subst hwo
          exact huo (hnew0 u hf')
    refine ⟨?_, ?_, e3.trans h.ctx, e4.trans h.disp, hren, ?_, fun ht => e7 (h.typed ht), fun D hD hok => ?_⟩
    · intro u j r hu
      obtain ⟨j', hj'⟩ := h.paths u j r hu
      obtain ⟨j'', _, hj''⟩ := c2 u j' r hj'
      exact ⟨j'', hj''⟩
    · refine e2.mono ?_
      rintro ⟨he, hall⟩
      refine ⟨⟨he, fun q hq => hall q (by simp [hq])⟩, hall (old, new) (by simp)⟩
    · intro z
      have := h.known z
      show g'.back.Known z ↔ _
      rw [e6]
      have : g.back.Known z ↔ g0.back.Known z ∨ ∃ p ∈ pre, z = R p.2 := this
      rw [this]
      simp only [List.mem_append, List.mem_singleton]
      constructor
      · rintro ((a | ⟨q, hq, a⟩) | a)
        · exact Or.inl a
        · exact Or.inr ⟨q, Or.inl hq, a⟩
        · exact Or.inr ⟨(old, new), Or.inr rfl, a⟩
      · rintro (a | ⟨q, hq | rfl, a⟩)
        · exact Or.inl (Or.inl a)
        · exact Or.inl (Or.inr ⟨q, hq, a⟩)
        · exact Or.inr a
    · have hpr : ∀ p, p <+: pre → p <+: pre ++ [(old, new)] := fun p hp => hp.trans (List.prefix_append _ _)
      refine e8 D (fun c hc => ⟨(hD c hc).1, (hD c hc).2.imp id fun ho => ⟨?_, ?_⟩⟩)
        (h.lcr D (fun c hc => ⟨(hD c hc).1, (hD c hc).2.imp id fun ho p hp => ho p (hpr p hp)⟩) hok)
      · intro k k' h1 h2
        obtain ⟨u, hu, hf, _⟩ := (h.ren.holds _ _ _).1 h1
        obtain ⟨u', hu', hf', _⟩ := (h.ren.holds _ _ _).1 h2
        exact ho pre (hpr pre (List.prefix_refl _)) k k' u u' hu hu' hf hf'
      · intro k k' h1 h2
        obtain ⟨u, hu, hf, _⟩ := (hren.holds _ _ _).1 h1
        obtain ⟨u', hu', hf', _⟩ := (hren.holds _ _ _).1 h2
        exact ho _ (List.prefix_refl _) k k' u u' hu hu' hf hf'

omit [SetImpl] in
theorem redirInv_nil (h : g0.Inv S e0) (hR : ∀ u j r, PathN fa0 u j r → ∃ j', PathN fa0 u j' r) :
    RedirInv S L0 e0 g0 r0 fa0 R [] (fa0, g0, r0) where
  paths := hR
  inv := h.mono (fun hh => hh.1)
  ctx := rfl
  disp := rfl
  ren := by
    have : firstTarget R [] = id := by funext u; rfl
    rw [this]; exact View.RenH.id _
  known := by simp
  typed := id
  lcr := fun _ _ h => h

/-- Redirecting a list of requests: outcome, given the parent map that the second loop computes and the ends of its chains. -/
theorem redirectLinksVec_fa (S : Schema) {reps : List (NodeIndex × NodeIndex)} {fa : Fa} (hfa : foldE faStep (faInit reps) reps = .ok fa)
    (hinv : FaInv (Mentioned reps) reps fa) {R : NodeIndex → NodeIndex} (hR : ∀ u, Mentioned reps u → ∃ k, PathN fa u k (R u))
    {g0 : Graph} {e0 : Prop} (h : g0.Inv S e0) (r0 : Lcr) (h0 : (∃ n, (emptyIdx, n) ∈ reps) → e0) (L0 : Change → Prop) :
    ((∃ p ∈ reps, ¬ g0.back.Known p.1) ∧ redirectLinksVec g0 reps r0 = .error .backMissing) ∨
    ((∀ p ∈ reps, g0.back.Known p.1) ∧ ∃ g' r', redirectLinksVec g0 reps r0 = .ok (g', r') ∧
      (∀ p ∈ reps, (∀ n, (R p.2, n) ∉ reps) ∧ Reach reps p.2 (R p.2)) ∧
      g'.Inv S (e0 ∧ ∀ p ∈ reps, R p.2 ≠ emptyIdx) ∧ g'.ctxId = g0.ctxId ∧ g'.nodes.disp = g0.nodes.disp ∧
      View.RenH (firstTarget R reps) g0.get? g'.get? ∧ (∀ y, g'.back.Known y ↔ g0.back.Known y ∨ ∃ p ∈ reps, y = R p.2) ∧
      (g0.nodes.Typed → g'.nodes.Typed) ∧
      Lcr.Keeps S L0 g0.get? r0 g'.get? r') := by
  have hRo : ∀ u, Mentioned reps u → ∀ n, (R u, n) ∉ reps := by
    intro u hu
    obtain ⟨k, hp⟩ := hR u hu
    exact hinv.roots _ hp.isRoot
  have hloop : ∀ pre post, reps = pre ++ post → (∀ p ∈ pre, g0.back.Known p.1) →
      ∃ st, foldE redirStep (fa, g0, r0) pre = .ok st ∧ RedirInv S L0 e0 g0 r0 fa R pre st := by
    intro pre post he hk
    refine foldE_total (P := fun P st => RedirInv S L0 e0 g0 r0 fa R P st) (redirInv_nil h (fun u j r hp => ⟨j, hp⟩)) ?_
    intro pre' p post' st hs hst
    exact redirStep_ok hR hRo h0 (pre := pre') (p := p) (post := post' ++ post) (by rw [he, hs]; simp) hst (hk p (by rw [hs]; simp))
  by_cases hall : ∀ p ∈ reps, g0.back.Known p.1
  · refine Or.inr ⟨hall, ?_⟩
    obtain ⟨⟨fa', g', r'⟩, hf, hst⟩ := hloop reps [] (by simp) hall
    refine ⟨g', r', by simp only [redirectLinksVec, hfa, hf], ?_, hst.inv, hst.ctx, hst.disp, hst.ren, hst.known, hst.typed, fun D hD => hst.lcr D fun c hc => ⟨(hD c hc).1, (hD c hc).2.imp id ?_⟩⟩
    swap
    · rintro ⟨ho, ho'⟩ pr ⟨po, hpr⟩ k k' u u' hu hu' e e'
      have hnz := (hD c hc).1
      by_cases hy : ∃ n, (c.2.1, n) ∈ reps
      · obtain ⟨n, hn⟩ := hy
        have key : ∀ u, firstTarget R pr u = c.2.1 → u = c.2.1 := by
          intro u e
          rcases firstTarget_cases R pr u with ⟨_, h2⟩ | ⟨m, h1, h2⟩
          · exact h2.symm.trans e
          · refine absurd hn ?_
            rw [← e, h2]
            exact hRo m ⟨(u, m), by rw [← hpr]; exact List.mem_append_left _ h1, Or.inr rfl⟩ n
        rw [key u e] at hu
        rw [key u' e'] at hu'
        exact ho k k' hu hu'
      · have key : ∀ u, firstTarget R pr u = c.2.1 → firstTarget R reps u = c.2.1 := by
          intro u e
          rcases firstTarget_cases R pr u with ⟨_, h2⟩ | ⟨m, h1, h2⟩
          · obtain rfl : u = c.2.1 := h2.symm.trans e
            exact firstTarget_not_old fun n hn => hy ⟨n, hn⟩
          · rw [← hpr, firstTarget_append ⟨m, h1⟩, e]
        exact ho' k k' ((hst.ren.holds _ _ _).2 ⟨u, hu, key u e, Or.inl hnz⟩) ((hst.ren.holds _ _ _).2 ⟨u', hu', key u' e', Or.inl hnz⟩)
    intro p hp
    have hm : Mentioned reps p.2 := ⟨p, hp, Or.inr rfl⟩
    refine ⟨hRo p.2 hm, ?_⟩
    obtain ⟨k, hpath⟩ := hR p.2 hm
    exact hinv.reach hpath
  · refine Or.inl ?_
    have hbad : ∃ p ∈ reps, ¬ g0.back.Known p.1 := by
      by_contra hc
      exact hall (fun p hp => by_contra fun hn => hc ⟨p, hp, hn⟩)
    refine ⟨hbad, ?_⟩
    -- split at the first unknown
    have hsplit : ∃ pre p post, reps = pre ++ p :: post ∧ (∀ q ∈ pre, g0.back.Known q.1) ∧ ¬ g0.back.Known p.1 := by
      clear hloop hR hRo hinv hfa hall h0
      induction reps with
      | nil => simp at hbad
      | cons a l ih =>
        by_cases ha : g0.back.Known a.1
        · obtain ⟨p, hp, hpk⟩ := hbad
          rcases List.mem_cons.1 hp with rfl | hp
          · exact absurd ha hpk
          · obtain ⟨pre, q, post, h1, h2, h3⟩ := ih ⟨p, hp, hpk⟩
            refine ⟨a :: pre, q, post, by rw [h1]; rfl, ?_, h3⟩
            intro z hz
            rcases List.mem_cons.1 hz with rfl | hz
            · exact ha
            · exact h2 z hz
        · exact ⟨[], a, l, rfl, by simp, ha⟩
    obtain ⟨pre, p, post, hs, hpre, hpk⟩ := hsplit
    obtain ⟨⟨fa', g', r'⟩, hf, hst⟩ := hloop pre (p :: post) hs hpre
    have hpm : p ∈ reps := by rw [hs]; simp
    have hment : Mentioned reps p.2 := ⟨_, hpm, Or.inr rfl⟩
    obtain ⟨k0, hp0⟩ := hR p.2 hment
    obtain ⟨k, hpath⟩ := hst.paths p.2 k0 (R p.2) hp0
    have hpath : PathN fa' p.2 k (R p.2) := hpath
    obtain ⟨y, hy⟩ := OrderMap.mem_keys.1 hpath.key
    have hb := hpath.bound
    have hch : chase fa' (fa'.len + 1) p.2 y = .ok (R p.2) := chase_ok hpath (by omega) hy
    have hunk : ¬ g'.back.Known p.1 := by
      intro hc
      rcases (hst.known p.1).1 hc with h1 | ⟨q, hq, h1⟩
      · exact hpk h1
      · have hqm : q ∈ reps := by rw [hs]; simp [hq]
        refine hRo q.2 ⟨q, hqm, Or.inr rfl⟩ p.2 ?_
        rw [← h1]; exact hpm
    have hstep : redirStep (fa', g', r') p = .error .backMissing := by
      simp only [redirStep, hy, hch, redirectLinks_unknown hunk]
    have : foldE redirStep (fa, g0, r0) reps = .error .backMissing := by
      rw [hs, foldE_append, hf]
      simp only [foldE, hstep]
    simp only [redirectLinksVec, hfa, this]

/-- Redirecting a list of requests: outcome.  The requests alone decide whether there is a loop and where the chains end. -/
theorem redirectLinksVec_uniform (S : Schema) (reps : List (NodeIndex × NodeIndex)) :
    (Cyclic reps ∧ ∀ g r, redirectLinksVec g reps r = .error .redirectLoop) ∨
    ∃ R : NodeIndex → NodeIndex, ∀ {g0 : Graph} {e0 : Prop}, g0.Inv S e0 → ∀ (r0 : Lcr), ((∃ n, (emptyIdx, n) ∈ reps) → e0) → ∀ L0 : Change → Prop,
    ((∃ p ∈ reps, ¬ g0.back.Known p.1) ∧ redirectLinksVec g0 reps r0 = .error .backMissing) ∨
    ((∀ p ∈ reps, g0.back.Known p.1) ∧ ∃ g' r', redirectLinksVec g0 reps r0 = .ok (g', r') ∧
      (∀ p ∈ reps, (∀ n, (R p.2, n) ∉ reps) ∧ Reach reps p.2 (R p.2)) ∧
      g'.Inv S (e0 ∧ ∀ p ∈ reps, R p.2 ≠ emptyIdx) ∧ g'.ctxId = g0.ctxId ∧ g'.nodes.disp = g0.nodes.disp ∧
      View.RenH (firstTarget R reps) g0.get? g'.get? ∧ (∀ y, g'.back.Known y ↔ g0.back.Known y ∨ ∃ p ∈ reps, y = R p.2) ∧
      (g0.nodes.Typed → g'.nodes.Typed) ∧
      Lcr.Keeps S L0 g0.get? r0 g'.get? r') := by
  rcases faPass (reps := reps) with ⟨fa, hfa, hinv⟩ | ⟨herr, hcyc⟩
  swap
  · exact Or.inl ⟨hcyc, fun g r => by simp only [redirectLinksVec, herr]⟩
  refine Or.inr ?_
  have hex : ∀ u, ∃ r, Mentioned reps u → ∃ k, PathN fa u k r := by
    intro u
    by_cases hu : Mentioned reps u
    · obtain ⟨k, r, hp⟩ := hinv.total u hu
      exact ⟨r, fun _ => ⟨k, hp⟩⟩
    · exact ⟨0, fun hc => absurd hc hu⟩
  obtain ⟨R, hR⟩ := Classical.skolem.1 hex
  exact ⟨R, fun {g0 e0} h r0 h0 L0 => redirectLinksVec_fa S hfa hinv hR h r0 h0 L0⟩

theorem redirectLinksVec_cases (h : g0.Inv S e0) (r0 : Lcr) (h0 : (∃ n, (emptyIdx, n) ∈ reps) → e0) (L0 : Change → Prop) :
    (Cyclic reps ∧ redirectLinksVec g0 reps r0 = .error .redirectLoop) ∨
    ((∃ p ∈ reps, ¬ g0.back.Known p.1) ∧ redirectLinksVec g0 reps r0 = .error .backMissing) ∨
    ((∀ p ∈ reps, g0.back.Known p.1) ∧ ∃ R g' r', redirectLinksVec g0 reps r0 = .ok (g', r') ∧
      (∀ p ∈ reps, (∀ n, (R p.2, n) ∉ reps) ∧ Reach reps p.2 (R p.2)) ∧
      g'.Inv S (e0 ∧ ∀ p ∈ reps, R p.2 ≠ emptyIdx) ∧ g'.ctxId = g0.ctxId ∧ g'.nodes.disp = g0.nodes.disp ∧
      View.RenH (firstTarget R reps) g0.get? g'.get? ∧ (∀ y, g'.back.Known y ↔ g0.back.Known y ∨ ∃ p ∈ reps, y = R p.2) ∧
      (g0.nodes.Typed → g'.nodes.Typed) ∧
      Lcr.Keeps S L0 g0.get? r0 g'.get? r') := by
  rcases redirectLinksVec_uniform S reps with ⟨h1, h2⟩ | ⟨R, hR⟩
  · exact Or.inl ⟨h1, h2 g0 r0⟩
  · rcases hR h r0 h0 L0 with h1 | ⟨h1, h2⟩
    · exact Or.inr (Or.inl h1)
    · exact Or.inr (Or.inr ⟨h1, R, h2⟩)

/-- The same requests on two graphs that look the same. -/
theorem redirectLinksVec_congr {g g' g1 : Graph} {e0 e0' : Prop} {r r' r1 : Lcr} (h : g.Inv S e0) (h' : g'.Inv S e0')
    (h0 : ∀ n, (emptyIdx, n) ∉ reps) (hs : View.RenH id g.get? g'.get?) (hk : ∀ y, g'.back.Known y ↔ g.back.Known y)
    (hr : redirectLinksVec g reps r = .ok (g1, r1)) :
    ∃ g1' r1', redirectLinksVec g' reps r' = .ok (g1', r1') ∧ View.RenH id g1.get? g1'.get? ∧ ∀ y, g1'.back.Known y ↔ g1.back.Known y := by
  rcases redirectLinksVec_uniform S reps with ⟨_, h2⟩ | ⟨R, hR⟩
  · rw [h2] at hr
    exact absurd hr (by simp)
  · rcases hR h r (fun ⟨n, hn⟩ => absurd hn (h0 n)) (fun _ => True) with ⟨_, h1⟩ | ⟨h1, g2, r2, h2, _, _, _, _, h6, h7, _⟩
    · rw [h1] at hr
      exact absurd hr (by simp)
    · rw [hr] at h2
      obtain ⟨rfl, rfl⟩ : g1 = g2 ∧ r1 = r2 := by simpa using h2
      rcases hR h' r' (fun ⟨n, hn⟩ => absurd hn (h0 n)) (fun _ => True) with ⟨⟨p, hp, h3⟩, _⟩ | ⟨_, g2', r2', h2', _, _, _, _, h6', h7', _⟩
      · exact absurd ((hk _).2 (h1 p hp)) h3
      · refine ⟨g2', r2', h2', ⟨?_, ?_⟩, ?_⟩
        · exact (h6.shape.symm.trans hs.shape).trans h6'.shape
        · intro y t w
          rw [h6'.holds]
          constructor
          · rintro ⟨u, hu, e, hw⟩
            obtain ⟨u', hu', e', hw'⟩ := (hs.holds y t u).1 hu
            simp only [id] at e'
            subst e'
            refine ⟨w, (h6.holds y t w).2 ⟨u', hu', e, hw⟩, rfl, ?_⟩
            by_cases ew : w = emptyIdx
            · exact Or.inr ew
            · exact Or.inl ew
          · rintro ⟨u, hu, e, hw⟩
            simp only [id] at e
            subst e
            obtain ⟨u', hu', e', hw'⟩ := (h6.holds y t u).1 hu
            refine ⟨u', (hs.holds y t u').2 ⟨u', hu', rfl, ?_⟩, e', hw'⟩
            by_cases ew : u' = emptyIdx
            · exact Or.inr ew
            · exact Or.inl ew
        · intro y
          rw [h7, h7', hk]

end

end Graph
end TTGraph
