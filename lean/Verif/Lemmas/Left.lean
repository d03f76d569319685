import Verif.Lemmas.Commit
import Verif.Lemmas.Unwind

/-!
# The graph that a panicking commit leaves behind

It satisfies the invariant, unless a closure panicked or left a link to an unknown index.
-/

set_option autoImplicit false

namespace TTGraph
namespace Graph
variable [SetImpl] {S : Schema} {e0 : Prop}

omit [SetImpl] in
/-- The state in which a loop stops satisfies what every completed iteration preserves. -/
theorem stopped_prefix {σ α : Type} {f : σ → α → Except Panic σ} (P : List α → σ → Prop) (post : List α) :
    ∀ (pre : List α) {s : σ}, P pre s →
      (∀ pre' a post' s1, pre ++ post = pre' ++ a :: post' → P pre' s1 → ∀ s2, f s1 a = .ok s2 → P (pre' ++ [a]) s2) →
      ∃ pre', pre' <+: pre ++ post ∧ P pre' (stopped f s post) := by
  induction post with
  | nil => intro pre s h _; exact ⟨pre, by simp, by simpa [stopped] using h⟩
  | cons a post ih =>
    intro pre s h hs
    simp only [stopped]
    cases hf : f s a with
    | error e => exact ⟨pre, ⟨a :: post, rfl⟩, h⟩
    | ok s1 =>
      have e : pre ++ a :: post = (pre ++ [a]) ++ post := by simp
      rw [e]
      exact ih (pre ++ [a]) (hs pre a post s rfl h s1 hf) (by rw [← e]; exact hs)

/-- What the stages of a commit preserve, completed or not.  `C`: the closures keep the variants; `D`: the nodes to be
removed; `M`: the nodes to be mutated or updated. -/
structure Partway (S : Schema) (e0 C : Prop) (D M : NodeIndex → Prop) (g g' : Graph) : Prop where
  inv : g'.Inv S e0
  ctx : g'.ctxId = g.ctxId
  sub : ∀ i, g'.nodes.disp.get? i ≠ none → g.nodes.disp.get? i ≠ none
  full : ∀ i, g'.nodes.disp.get? i ≠ none → g'.get? i = none → g.get? i = none
  typed : C → g.nodes.Typed → g'.nodes.Typed
  only : ∀ i, g'.get? i ≠ none → g.get? i ≠ none
  kept : ∀ i, ¬ D i → g.get? i ≠ none → g'.get? i ≠ none
  shape : ∀ i, ¬ D i → ¬ M i → (g'.get? i).map Node.shape = (g.get? i).map Node.shape

omit [SetImpl] in
theorem Partway.refl {C : Prop} {D M : NodeIndex → Prop} {g : Graph} (h : g.Inv S e0) : Partway S e0 C D M g g :=
  ⟨h, rfl, fun _ h => h, fun _ _ h => h, fun _ h => h, fun _ h => h, fun _ _ h => h, fun _ _ _ => rfl⟩

omit [SetImpl] in
theorem Partway.trans {e1 C : Prop} {D M : NodeIndex → Prop} {g g' g'' : Graph} (h : Partway S e0 C D M g g') (h' : Partway S e1 C D M g' g'') : Partway S e1 C D M g g'' :=
  ⟨h'.inv, h'.ctx.trans h.ctx, fun i hi => h.sub i (h'.sub i hi), fun i hi hn => h.full i (h'.sub i hi) (h'.full i hi hn),
    fun hc ht => h'.typed hc (h.typed hc ht), fun i hi => h.only i (h'.only i hi), fun i hd hi => h'.kept i hd (h.kept i hd hi),
    fun i hd hm => (h'.shape i hd hm).trans (h.shape i hd hm)⟩

omit [SetImpl] in
theorem Kept.partway {C : Prop} {D M : NodeIndex → Prop} {g g' : Graph} (h : Kept S e0 g g') : Partway S e0 C D M g g' :=
  ⟨h.inv, h.ctx, fun i hi => by rwa [h.disp] at hi, fun i _ hn => (h.shape.none i).1 hn, fun _ ht => h.typed ht,
    fun i hi => (h.shape.exists i).1 hi, fun i _ hi => (h.shape.exists i).2 hi, fun i _ _ => h.shape i⟩

theorem bdRemovesLeft_kept : ∀ (l : List Change) {g : Graph}, g.Inv S e0 → Kept S e0 g (bdRemovesLeft S g l)
  | [], g, h => Kept.refl h
  | (x, y, m) :: l, g, h => by
    simp only [bdRemovesLeft]
    rcases bdRemove_kept h (x, y, m) with ⟨g', h1, h2⟩ | ⟨h1, _⟩
    · simp only [h1]
      exact h2.kept.trans (bdRemovesLeft_kept l h2.kept.inv)
    · simp only [h1]
      cases hx : g.nodes.get? x with
      | none => exact Kept.refl h
      | some nx =>
        cases hy : g.nodes.get? y with
        | none => exact Kept.refl h
        | some ny =>
          simp only
          have hx' : g.get? x = some nx := hx
          have hy' : g.get? y = some ny := hy
          obtain ⟨_, _, h3⟩ := stopped_prefix (f := bdRemoveOne S x y) (fun _ g' => Kept S e0 g g') (S.opposites m ny.disc) [] (Kept.refl h) (by
            intro pre a post g1 hsplit hk g2 hf
            obtain ⟨ny1, hy1, hs1⟩ := hk.shape.some' hy'
            have hd1 : ny1.disc = ny.disc := by simp only [Node.shape, Prod.mk.injEq] at hs1; exact hs1.1
            have hx1 : g1.get? x ≠ none := (hk.shape.exists x).2 (by rw [hx']; simp)
            have hm : a ∈ S.opposites m ny1.disc := by
              rw [hd1]
              rw [List.nil_append] at hsplit
              rw [hsplit]; simp
            rcases bdRemoveOne_kept hk.inv hx1 hy1 hm with ⟨g3, h1, h2⟩ | ⟨h1, _⟩
            · rw [hf, Except.ok.injEq] at h1
              subst h1
              exact hk.trans h2.kept
            · rw [hf] at h1; exact absurd h1 (by simp))
          exact h3

theorem bidirLeft_partway {C : Prop} {D M : NodeIndex → Prop} {g : Graph} (h : g.Inv S e0) (r : Lcr) : Partway S e0 C D M g (bidirLeft S g r) := by
  simp only [bidirLeft]
  cases h1 : foldE (bdRemove S) g r.removes.elems with
  | error e => exact (bdRemovesLeft_kept _ h).partway
  | ok g1 =>
    have h2 : Kept S e0 g g1 := by
      rcases foldE_cases (f := bdRemove S) (l := r.removes.elems) (s := g) (P := fun _ (g' : Graph) => Kept S e0 g g') (E := fun _ => True) (Kept.refl h) (by
        intro pre c post g1 _ hk
        rcases bdRemove_kept hk.inv c with ⟨g2, h1, h2⟩ | ⟨h1, _⟩
        · exact Or.inl ⟨g2, h1, hk.trans h2.kept⟩
        · exact Or.inr ⟨_, h1, trivial⟩) with ⟨g2, h2, h3⟩ | ⟨e, h2, _⟩
      · rw [h1, Except.ok.injEq] at h2
        subst h2
        exact h3
      · rw [h1] at h2; exact absurd h2 (by simp)
    refine h2.partway.trans ?_
    obtain ⟨_, _, h3⟩ := stopped_prefix (f := bdAdd S) (fun _ g' => Partway S e0 C D M g1 g') r.adds.elems [] (Partway.refl h2.inv) (by
      intro pre a post s1 _ hs s2 hf
      rcases bdAdd_kept hs.inv a with ⟨g', h3, h4⟩ | ⟨e, h3, _⟩
      · rw [hf, Except.ok.injEq] at h3
        subst h3
        exact hs.trans h4.kept.partway
      · rw [hf] at h3; exact absurd h3 (by simp))
    exact h3

omit [SetImpl] in
theorem RemoveOut.partway {C : Prop} {D M : NodeIndex → Prop} {L0 : Change → Prop} {xs : List NodeIndex} {g g' : Graph} {r r' : Lcr} (h : RemoveOut S e0 L0 xs g r g' r')
    (hx : ∀ x ∈ xs, D x) :
    Partway S e0 C D M g g' := by
  have hsh : ∀ i, i ∉ xs → (g'.get? i).map Node.shape = (g.get? i).map Node.shape := fun i hi => by rw [h.shape, if_neg hi]
  refine ⟨h.inv, h.ctx, fun i hi => ?_, fun i hi hn => ?_, fun _ ht => h.typed ht, fun i hi hn => ?_, fun i hd hi hn => ?_,
    fun i hd _ => hsh i fun hi => hd (hx i hi)⟩
  · rw [h.disp] at hi
    split at hi
    · exact absurd rfl hi
    · exact hi
  · rw [h.disp] at hi
    have := h.shape i
    rw [hn] at this
    split at hi
    · exact absurd rfl hi
    · rename_i hx
      rw [if_neg hx] at this
      simpa using this.symm
  · by_cases hx' : i ∈ xs
    · have := h.shape i
      rw [if_pos hx'] at this
      exact hi (by simpa using this)
    · have := hsh i hx'
      rw [hn] at this
      exact hi (by simpa using this)
  · have := hsh i fun hi => hd (hx i hi)
    rw [hn] at this
    exact hi (by simpa using this.symm)

theorem removeLeft_partway {C : Prop} {D M : NodeIndex → Prop} (xs : List NodeIndex) (hx : ∀ x ∈ xs, D x) {g : Graph} {r : Lcr} (h : g.Inv S e0) :
    Partway S e0 C D M g (stopped (fun (st : Graph × Lcr) x => removeNode st.1 x st.2) (g, r) xs).1 := by
  obtain ⟨_, _, h3⟩ := stopped_prefix (f := fun (st : Graph × Lcr) x => removeNode st.1 x st.2) (fun _ st => Partway S e0 C D M g st.1) xs []
    (s := (g, r)) (Partway.refl h) (by
      rintro pre a post ⟨g1, r1⟩ hsp hs ⟨g2, r2⟩ hf
      have hf' : removeAll (g1, r1) [a] = .ok (g2, r2) := by
        simp only at hf
        simp only [removeAll, foldE, hf]
      rcases removeAll_cases (r := r1) [a] (by simp) (fun _ => True) hs.inv with ⟨_, h3⟩ | ⟨_, g', r', h3, h4⟩
      · rw [hf'] at h3; exact absurd h3 (by simp)
      · rw [hf'] at h3
        obtain ⟨rfl, rfl⟩ : g2 = g' ∧ r2 = r' := by simpa using h3
        exact hs.trans (h4.partway (fun x hx' => by
          have e : xs = pre ++ a :: post := hsp
          rw [List.mem_singleton] at hx'
          exact hx x (by rw [e, hx']; simp))))
  exact h3

omit [SetImpl] in
theorem step_partway {step : Graph → NodeIndex → Closure → Lcr → Except Panic (Graph × Lcr)} (hst : IsStep step) {p : NodeIndex × Closure}
    (hp : Closure.Typed S p.2) {C : Prop} {D M : NodeIndex → Prop} (hC : C → Closure.KeepsVariant p.2) (hM : M p.1) {g : Graph} {r : Lcr} {st' : Graph × Lcr} (h : g.Inv S e0)
    (hs : step g p.1 p.2 r = .ok st') : Partway S e0 C D M g st'.1 := by
  obtain ⟨g1, r1⟩ := st'
  obtain ⟨n, n', h1, h2, h3⟩ := step_inv hst h hs
  obtain ⟨g1', r1', h4, h5, h6, h7, h8, h9, h10, h11⟩ :=
    step_ok (r := r) hst h h1 h2 (hp n n' (h.wt _ _ h1) h2) h3 (fun _ => True)
  rw [hs] at h4
  obtain ⟨rfl, rfl⟩ : g1 = g1' ∧ r1 = r1' := by simpa using h4
  have hno : ∀ i, g1.get? i = none ↔ g.get? i = none := by
    intro i
    by_cases hi : i = p.1
    · subst hi
      rw [h5, if_pos rfl, h1]
      simp
    · rw [h5, if_neg (Ne.symm hi)]
  refine ⟨h6, h7, fun i hi => by rwa [h8] at hi, fun i _ hn => (hno i).1 hn, fun hc ht => h10 ht (hC hc n n' h2), fun i hi => mt (hno i).2 hi,
    fun i _ hi => mt (hno i).1 hi, fun i _ hm => ?_⟩
  have hi : i ≠ p.1 := fun e => hm (e ▸ hM)
  simp only
  rw [h5, if_neg (Ne.symm hi)]

omit [SetImpl] in
theorem closuresLeft_partway {step : Graph → NodeIndex → Closure → Lcr → Except Panic (Graph × Lcr)} (hst : IsStep step)
    (l : List (NodeIndex × Closure)) (hl : ∀ p ∈ l, Closure.Typed S p.2) {C : Prop} {D M : NodeIndex → Prop} (hC : C → ∀ p ∈ l, Closure.KeepsVariant p.2) (hM : ∀ p ∈ l, M p.1) :
    ∀ {st : Graph × Lcr} {g' : Graph}, st.1.Inv S e0 → closuresLeft step (fun _ _ _ => none) st l = some g' → Partway S e0 C D M st.1 g' := by
  induction l with
  | nil =>
    intro st g' h hs
    simp only [closuresLeft, Option.some.injEq] at hs
    subst hs
    exact Partway.refl h
  | cons p l ih =>
    intro st g' h hs
    simp only [closuresLeft] at hs
    cases hp : step st.1 p.1 p.2 st.2 with
    | error e =>
      rw [hp] at hs
      simp only at hs
      split at hs
      · simp only [Option.some.injEq] at hs
        subst hs
        exact Partway.refl h
      · exact absurd hs (by simp)
    | ok st1 =>
      rw [hp] at hs
      have h1 := step_partway (D := D) hst (hl p (by simp)) (fun hc => hC hc p (by simp)) (hM p (by simp)) h hp
      exact h1.trans (ih (fun q hq => hl q (by simp [hq])) (fun hc q hq => hC hc q (by simp [hq])) (fun q hq => hM q (by simp [hq])) h1.inv hs)

omit [SetImpl] in
theorem closures_partway {step : Graph → NodeIndex → Closure → Lcr → Except Panic (Graph × Lcr)} (hst : IsStep step)
    (l : List (NodeIndex × Closure)) (hl : ∀ p ∈ l, Closure.Typed S p.2) {C : Prop} {D M : NodeIndex → Prop} (hC : C → ∀ p ∈ l, Closure.KeepsVariant p.2) (hM : ∀ p ∈ l, M p.1)
    {st st' : Graph × Lcr} (h : st.1.Inv S e0) (hs : applyClosures step st l = .ok st') : Partway S e0 C D M st.1 st'.1 := by
  induction l generalizing st with
  | nil =>
    simp only [applyClosures, foldE, Except.ok.injEq] at hs
    subst hs
    exact Partway.refl h
  | cons p l ih =>
    simp only [applyClosures, foldE] at hs
    cases hp : step st.1 p.1 p.2 st.2 with
    | error e => rw [hp] at hs; exact absurd hs (by simp)
    | ok st1 =>
      rw [hp] at hs
      have h1 := step_partway (D := D) hst (hl p (by simp)) (fun hc => hC hc p (by simp)) (hM p (by simp)) h hp
      exact h1.trans (ih (fun q hq => hl q (by simp [hq])) (fun hc q hq => hC hc q (by simp [hq])) (fun q hq => hM q (by simp [hq])) h1.inv hs)

theorem redirectLeft_partway {C : Prop} {D M : NodeIndex → Prop} {g : Graph} {reps : List (NodeIndex × NodeIndex)} {r : Lcr} (h : g.Inv S e0)
    (h0 : ∀ n, (emptyIdx, n) ∉ reps) : Partway S (e0 ∧ ∀ p ∈ reps, p.2 ≠ emptyIdx) C D M g (redirectLeft g reps r) := by
  have hm : g.Inv S (e0 ∧ ∀ p ∈ reps, p.2 ≠ emptyIdx) := h.mono And.left
  simp only [redirectLeft]
  rcases faPass (reps := reps) with ⟨fa, hfa, hinv⟩ | ⟨herr, hcyc⟩
  swap
  · rw [herr]
    exact Partway.refl hm
  rw [hfa]
  simp only
  have hex : ∀ u, ∃ r, Mentioned reps u → ∃ k, PathN fa u k r := by
    intro u
    by_cases hu : Mentioned reps u
    · obtain ⟨k, r, hp⟩ := hinv.total u hu
      exact ⟨r, fun _ => ⟨k, hp⟩⟩
    · exact ⟨0, fun hc => absurd hc hu⟩
  obtain ⟨R, hR⟩ := Classical.skolem.1 hex
  have hRo : ∀ u, Mentioned reps u → ∀ n, (R u, n) ∉ reps := by
    intro u hu
    obtain ⟨k, hp⟩ := hR u hu
    exact hinv.roots _ hp.isRoot
  obtain ⟨pre, hpre, hst⟩ := stopped_prefix (f := redirStep) (fun P st => RedirInv S (fun _ => True) e0 g r fa R P st) reps [] (s := (fa, g, r))
    (redirInv_nil h (fun u j r hp => ⟨j, hp⟩)) (by
      intro pre p post st hs hst st2 hf
      have hpm : p ∈ reps := by
        have : reps = pre ++ p :: post := hs
        rw [this]; simp
      by_cases hk : g.back.Known p.1
      · obtain ⟨st', h1, h2⟩ := redirStep_ok hR hRo (fun ⟨n, hn⟩ => absurd hn (h0 n)) (pre := pre) (p := p) (post := post) hs hst hk
        rw [hf, Except.ok.injEq] at h1
        subst h1
        exact h2
      · exfalso
        have hunk : ¬ st.2.1.back.Known p.1 := by
          intro hc
          rcases (hst.known p.1).1 hc with h1 | ⟨q, hq, h1⟩
          · exact hk h1
          · have hqm : q ∈ reps := by
              have : reps = pre ++ p :: post := hs
              rw [this]; simp [hq]
            exact hRo q.2 ⟨q, hqm, Or.inr rfl⟩ p.2 (by rw [← h1]; exact hpm)
        simp only [redirStep] at hf
        split at hf
        · exact absurd hf (by simp)
        · split at hf
          · exact absurd hf (by simp)
          · rw [redirectLinks_unknown hunk] at hf
            exact absurd hf (by simp))
  have hsub : ∀ p ∈ pre, p ∈ reps := fun p hp => hpre.subset hp
  refine ⟨hst.inv.mono fun ⟨h1, h2⟩ => ⟨h1, fun p hp => ?_⟩, hst.ctx, fun i hi => by rwa [hst.disp] at hi,
    fun i _ hn => (hst.ren.shape.none i).1 hn, fun _ ht => hst.typed ht, fun i hi => (hst.ren.shape.exists i).1 hi,
    fun i _ hi => (hst.ren.shape.exists i).2 hi, fun i _ _ => hst.ren.shape i⟩
  have hmn : Mentioned reps p.2 := ⟨p, hsub p hp, Or.inr rfl⟩
  obtain ⟨k, hpath⟩ := hR p.2 hmn
  rcases reach_new (hinv.reach hpath) with e | ⟨q, hq, e⟩
  · rw [e]; exact h2 p (hsub p hp)
  · rw [e]; exact h2 q hq

omit [SetImpl] in
theorem closuresLeft_none {step : Graph → NodeIndex → Closure → Lcr → Except Panic (Graph × Lcr)} (hst : IsStep step)
    (l : List (NodeIndex × Closure)) (hl : ∀ p ∈ l, Closure.Typed S p.2) :
    ∀ {st : Graph × Lcr}, st.1.Inv S e0 → closuresLeft step (fun _ _ _ => none) st l = none →
      ∃ p ∈ l, ∃ n, (∃ e, p.2 n = .error e) ∨ ∃ n', p.2 n = .ok n' ∧ ∃ s y, n'.Holds s y ∧ st.1.get? y = none := by
  induction l with
  | nil => intro st _ hs; exact absurd hs (by simp [closuresLeft])
  | cons p l ih =>
    intro st h hs
    simp only [closuresLeft] at hs
    cases hp : step st.1 p.1 p.2 st.2 with
    | error e =>
      rw [hp] at hs
      simp only at hs
      split at hs
      · exact absurd hs (by simp)
      · rename_i hn
        simp only [Option.isNone_iff_eq_none] at hn
        obtain ⟨n, hn⟩ := Option.ne_none_iff_exists'.1 hn
        refine ⟨p, by simp, n, ?_⟩
        cases hf : p.2 n with
        | error e => exact Or.inl ⟨e, rfl⟩
        | ok n' =>
          refine Or.inr ⟨n', rfl, ?_⟩
          by_contra hc
          obtain ⟨g', r', h4, _⟩ := step_ok (r := st.2) hst h hn hf (hl p (by simp) n n' (h.wt _ _ hn) hf)
            (fun s y hy => Inv.known_of h (Or.inl fun e => hc ⟨s, y, hy, e⟩)) (fun _ => True)
          rw [hp] at h4
          exact absurd h4 (by simp)
    | ok st1 =>
      rw [hp] at hs
      have h1 := step_partway (C := False) (D := fun _ => False) (M := fun _ => True) hst (hl p (by simp)) (fun hc => absurd hc id) trivial h hp
      obtain ⟨q, hq, n, h2⟩ := ih (fun q hq => hl q (by simp [hq])) h1.inv hs
      refine ⟨q, by simp [hq], n, h2.imp_right ?_⟩
      rintro ⟨n', h3, s, y, h4, h5⟩
      refine ⟨n', h3, s, y, h4, ?_⟩
      by_contra hc
      exact h1.kept y id hc h5

/-- The graph that a commit leaves behind, when it returns or panics outside the closures. -/
structure LeftOut (S : Schema) (e0 : Prop) (t : Trans) (g g' : Graph) : Prop where
  inv : g'.Inv S (e0 ∧ t.NoToEmpty)
  ctx : g'.ctxId = g.ctxId
  sub : ∀ i, g'.nodes.disp.get? i ≠ none → t.inc.disp.get? i ≠ none ∨ g.nodes.disp.get? i ≠ none
  full : ∀ i, g'.nodes.disp.get? i ≠ none → g'.get? i = none →
    (t.inc.disp.get? i ≠ none ∧ t.inc.get? i = none) ∨ (g.nodes.disp.get? i ≠ none ∧ g.get? i = none)
  typed : (∀ p ∈ t.muts ++ t.upds, Closure.KeepsVariant p.2) → g.nodes.Typed → t.inc.Typed → g'.nodes.Typed
  only : ∀ i, g'.get? i ≠ none → g.get? i ≠ none ∨ t.inc.get? i ≠ none
  kept : ∀ i, i ∉ t.dec.elems → g.get? i ≠ none → g'.get? i ≠ none
  shape : ∀ i, i ∉ t.dec.elems → (∀ p ∈ t.muts ++ t.upds, p.1 ≠ i) → g.get? i ≠ none → (g'.get? i).map Node.shape = (g.get? i).map Node.shape
  new : (∀ i, g'.get? i ≠ none → g.get? i ≠ none) ∨
    ∀ i, i ∉ t.dec.elems → t.inc.get? i ≠ none → g'.get? i ≠ none ∧
      ((∀ p ∈ t.muts ++ t.upds, p.1 ≠ i) → (g'.get? i).map Node.shape = (t.inc.get? i).map Node.shape)

theorem commitLeft_out (hS : S.discs.Nodup) {dbg : Bool} {g g' : Graph} {t : Trans} (h : g.Inv S e0) (ht : t.Good S)
    (hd : g.nodes.Disjoint t.inc) (hz : t.NoFromEmpty) (hs : g.commitLeft S dbg t = some g') : LeftOut S e0 t g g' ∧
      (g' = g ∨ dbg = false ∨ t.allocs.isEmpty = true) := by
  have hzr : ∀ n, (emptyIdx, n) ∉ t.redir := fun n hn => hz n (List.mem_append_left _ hn)
  have hza : ∀ n, (emptyIdx, n) ∉ t.redirAll := fun n hn => hz n (List.mem_append_right _ hn)
  let C : Prop := ∀ p ∈ t.muts ++ t.upds, Closure.KeepsVariant p.2
  let D : NodeIndex → Prop := (· ∈ t.dec.elems)
  let M : NodeIndex → Prop := fun i => ∃ p ∈ t.muts ++ t.upds, p.1 = i
  have hM : ∀ {i}, (∀ p ∈ t.muts ++ t.upds, p.1 ≠ i) → ¬ M i := fun h ⟨p, hp, e⟩ => h p hp e
  have early : ∀ {g1 : Graph} {e1 : Prop}, (e0 ∧ t.NoToEmpty → e1) → Partway S e1 C D M g g1 → LeftOut S e0 t g g1 := by
    intro g1 e1 he hp
    exact ⟨hp.inv.mono he, hp.ctx, fun i hi => Or.inr (hp.sub i hi), fun i hi hn => Or.inr ⟨hp.sub i hi, hp.full i hi hn⟩, fun hc hg _ => hp.typed hc hg,
      fun i hi => Or.inl (hp.only i hi), fun i hd hi => hp.kept i hd hi, fun i hd hm _ => hp.shape i hd (hM hm), Or.inl hp.only⟩
  simp only [commitLeft, commitLeftWith] at hs
  split at hs
  · simp only [Option.some.injEq] at hs
    subst hs
    exact ⟨early And.left (Partway.refl h), Or.inl rfl⟩
  split at hs
  · simp only [Option.some.injEq] at hs
    subst hs
    exact ⟨early And.left (Partway.refl h), Or.inl rfl⟩
  rename_i hal
  have hal' : dbg = false ∨ t.allocs.isEmpty = true := by
    cases dbg with
    | false => exact Or.inl rfl
    | true => right; simpa using hal
  refine ⟨?_, Or.inr hal'⟩
  have hred : ∀ {g0 g1 : Graph} {e1 : Prop} {r0 r1 : Lcr} {reps : List (NodeIndex × NodeIndex)}, g0.Inv S e1 → (∀ n, (emptyIdx, n) ∉ reps) →
      redirectLinksVec g0 reps r0 = .ok (g1, r1) → Partway S (e1 ∧ ∀ p ∈ reps, p.2 ≠ emptyIdx) C D M g0 g1 := by
    intro g0 g1 e1 r0 r1 reps hi h0 hr
    have hp := redirectLeft_partway (C := C) (D := D) (M := M) (r := r0) hi h0
    simp only [redirectLeft] at hp
    simp only [redirectLinksVec] at hr
    cases hfa : foldE faStep (faInit reps) reps with
    | error e => rw [hfa] at hr; exact absurd hr (by simp)
    | ok fa =>
      rw [hfa] at hr hp
      simp only at hr hp
      cases hst : foldE redirStep (fa, g0, r0) reps with
      | error e => rw [hst] at hr; exact absurd hr (by simp)
      | ok st =>
        obtain ⟨fa', g1', r1'⟩ := st
        rw [hst] at hr
        simp only [Except.ok.injEq, Prod.mk.injEq] at hr
        obtain ⟨rfl, rfl⟩ := hr
        rwa [stopped_ok hst] at hp
  cases hr1 : redirectLinksVec g t.redir Lcr.new with
  | error e =>
    rw [hr1] at hs
    simp only [Option.some.injEq] at hs
    subst hs
    exact early (fun ⟨h1, h2⟩ => ⟨h1, fun p hp => h2 p (List.mem_append_left _ hp)⟩) (redirectLeft_partway h hzr)
  | ok st1 =>
    obtain ⟨g1, r1⟩ := st1
    rw [hr1] at hs
    simp only at hs
    have p1 := hred h hzr hr1
    have hd1 : g1.nodes.Disjoint t.inc := fun i hi => by
      by_contra hc
      exact p1.sub i hc (hd i hi)
    obtain ⟨hget2, hinv2, hctx2, hnodes2, _⟩ := mergeNodes_spec (r := r1) (L0 := fun _ => True) hS p1.inv ht.inv hd1 ht.noEmpty ht.wt
    -- everything after the merge
    have late : ∀ {g1' : Graph} {e1 : Prop}, (e0 ∧ t.NoToEmpty → e1) → Partway S e1 C D M (mergeNodes S g1 t.inc r1).1 g1' → LeftOut S e0 t g g1' := by
      intro g1' e1 he hp
      have hdisp : ∀ i, (mergeNodes S g1 t.inc r1).1.nodes.disp.get? i = (t.inc.disp.get? i <|> g1.nodes.disp.get? i) := by
        intro i; rw [hnodes2, Arena.merge_disp]
      have hold : ∀ i, g.get? i ≠ none → t.inc.get? i = none := by
        intro i hi
        obtain ⟨n, hn⟩ := Option.ne_none_iff_exists'.1 hi
        obtain ⟨d, hd', _⟩ := Arena.get?_eq_some.1 hn
        have : t.inc.disp.get? i = none := by
          by_contra hc
          rw [hd i hc] at hd'
          exact absurd hd' (by simp)
        exact Arena.get?_of_disp_none this
      have hfresh : ∀ i, t.inc.get? i ≠ none → (mergeNodes S g1 t.inc r1).1.get? i = t.inc.get? i := by
        intro i hi
        rw [hget2]
        obtain ⟨n, hn⟩ := Option.ne_none_iff_exists'.1 hi
        rw [hn]
        rfl
      have hthere : ∀ i, t.inc.get? i = none → (mergeNodes S g1 t.inc r1).1.get? i = g1.get? i := by
        intro i hi
        rw [hget2, hi, none_alt]
      refine ⟨hp.inv.mono he, by rw [hp.ctx, hctx2, p1.ctx], fun i hi => ?_, fun i hi hn => ?_, fun hc hg hti => ?_, fun i hi => ?_,
        fun i hdi hi => ?_, fun i hdi hm hi => ?_, Or.inr fun i hdi hi => ⟨?_, fun hm => ?_⟩⟩
      · have := hp.sub i hi
        rw [hdisp] at this
        cases hx : t.inc.disp.get? i with
        | some d => exact Or.inl (by simp)
        | none => rw [hx] at this; exact Or.inr (p1.sub i (by simpa using this))
      · have h1 := hp.sub i hi
        have h2 := hp.full i hi hn
        rw [hdisp] at h1
        rw [hget2] at h2
        cases hx : t.inc.get? i with
        | some n => rw [hx] at h2; exact absurd h2 (by simp)
        | none =>
          rw [hx] at h2
          have h2' : g1.get? i = none := by simpa using h2
          cases hxd : t.inc.disp.get? i with
          | some d => exact Or.inl ⟨by simp, rfl⟩
          | none =>
            rw [hxd] at h1
            have h1' : g1.nodes.disp.get? i ≠ none := by simpa using h1
            exact Or.inr ⟨p1.sub i h1', p1.full i h1' h2'⟩
      · refine hp.typed hc ?_
        rw [hnodes2]
        exact Arena.merge_typed (p1.typed hc hg) hti
      · by_cases hx : t.inc.get? i = none
        · exact Or.inl (p1.only i (by rw [← hthere i hx]; exact hp.only i hi))
        · exact Or.inr hx
      · exact hp.kept i hdi (by rw [hthere i (hold i hi)]; exact p1.kept i hdi hi)
      · rw [hp.shape i hdi (hM hm), hthere i (hold i hi)]; exact p1.shape i hdi (hM hm)
      · exact hp.kept i hdi (by rw [hfresh i hi]; exact hi)
      · rw [hp.shape i hdi (hM hm), hfresh i hi]
    have e2 : e0 ∧ t.NoToEmpty → e0 ∧ ∀ p ∈ t.redir, p.2 ≠ emptyIdx := fun ⟨h1, h2⟩ => ⟨h1, fun p hp => h2 p (List.mem_append_left _ hp)⟩
    have e5 : e0 ∧ t.NoToEmpty → (e0 ∧ ∀ p ∈ t.redir, p.2 ≠ emptyIdx) ∧ ∀ p ∈ t.redirAll, p.2 ≠ emptyIdx :=
      fun h => ⟨e2 h, fun p hp => h.2 p (List.mem_append_right _ hp)⟩
    have hmt : ∀ p ∈ t.muts, Closure.Typed S p.2 := fun p hp => ht.closures p (List.mem_append_left _ hp)
    have hut : ∀ p ∈ t.upds, Closure.Typed S p.2 := fun p hp => ht.closures p (List.mem_append_right _ hp)
    have hmC : C → ∀ p ∈ t.muts, Closure.KeepsVariant p.2 := fun hc p hp => hc p (List.mem_append_left _ hp)
    have huC : C → ∀ p ∈ t.upds, Closure.KeepsVariant p.2 := fun hc p hp => hc p (List.mem_append_right _ hp)
    have hmM : ∀ p ∈ t.muts, M p.1 := fun p hp => ⟨p, List.mem_append_left _ hp, rfl⟩
    have huM : ∀ p ∈ t.upds, M p.1 := fun p hp => ⟨p, List.mem_append_right _ hp, rfl⟩
    cases hc3 : applyClosures modifyNode (mergeNodes S g1 t.inc r1) t.muts with
    | error e =>
      rw [hc3] at hs
      exact late e2 (closuresLeft_partway (Or.inl rfl) t.muts hmt hmC hmM hinv2 hs)
    | ok st3 =>
      rw [hc3] at hs
      simp only at hs
      have p3 := closures_partway (D := D) (Or.inl rfl) t.muts hmt hmC hmM hinv2 hc3
      cases hc4 : applyClosures updateNode st3 t.upds with
      | error e =>
        rw [hc4] at hs
        exact late e2 (p3.trans (closuresLeft_partway (Or.inr rfl) t.upds hut huC huM p3.inv hs))
      | ok st4 =>
        obtain ⟨g4, r4⟩ := st4
        rw [hc4] at hs
        simp only at hs
        have p4 := p3.trans (closures_partway (Or.inr rfl) t.upds hut huC huM p3.inv hc4)
        cases hr5 : redirectLinksVec g4 t.redirAll r4 with
        | error e =>
          rw [hr5] at hs
          simp only [Option.some.injEq] at hs
          subst hs
          exact late e5 (p4.trans (redirectLeft_partway p4.inv hza))
        | ok st5 =>
          rw [hr5] at hs
          simp only at hs
          obtain ⟨g5, r5⟩ := st5
          have p5 := p4.trans (hred p4.inv hza hr5)
          cases hr6 : foldE (fun (st : Graph × Lcr) x => removeNode st.1 x st.2) (g5, r5) t.dec.elems with
          | error e =>
            rw [hr6] at hs
            simp only [Option.some.injEq] at hs
            subst hs
            exact late e5 (p5.trans (removeLeft_partway _ (fun _ h => h) p5.inv))
          | ok st6 =>
            rw [hr6] at hs
            simp only [Option.some.injEq] at hs
            subst hs
            have p6 := removeLeft_partway (C := C) (D := D) (M := M) (r := r5) t.dec.elems (fun _ h => h) p5.inv
            rw [stopped_ok hr6] at p6
            exact late e5 ((p5.trans p6).trans (bidirLeft_partway p6.inv _))

end Graph
end TTGraph
