import Verif.Spec.Moved
import Verif.Lemmas.Loaded
import Verif.Lemmas.Steady
import Verif.Lemmas.Insert
import Verif.Lemmas.Meets
import Verif.Props.Worlds
import Verif.Props.Valid

/-!
# Merging a graph that is complete in itself
-/

set_option autoImplicit false

namespace TTGraph
open Spec
variable {S : Schema}

theorem Spec.Isomorphic.symmetric {ρ : NodeIndex → NodeIndex} {v v' : View} (h : Isomorphic ρ v v') (hI : Internal v)
    (h0 : v' emptyIdx = none) (hs : Symmetric S v) : Symmetric S v' := by
  intro x' m y' n' m' hl hn' h1 h2
  obtain ⟨x, y, n, k1, k2, k3, k4, k5, k6⟩ := h.target hI h0 hl hn'
  have e3 := hs x m y n m' k3 k5 h1 (by rw [h2, k6])
  have hx0 : ρ x ≠ emptyIdx := by
    obtain ⟨nx, hnx⟩ := Option.ne_none_iff_exists'.1 k1
    obtain ⟨nx', hnx', _⟩ := h.node x nx hnx
    intro e
    rw [e, h0] at hnx'
    exact absurd hnx' (by simp)
  have := h.link' e3 hx0
  rw [k4, k2] at this
  exact this

/-- A graph that is isomorphic to a graph that is complete in itself is complete in itself. -/
theorem Spec.Isomorphic.whole {ρ : NodeIndex → NodeIndex} {v v' : View} (h : Isomorphic ρ v v') (h0 : v' emptyIdx = none) (hv : Whole S v) : Whole S v' where
  internal := by
    intro x' s y' hh
    obtain ⟨n', hn', hs⟩ := hh
    obtain ⟨x, hx, rfl⟩ := h.onto x' (by rw [hn']; simp)
    obtain ⟨n, hn⟩ := Option.ne_none_iff_exists'.1 hx
    obtain ⟨n2, h1, h2⟩ := h.node x n hn
    rw [hn', Option.some.injEq] at h1
    subst h1
    obtain ⟨u, h3, rfl, _⟩ := (h2.holds _ _).1 hs
    rcases hv.internal x s u ⟨n, hn, h3⟩ with rfl | hu
    · exact .inl h.empty
    · obtain ⟨nu, hnu⟩ := Option.ne_none_iff_exists'.1 hu
      obtain ⟨nu', hnu', _⟩ := h.node u nu hnu
      exact .inr (by rw [hnu']; simp)
  symmetric := h.symmetric hv.internal h0 hv.symmetric
  typed := h.wellTyped hv.internal h0 hv.typed
  once := by
    intro x' m y' m' ho hk0 k k' hk hk'
    obtain ⟨n', hn', hs⟩ := hk
    obtain ⟨n1, hn1, hs'⟩ := hk'
    rw [hn', Option.some.injEq] at hn1
    subst hn1
    obtain ⟨x, hx, rfl⟩ := h.onto x' (by rw [hn']; simp)
    obtain ⟨n, hn⟩ := Option.ne_none_iff_exists'.1 hx
    obtain ⟨n2, h1, h2⟩ := h.node x n hn
    rw [hn', Option.some.injEq] at h1
    subst h1
    obtain ⟨u, h3, h4, h5⟩ := (h2.holds _ _).1 hs
    obtain ⟨u', h3', h4', h5'⟩ := (h2.holds _ _).1 hs'
    have hu : u = u' := by
      by_cases hy : y' = emptyIdx
      · rw [h5.resolve_left fun c => c hy, h5'.resolve_left fun c => c hy]
      · have node : ∀ {s : Source} {a : NodeIndex}, n.Holds s a → ρ a = y' → v a ≠ none := by
          intro s a ha e
          rcases hv.internal x s a ⟨n, hn, ha⟩ with rfl | h6
          · exact absurd (e.symm.trans h.empty) hy
          · exact h6
        exact h.inj u u' (node h3 h4) (node h3' h4') (h4.trans h4'.symm)
    subst hu
    exact hv.once x m u m' ho hk0 k k' ⟨n, hn, h3⟩ ⟨n, hn, h3'⟩

/-- Being complete in itself does not depend on how sets of links are ordered. -/
theorem View.Same.whole {v v' : View} (h : View.Same v v') (hv : Whole S v) : Whole S v' where
  internal := by
    intro x s y hh
    refine (hv.internal x s y (((View.same_iff.1 h).2 x s y).1 hh)).imp id fun h1 h2 => h1 ((h.none_iff y).1 h2)
  symmetric := h.symmetric hv.symmetric
  typed := by
    intro x m y n hl hn
    obtain ⟨n0, h0, h1⟩ := h.symm.some hn
    exact h1.1 ▸ hv.typed x m y n0 ((h.link x m y).1 hl) h0
  once := fun x m y m' ho hk0 k k' hk hk' =>
    hv.once x m y m' ho hk0 k k' (((View.same_iff.1 h).2 x _ y).1 hk) (((View.same_iff.1 h).2 x _ y).1 hk')

/-- Two graphs without common indices that are complete in themselves are so together. -/
theorem Spec.Whole.union {v v2 : View} (h : Whole S v) (h2 : Whole S v2) (h0 : v emptyIdx = none) (h02 : v2 emptyIdx = none)
    (hdis : ∀ i, v2 i ≠ none → v i = none) : Whole S (union v2 v) := by
  have split : ∀ {x s y}, (Spec.union v2 v).Holds x s y → v2.Holds x s y ∨ v.Holds x s y := by
    rintro x s y ⟨n, hn, r⟩
    simp only [Spec.union] at hn
    cases h : v2 x with
    | none => rw [h] at hn; exact .inr ⟨n, hn, r⟩
    | some n' => rw [h] at hn; exact .inl ⟨n, h.trans hn, r⟩
  have left : ∀ {x s y}, v2.Holds x s y → (Spec.union v2 v).Holds x s y := fun ⟨n, hn, r⟩ => ⟨n, by simp only [Spec.union, hn], r⟩
  have right : ∀ {x s y}, v.Holds x s y → (Spec.union v2 v).Holds x s y := by
    rintro x s y ⟨n, hn, r⟩
    refine ⟨n, ?_, r⟩
    cases h : v2 x with
    | none => simp only [Spec.union, h]; exact hn
    | some n' => exact absurd (hdis x (by rw [h]; simp)) (by rw [hn]; simp)
  have node : ∀ {x s y n}, v2.Holds x s y → Spec.union v2 v y = some n → v2 y = some n := by
    intro x s y n hh hn
    simp only [Spec.union] at hn
    cases h3 : v2 y with
    | some n' => rw [h3] at hn; exact hn
    | none =>
      rw [h3] at hn
      rcases h2.internal x s y hh with rfl | h4
      · exact absurd (h0.symm.trans hn) (by simp)
      · exact absurd h3 h4
  have node' : ∀ {x s y n}, v.Holds x s y → Spec.union v2 v y = some n → v y = some n := by
    intro x s y n hh hn
    simp only [Spec.union] at hn
    cases h3 : v2 y with
    | none => rw [h3] at hn; exact hn
    | some n' =>
      rcases h.internal x s y hh with rfl | h4
      · exact absurd (h02.symm.trans h3) (by simp)
      · exact absurd (hdis y (by rw [h3]; simp)) h4
  refine ⟨fun x s y hh => ?_, ?_, ?_, ?_⟩
  · rcases split hh with hh | hh
    · refine (h2.internal x s y hh).imp id fun h3 => ?_
      obtain ⟨n, hn⟩ := Option.ne_none_iff_exists'.1 h3
      simp [Spec.union, hn]
    · refine (h.internal x s y hh).imp id fun h3 => ?_
      cases h4 : v2 y with
      | none => simpa [Spec.union, h4] using h3
      | some n => simp [Spec.union, h4]
  · rintro x m y n m' ⟨nx, hnx, s, hs⟩ hn ho hd
    rcases split ⟨nx, hnx, hs⟩ with ⟨n1, hn1, r1⟩ | ⟨n1, hn1, r1⟩
    · obtain ⟨n3, hn3, s3, r3⟩ := h2.symmetric x m y n m' ⟨n1, hn1, s, r1⟩ (node ⟨n1, hn1, r1⟩ hn) ho hd
      obtain ⟨n4, hn4, r4⟩ := left ⟨n3, hn3, r3⟩
      exact ⟨n4, hn4, s3, r4⟩
    · obtain ⟨n3, hn3, s3, r3⟩ := h.symmetric x m y n m' ⟨n1, hn1, s, r1⟩ (node' ⟨n1, hn1, r1⟩ hn) ho hd
      obtain ⟨n4, hn4, r4⟩ := right ⟨n3, hn3, r3⟩
      exact ⟨n4, hn4, s3, r4⟩
  · rintro x m y n ⟨nx, hnx, s, hs⟩ hn
    rcases split ⟨nx, hnx, hs⟩ with ⟨n1, hn1, r1⟩ | ⟨n1, hn1, r1⟩
    · exact h2.typed x m y n ⟨n1, hn1, s, r1⟩ (node ⟨n1, hn1, r1⟩ hn)
    · exact h.typed x m y n ⟨n1, hn1, s, r1⟩ (node' ⟨n1, hn1, r1⟩ hn)
  · intro x m y m' ho hk0 k k' hk hk'
    rcases split hk with h3 | h3 <;> rcases split hk' with h4 | h4
    · exact h2.once x m y m' ho hk0 k k' h3 h4
    · obtain ⟨n3, hn3, _⟩ := h3
      obtain ⟨n4, hn4, _⟩ := h4
      exact absurd (hdis x (by rw [hn3]; simp)) (by rw [hn4]; simp)
    · obtain ⟨n3, hn3, _⟩ := h3
      obtain ⟨n4, hn4, _⟩ := h4
      exact absurd (hdis x (by rw [hn4]; simp)) (by rw [hn3]; simp)
    · exact h.once x m y m' ho hk0 k k' h3 h4

variable [SetImpl] {dbg : Bool} {R : World → Call → Prop}

/-- A transaction that inserts the nodes of a graph that is complete in itself, and does nothing else, can be committed to such a graph. -/
theorem commit_whole (hw : WellNamed S) {g : Graph} {t : Trans} {v2 : View} (h : Meets S dbg R g t) (hn : t.pending = { new := v2, unfilled := fun _ => False, removed := fun _ => False, redir := [], redirAll := [], muts := [], upds := [] })
    (hg : Whole S g.get?) (h2 : Whole S v2) (hwt : ∀ x n, v2 x = some n → S.WT n) (hx : ∀ x m y, View.Link g.get? x m y → v2 y = none)
    (hx2 : ∀ x m y, View.Link v2 x m y → g.get? y = none) (hdis : ∀ i, v2 i ≠ none → g.get? i = none) :
    SteadyBidir S t g.get? ∧ ∃ g', g.commit S dbg t = .ok g' := by
  have e0 : t.inc.get? = v2 := congrArg Pending.new hn
  have e1 : t.redir = [] := congrArg Pending.redir hn
  have e2 : t.muts = [] := congrArg Pending.muts hn
  have e3 : t.upds = [] := congrArg Pending.upds hn
  have e4 : t.redirAll = [] := congrArg Pending.redirAll hn
  have e5 : t.dec.elems = [] := List.eq_nil_iff_forall_not_mem.2 fun i hi => by
    have := congrFun (congrArg Pending.removed hn) i
    exact cast this hi
  have hst : SteadyBidir S t g.get? := by
    intro x m y m' ho
    by_cases hk : S.kind? m = some .vec
    · exact steady_of e1 e4 (hg.once x m y m' ho hk) (by rw [e0]; exact h2.once x m y m' ho hk) (by rw [e2, e3]; simp)
    · exact .inl hk
  refine ⟨hst, C13_commit_succeeds hw hst h (fun _ i => by rw [hn]; exact id) ?_ fun v6 hp => ?_⟩
  · rw [hn]
    exact ⟨by simp, by simp, by simp, by simp, by simp, by rintro ⟨a, b, h, _⟩; simp at h, by rintro ⟨a, b, h, _⟩; simp at h⟩
  have hsame : View.Same (union v2 g.get?) v6 := e0 ▸ performed_insert hp e1 e2 e3 e4 e5
  have split : ∀ x m y, v6.Link x m y ↔ View.Link v2 x m y ∨ View.Link g.get? x m y := by
    intro x m y
    rw [hsame.link]
    constructor
    · rintro ⟨n, hn, r⟩
      simp only [union] at hn
      cases h : v2 x with
      | none => rw [h] at hn; exact .inr ⟨n, hn, r⟩
      | some n' => rw [h] at hn; exact .inl ⟨n, h.trans hn, r⟩
    · rintro (⟨n, hn, r⟩ | ⟨n, hn, r⟩)
      · exact ⟨n, by simp only [union, hn], r⟩
      · refine ⟨n, ?_, r⟩
        cases h : v2 x with
        | none => simp only [union, h]; exact hn
        | some n' => exact absurd (hdis x (by rw [h]; simp)) (by rw [hn]; simp)
  have node : ∀ y n, v6 y = some n → (∃ n0, v2 y = some n0 ∧ n0.disc = n.disc) ∨ ∃ n0, v2 y = none ∧ g.get? y = some n0 ∧ n0.disc = n.disc := by
    intro y n hn
    obtain ⟨n0, h0, h1⟩ := hsame.symm.some hn
    simp only [union] at h0
    cases h : v2 y with
    | none => rw [h] at h0; exact .inr ⟨n0, rfl, h0, h1.1⟩
    | some n' => rw [h] at h0; cases h0; exact .inl ⟨n0, rfl, h1.1⟩
  have hsym : Symmetric S v6 := by
    intro x m y n m' hl hn ho hd
    rw [split] at hl ⊢
    rcases hl with hl | hl
    · rcases node y n hn with ⟨n0, k1, k2⟩ | ⟨n0, _, k1, _⟩
      · exact .inl (h2.symmetric x m y n0 m' hl k1 ho (by rw [hd, k2]))
      · rw [hx2 x m y hl] at k1; exact absurd k1 (by simp)
    · rcases node y n hn with ⟨n0, k1, _⟩ | ⟨n0, _, k1, k2⟩
      · rw [hx x m y hl] at k1; exact absurd k1 (by simp)
      · exact .inr (hg.symmetric x m y n0 m' hl k1 ho (by rw [hd, k2]))
  have hrem : ∀ x m y, ¬ RemovedLink g.get? v6 x m y := fun x m y ⟨_, h1, h3⟩ => h3 ((split x m y).2 (.inr h1))
  have hwt6 : ∀ x n, v6 x = some n → S.WT n := by
    intro x n hn
    obtain ⟨n0, h0, h1⟩ := hsame.symm.some hn
    have : S.WT n0 := by
      simp only [union] at h0
      cases h3 : v2 x with
      | none => rw [h3] at h0; exact (h.inv hw).wt _ _ h0
      | some n' => rw [h3] at h0; cases h0; exact hwt _ _ h3
    exact Schema.wt_of_shape (Node.same_iff.1 h1).1.symm this
  have dem : ∀ {y m' x}, Demanded S g.get? v6 y m' x → v6.Link y m' x := by
    rintro y m' x ⟨m, d, h1, ⟨_, n, hn, hd⟩, h3, h4, _⟩
    exact hsym x m y n m' h1.2.1 hn h3 (by rw [h4, hd])
  refine ⟨?_, ?_, ⟨?_, ?_⟩, ?_⟩
  · rintro ⟨y, m', x, i, hk, hd, hne, hs | hs⟩
    · exact hne (Graph.direct_unique hwt6 hk hs.1 (dem hd))
    · exact hne (Graph.direct_unique hwt6 hk (dem hs) (dem hd))
  · rintro ⟨x, m, y, d, h1, ⟨_, n, hn, hd⟩, ⟨l1, l1', m1, _, _, _, k1, _, k2, _⟩, h4⟩
    have ho : Opposite S m m1 := k1.opposite
    exact h4 m1 ho k2 ⟨hsym x m y n m1 h1.2.1 hn ho (by rw [k2, hd]), fun ⟨_, _, hr, _⟩ => hrem _ _ _ hr⟩
  · rintro ⟨x, m, y, d, m', hr, _⟩
    exact hrem _ _ _ hr
  · rintro ⟨x, m, y, d, h1, ⟨_, n, hn, hd⟩, ⟨m', k1, k2⟩, h4⟩
    exact (h4 m' k1 k2).2 (hsym x m y n m' h1.2.1 hn k1 (by rw [k2, hd]))
  · intro x m y n hc hn
    refine Schema.permitted_of_accept hw ?_
    rcases (split x m y).1 hc.1 with hl | hl
    · rcases node y n hn with ⟨n0, k1, k2⟩ | ⟨n0, _, k1, _⟩
      · exact k2 ▸ h2.typed x m y n0 hl k1
      · rw [hx2 x m y hl] at k1; exact absurd k1 (by simp)
    · rcases node y n hn with ⟨n0, k1, _⟩ | ⟨n0, _, k1, k2⟩
      · rw [hx x m y hl] at k1; exact absurd k1 (by simp)
      · exact k2 ▸ hg.typed x m y n0 hl k1

end TTGraph
