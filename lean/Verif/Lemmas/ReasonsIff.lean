import Verif.Lemmas.Exact
import Verif.Lemmas.Unique
import Verif.Lemmas.Frame
import Verif.Spec.Reasons
import Verif.Lemmas.Types

/-!
# What can be carried out and completed has no mistakes
-/

set_option autoImplicit false

namespace TTGraph
open Spec

theorem Spec.AppliedIn.split {K : NodeIndex → Prop} {pre post : List (NodeIndex × Closure)} {i : NodeIndex} {f : Closure} :
    ∀ {v v' : View}, AppliedIn K (pre ++ (i, f) :: post) v v' →
      ∃ v3 n n', Applied pre v v3 ∧ v3 i = some n ∧ f n = .ok n' ∧ ∀ s y, n'.Holds s y → K y := by
  induction pre with
  | nil =>
    intro v v' h
    cases h with
    | cons h1 h2 h3 _ _ => exact ⟨v, _, _, .nil fun _ => rfl, h1, h2, h3⟩
  | cons p pre ih =>
    intro v v' h
    cases h with
    | cons h1 h2 _ h4 h5 =>
      obtain ⟨v3, n, n', k1, k2⟩ := ih h5
      exact ⟨v3, n, n', .cons h1 h2 h4 k1, k2⟩

/-- The closure does not panic, and leaves only links to nodes that exist, whatever the order of sets. -/
theorem Spec.AppliedIn.at {K : NodeIndex → Prop} {l pre post : List (NodeIndex × Closure)} {i : NodeIndex} {f : Closure} {v v' w w3 : View} {n : Node}
    (h : AppliedIn K l v v') (hl : l = pre ++ (i, f) :: post) (hr : ∀ p ∈ l, p.2.Respects) (hs : View.Same v w) (hw : Applied pre w w3) (hn : w3 i = some n) :
    ∃ n', f n = .ok n' ∧ ∀ s y, n'.Holds s y → K y := by
  subst hl
  obtain ⟨v3, m, m', k1, k2, k3, k4⟩ := h.split
  obtain ⟨n2, e1, e2⟩ := (applied_same (fun p hp => hr p (List.mem_append_left _ hp)) k1 hw hs).some k2
  rw [hn, Option.some.injEq] at e1
  subst e1
  rcases (show f.Respects from hr (i, f) (by simp)) _ _ e2 with ⟨e, h1, _⟩ | ⟨a, b, h1, h2, h3⟩
  · rw [k3] at h1; exact absurd h1 (by simp)
  · rw [k3, Except.ok.injEq] at h1
    subst h1
    refine ⟨b, h2, fun s y hy => ?_⟩
    obtain ⟨u, g1, g2, _⟩ := (Node.Renamed.holds h3 s y).1 hy
    exact k4 s y (g2 ▸ g1)

theorem Spec.AppliedIn.present {K : NodeIndex → Prop} {l : List (NodeIndex × Closure)} {v v' : View} (h : AppliedIn K l v v') {i : NodeIndex} {f : Closure}
    (hm : (i, f) ∈ l) : v i ≠ none := by
  obtain ⟨pre, post, rfl⟩ := List.append_of_mem hm
  obtain ⟨v3, n, _, k1, k2, _⟩ := h.split
  intro hn
  rw [(applied_none k1 i).2 hn] at k2
  exact absurd k2 (by simp)

/-- A transaction that can be carried out, and whose result can be completed, has no mistakes. -/
theorem Spec.CarriedOut.noReason {S : Schema} {dbg : Bool} (hw : WellNamed S) (ho : OneOpposite S) (hd : DeclaredOnce S) {t : Trans} {v v6 : View}
    (hva : SteadyAnnos S t v) (hreg : Regular t.pending) (h0 : v emptyIdx = none) (hi0 : t.pending.new emptyIdx = none)
    (hu : dbg = true → ∀ i, ¬ t.pending.unfilled i) (h : CarriedOut t.pending v v6) (hc : Completable S v v6) (e : Panic) : ¬ Reason S dbg t v e := by
  have hp : Performed t v v6 := h.performed
  have hresp : ∀ p ∈ t.muts ++ t.upds, p.2.Respects := fun p hp => hreg.closures p.1 p.2 hp
  have same : ∀ {w}, Performed t v w → View.Same v6 w := fun k => performed_same rfl hreg.redir hreg.redirAll hresp (.refl v) hp k
  obtain ⟨v1, v2, v3, v4, v5, xs, ⟨a1, a2, a3⟩, b, c, d, ⟨f1, f2, f3⟩, xse, r⟩ := h
  have n2 : ∀ y, v2 y ≠ none → ¬ Absent v t y := by
    rintro y hy ⟨k1, k2⟩
    obtain ⟨ρ, _, hρ⟩ := a3
    rw [b.1 y k2, Ne, renamed_none hρ] at hy
    exact hy k1
  have n3 : ∀ y, v3 y ≠ none → ¬ Absent v t y := fun y hy => n2 y (by rwa [Ne, applied_none c.applied] at hy)
  have n4 : ∀ y, v4 y ≠ none → ¬ Absent v t y := fun y hy => n3 y (by rwa [Ne, applied_none d.applied] at hy)
  have atStep : ∀ {k : Loop2} {i : NodeIndex} {f : Closure} {w3 : View} {n : Node}, Before t.pending v w3 i f k → w3 i = some n →
      ∃ n', f n = .ok n' ∧ ∀ s y, n'.Holds s y → Present v t.pending y := by
    intro k i f w3 n hb hn
    cases k with
    | mutating =>
      obtain ⟨w1, w2, pre, post, q1, q2, q3, q4⟩ := hb
      exact c.at q3 (fun p hp => hresp p (List.mem_append_left _ hp)) (inserted_same b q2 (redirected_same hreg.redir a3 q1 (.refl v))) q4 hn
    | updating =>
      obtain ⟨w1, w2, w2', pre, post, q1, q2, q3, q4, q5⟩ := hb
      exact d.at q4 (fun p hp => hresp p (List.mem_append_right _ hp)) (applied_same (fun p hp => hresp p (List.mem_append_left _ hp)) c.applied q3
        (inserted_same b q2 (redirected_same hreg.redir a3 q1 (.refl v)))) q5 hn
  intro hr
  cases hr with
  | unfilled h1 h2 => exact hu h1 _ h2
  | loop h1 => exact h1.elim a2 f2
  | redirected h1 h2 => exact a1 _ _ h1 h2
  | redirectedAll h1 h2 => exact n4 _ (f1 _ _ h1) h2
  | missing h1 h2 =>
    rcases List.mem_append.1 h1 with h1 | h1
    · exact n2 _ (c.present h1) h2
    · exact n3 _ (d.present h1) h2
  | closure h1 h2 h3 =>
    obtain ⟨n', k1, _⟩ := atStep h1 h2
    rw [k1] at h3
    exact absurd h3 (by simp)
  | link h1 h2 h3 h4 h5 =>
    obtain ⟨n', k1, k2⟩ := atStep h1 h2
    rw [k1, Except.ok.injEq] at h3
    subst h3
    exact (k2 _ _ h4).elim (fun k => k h5.1) fun k => k h5.2
  | removed h1 h2 =>
    have := (r.1 _ ((xse _).2 h1)).1
    obtain ⟨ρ, _, hρ⟩ := f3
    rw [Ne, renamed_none hρ] at this
    exact n4 _ this h2
  | conflict h1 h2 => exact hc.1 (((View.Same.refl v).conflict (same h1)).1 h2)
  | undecided h1 h2 => exact not_undecided hw ho hd _ _ h2
  | vecLeft h1 h2 => exact hc.2.1.1 (((View.Same.refl v).vecLeft (same h1)).1 h2)
  | vecMissing h1 h2 => exact hc.2.1.2 (((View.Same.refl v).vecMissing (same h1)).1 h2)
  | linkType h1 h2 h3 h4 h5 =>
    rename_i w6 x m y n
    rcases hva x m y with hs | hs
    · have hy : y ≠ emptyIdx := by
        rintro rfl
        rw [(performed_none h1 emptyIdx).2 (.inl ⟨h0, hi0⟩)] at h2
        exact absurd h2 (by simp)
      obtain ⟨n', e1, e2⟩ := (same h1).symm.some h2
      have := hc.2.2 x m y n' (((View.Same.refl v).addedLink (same h1) x m y).1 ⟨hy, h3, h4 hs⟩) e1
      rw [show n'.disc = n.disc from e2.1] at this
      exact h5 this
    · exact h5 (Schema.permitted_of_accept hw (hs _))

end TTGraph
