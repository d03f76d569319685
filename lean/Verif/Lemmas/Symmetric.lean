import Verif.Lemmas.Insert
import Verif.Lemmas.History
import Verif.Spec.Integrity
import Verif.Spec.Worlds

/-!
# Completion keeps bidirectional links symmetric
-/

set_option autoImplicit false

namespace TTGraph
open Spec
variable {S : Schema}

theorem View.Link.disc {v : View} {x : NodeIndex} {m : Mirror} {y : NodeIndex} (h : v.Link x m y) : ∃ n, v x = some n ∧ n.disc = m.disc := by
  obtain ⟨k, n, hn, hd, _⟩ := View.link_iff.1 h
  exact ⟨n, hn, hd.symm⟩

theorem Spec.Ends.of_shape {v v' : View} (h : SameButLinks v v') {x : NodeIndex} {n' : Node} (hx : v' x = some n') :
    ∃ n, v x = some n ∧ n'.disc = n.disc := by
  have hs := h x
  rw [hx] at hs
  cases hn : v x with
  | none => rw [hn] at hs; exact absurd hs (by simp)
  | some n =>
    rw [hn] at hs
    simp only [Option.map_some, Option.some.injEq] at hs
    exact ⟨n, rfl, congrArg Prod.fst hs⟩

/-- In terms of whole fields, if there is one opposite per field and variant. -/
theorem completion_link (hone : OneOpposite S) {v v6 v7 : View} (hc : Completion S v v6 v7) (hcov : Graph.Covered S v v6 v7) (z : NodeIndex)
    (m' : Mirror) (w : NodeIndex) :
    v7.Link z m' w ↔ (v6.Link z m' w ∧ ¬ ∃ m, Opposite S m m' ∧ RemovedLink v v6 w m z ∧ Ends v6 w z m'.disc) ∨
      ∃ m, Opposite S m m' ∧ AddedLink v v6 w m z ∧ Ends v6 w z m'.disc := by
  constructor
  · intro h
    obtain ⟨k, h⟩ := View.link_iff.1 h
    rcases (hc.2 _ _ _).1 h with ⟨h1, h2⟩ | ⟨_, _, m, d, h3, h4, h6, h7, _⟩
    · exact Or.inl ⟨View.link_iff.2 ⟨k, h1⟩, fun ⟨m, h3, h4, h5⟩ => h2 ⟨m, m'.disc, h4, h5, h3, rfl⟩⟩
    · have e : d = m'.disc := h7.symm
      subst e
      exact Or.inr ⟨m, h6, h3, h4⟩
  · rintro (⟨h1, h2⟩ | ⟨m, h1, h2, h3⟩)
    · obtain ⟨k, h1⟩ := View.link_iff.1 h1
      refine View.link_iff.2 ⟨k, (hc.2 _ _ _).2 (Or.inl ⟨h1, ?_⟩)⟩
      rintro ⟨m, d, h3, h4, h5, h6⟩
      have e : d = m'.disc := h6.symm
      subst e
      exact h2 ⟨m, h5, h3, h4⟩
    · obtain ⟨m2, h4, h5, h6⟩ := hcov w m z m'.disc h2 h3 ⟨m', h1, rfl⟩
      rw [hone m m2 m' h4 h1 h5] at h6
      exact h6

/-- Completion of a symmetric view. -/
theorem completion_sym (hone : OneOpposite S) {v v6 v7 : View} (hc : Completion S v v6 v7) (hcov : Graph.Covered S v v6 v7)
    (hs : Symmetric S v) (hi : Internal v)
    (hvar : ∀ x n n6, v x = some n → v6 x = some n6 → n6.disc = n.disc) (h0 : v6 emptyIdx = none) : Symmetric S v7 := by
  intro x m y n7 m' hl hy hop hd
  obtain ⟨n6, hy6, hdy⟩ := Spec.Ends.of_shape hc.1 hy
  obtain ⟨n7x, hx7, hdx7⟩ := hl.disc
  obtain ⟨nx6, hx6, hdx⟩ := Spec.Ends.of_shape hc.1 hx7
  have hxd : nx6.disc = m.disc := hdx.symm.trans hdx7
  have hyd : n6.disc = m'.disc := hdy.symm.trans hd.symm
  have hyne : y ≠ emptyIdx := by rintro rfl; rw [h0] at hy6; exact absurd hy6 (by simp)
  have hxne : x ≠ emptyIdx := by rintro rfl; rw [h0] at hx6; exact absurd hx6 (by simp)
  have e1 : Ends v6 x y m'.disc := ⟨by rw [hx6]; simp, n6, hy6, hyd⟩
  have e2 : Ends v6 y x m.disc := ⟨by rw [hy6]; simp, nx6, hx6, hxd⟩
  rw [completion_link hone hc hcov] at hl ⊢
  -- a link of `v` from `x` to `y` or back is between nodes of the same variants in `v`
  have hold : ∀ m0, v.Link x m0 y → m0.disc = m.disc ∧ ∃ n, v y = some n ∧ n.disc = m'.disc := by
    intro m0 h1
    obtain ⟨nx, h2, h3⟩ := h1.disc
    obtain ⟨k, h4⟩ := View.link_iff.1 h1
    obtain ⟨ny, h5⟩ := Option.ne_none_iff_exists'.1 ((hi x _ y h4).resolve_left hyne)
    exact ⟨by rw [← h3, ← hxd]; exact (hvar x nx nx6 h2 hx6).symm, ny, h5, by rw [← hyd]; exact (hvar y ny n6 h5 hy6).symm⟩
  -- the opposite of `m'` on `x` is `m`
  have huniq : ∀ m0, Opposite S m0 m' → m0.disc = m.disc → m0 = m := fun m0 h1 h2 => hone m' m0 m h1.symm hop.symm h2
  rcases hl with ⟨h1, h2⟩ | ⟨m0, h1, h2, h3⟩
  · by_cases hv : v.Link x m y
    · obtain ⟨_, ny, h3, h4⟩ := hold m hv
      have h5 : v.Link y m' x := hs x m y ny m' hv h3 hop h4.symm
      refine Or.inl ⟨?_, ?_⟩
      · by_contra h6
        exact h2 ⟨m', hop.symm, ⟨hxne, h5, h6⟩, e2⟩
      · rintro ⟨m0, h6, ⟨_, h7, h8⟩, _⟩
        rw [huniq m0 h6 (hold m0 h7).1] at h8
        exact h8 h1
    · exact Or.inr ⟨m, hop, ⟨hyne, h1, hv⟩, e1⟩
  · obtain ⟨_, h4, h5⟩ := h2
    have hm0 : m0 = m' := by
      obtain ⟨n6', h6, h7⟩ := h4.disc
      rw [hy6, Option.some.injEq] at h6
      subst h6
      exact hone m m0 m' h1.symm hop (h7.symm.trans hyd)
    subst hm0
    refine Or.inl ⟨h4, ?_⟩
    rintro ⟨m1, h6, ⟨_, h7, h8⟩, _⟩
    obtain ⟨h9, ny, h10, h11⟩ := hold m1 h7
    rw [huniq m1 h6 h9] at h7
    exact h5 (hs x m y ny m0 h7 h10 hop h11.symm)

theorem covered_answered {v v6 v7 : View} (hc : Completion S v v6 v7) (hcov : Graph.Covered S v v6 v7) (ha : Answered S v) (hi : Internal v)
    (hvar : ∀ x n n6, v x = some n → v6 x = some n6 → n6.disc = n.disc) (h0 : v6 emptyIdx = none)
    (hrem : ∀ x m y, ¬ RemovedLink v v6 x m y) : Answered S v7 := by
  have hmono : ∀ x m y, v6.Link x m y → v7.Link x m y := by
    intro x m y h
    obtain ⟨k, h⟩ := View.link_iff.1 h
    exact View.link_iff.2 ⟨k, (hc.2 _ _ _).2 (Or.inl ⟨h, fun ⟨m0, d, h1, _⟩ => hrem _ _ _ h1⟩)⟩
  intro x m y n7 hl hy hop
  obtain ⟨n6, hy6, hdy⟩ := Spec.Ends.of_shape hc.1 hy
  obtain ⟨n7x, hx7, hdx7⟩ := hl.disc
  obtain ⟨nx6, hx6, hdx⟩ := Spec.Ends.of_shape hc.1 hx7
  have hyne : y ≠ emptyIdx := by rintro rfl; rw [h0] at hy6; exact absurd hy6 (by simp)
  have hxne : x ≠ emptyIdx := by rintro rfl; rw [h0] at hx6; exact absurd hx6 (by simp)
  obtain ⟨k, hk⟩ := View.link_iff.1 hl
  rcases (hc.2 _ _ _).1 hk with ⟨h1, _⟩ | ⟨_, _, m0, d, ⟨_, h1, _⟩, _, h2, _⟩
  · have h6 : v6.Link x m y := View.link_iff.2 ⟨k, h1⟩
    by_cases hv : v.Link x m y
    · obtain ⟨k', hk'⟩ := View.link_iff.1 hv
      obtain ⟨ny, h5⟩ := Option.ne_none_iff_exists'.1 ((hi x _ y hk').resolve_left hyne)
      have e : ny.disc = n7.disc := (hvar y ny n6 h5 hy6).symm.trans hdy.symm
      rw [← e] at hop ⊢
      obtain ⟨m', h7, h8, h9⟩ := ha x m y ny hv h5 hop
      refine ⟨m', h7, h8, hmono _ _ _ ?_⟩
      by_contra h10
      exact hrem y m' x ⟨hxne, h9, h10⟩
    · exact hcov x m y n7.disc ⟨hyne, h6, hv⟩ ⟨by rw [hx6]; simp, n6, hy6, hdy.symm⟩ hop
  · obtain ⟨ny, h3, h4⟩ := h1.disc
    rw [hy6, Option.some.injEq] at h3
    subst h3
    exact ⟨m0, h2.symm, by rw [hdy, h4], hmono _ _ _ h1⟩

end TTGraph
