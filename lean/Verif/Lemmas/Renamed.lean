import Verif.Lemmas.Bidir
import Verif.Spec.Commit


set_option autoImplicit false
namespace TTGraph

theorem LinkVal.renamed_of_holds {ρ : NodeIndex → NodeIndex} {v v' : LinkVal} (hs : v'.shape = v.shape)
    (hh : ∀ k w, v'.Holds k w ↔ ∃ u, v.Holds k u ∧ ρ u = w ∧ (w ≠ emptyIdx ∨ u = emptyIdx)) : LinkVal.Renamed ρ v v' := by
  have core : ∀ (i i' : NodeIndex), (∀ w, (i' = w ∧ w ≠ emptyIdx) ↔ ∃ u, (i = u ∧ u ≠ emptyIdx) ∧ ρ u = w ∧ (w ≠ emptyIdx ∨ u = emptyIdx)) →
      i' = if i = emptyIdx then emptyIdx else ρ i := by
    intro i i' h
    by_cases hi : i = emptyIdx
    · rw [if_pos hi]
      by_contra hc
      obtain ⟨u, ⟨h1, h2⟩, _⟩ := (h i').1 ⟨rfl, hc⟩
      exact h2 (h1 ▸ hi)
    · rw [if_neg hi]
      by_cases hr : ρ i = emptyIdx
      · by_contra hc
        have hc' : i' ≠ emptyIdx := fun e => hc (e.trans hr.symm)
        obtain ⟨u, ⟨h1, h2⟩, h3, _⟩ := (h i').1 ⟨rfl, hc'⟩
        subst h1
        exact hc h3.symm
      · exact ((h (ρ i)).2 ⟨i, ⟨rfl, hi⟩, rfl, Or.inl hr⟩).1
  cases v with
  | direct i =>
    cases v' with
    | direct i' =>
      refine core i i' (fun w => ?_)
      have := hh 0 w
      simpa only [LinkVal.Holds, true_and] using this
    | set s => simp [shape] at hs
    | vec l => simp [shape] at hs
  | set s =>
    cases v' with
    | direct i' => simp [shape] at hs
    | set s' =>
      intro w
      have := hh 0 w
      simpa only [LinkVal.Holds, true_and] using this
    | vec l => simp [shape] at hs
  | vec l =>
    cases v' with
    | direct i' => simp [shape] at hs
    | set s => simp [shape] at hs
    | vec l' =>
      simp only [shape, Prod.mk.injEq, true_and] at hs
      show l' = _
      apply List.ext_getElem
      · simp [hs]
      · intro k h1 h2
        simp only [List.getElem_map]
        have hk : k < l.length := by simpa [hs] using h1
        refine core l[k] l'[k] (fun w => ?_)
        have := hh k w
        simpa only [LinkVal.Holds, List.getElem?_eq_getElem h1, List.getElem?_eq_getElem hk, Option.some.injEq] using this

theorem LinkVal.Renamed.shape {ρ : NodeIndex → NodeIndex} {v v' : LinkVal} (h : LinkVal.Renamed ρ v v') : v'.shape = v.shape := by
  cases v <;> cases v' <;> simp_all [LinkVal.Renamed, LinkVal.shape]

theorem LinkVal.Renamed.holds {ρ : NodeIndex → NodeIndex} {v v' : LinkVal} (h : LinkVal.Renamed ρ v v') (k : Nat) (w : NodeIndex) :
    v'.Holds k w ↔ ∃ u, v.Holds k u ∧ ρ u = w ∧ (w ≠ emptyIdx ∨ u = emptyIdx) := by
  have core : ∀ (i i' : NodeIndex), (i' = if i = emptyIdx then emptyIdx else ρ i) →
      ((i' = w ∧ w ≠ emptyIdx) ↔ ∃ u, (i = u ∧ u ≠ emptyIdx) ∧ ρ u = w ∧ (w ≠ emptyIdx ∨ u = emptyIdx)) := by
    intro i i' h
    by_cases hi : i = emptyIdx
    · rw [if_pos hi] at h
      constructor
      · rintro ⟨h1, h2⟩; exact absurd (h1.symm.trans h) h2
      · rintro ⟨u, ⟨h1, h2⟩, _⟩; exact absurd (h1 ▸ hi) h2
    · rw [if_neg hi] at h
      constructor
      · rintro ⟨h1, h2⟩; exact ⟨i, ⟨rfl, hi⟩, h.symm.trans h1, Or.inl h2⟩
      · rintro ⟨u, ⟨rfl, h2⟩, h3, h4⟩
        refine ⟨h.trans h3, ?_⟩
        rcases h4 with h4 | h4
        · exact h4
        · exact absurd h4 h2
  cases v with
  | direct i =>
    cases v' with
    | direct i' =>
      have := core i i' h
      simp only [LinkVal.Holds]
      constructor
      · rintro ⟨h0, h1⟩
        obtain ⟨u, hu, h2⟩ := this.1 h1
        exact ⟨u, ⟨h0, hu⟩, h2⟩
      · rintro ⟨u, ⟨h0, hu⟩, h2⟩
        exact ⟨h0, this.2 ⟨u, hu, h2⟩⟩
    | set s => simp [LinkVal.Renamed] at h
    | vec l => simp [LinkVal.Renamed] at h
  | set s =>
    cases v' with
    | direct i' => simp [LinkVal.Renamed] at h
    | set s' =>
      have := h w
      simp only [LinkVal.Holds, this]
      constructor
      · rintro ⟨h0, u, h1⟩; exact ⟨u, ⟨h0, h1.1⟩, h1.2⟩
      · rintro ⟨u, ⟨h0, h1⟩, h2⟩; exact ⟨h0, u, h1, h2⟩
    | vec l => simp [LinkVal.Renamed] at h
  | vec l =>
    cases v' with
    | direct i' => simp [LinkVal.Renamed] at h
    | set s => simp [LinkVal.Renamed] at h
    | vec l' =>
      have hl : l' = l.map (fun i => if i = emptyIdx then emptyIdx else ρ i) := h
      simp only [LinkVal.Holds]
      cases hk : l[k]? with
      | none =>
        have : l'[k]? = none := by rw [hl]; simp [hk]
        rw [this]; simp
      | some i =>
        have : l'[k]? = some (if i = emptyIdx then emptyIdx else ρ i) := by rw [hl]; simp [hk]
        rw [this]
        simp only [Option.some.injEq]
        exact core i _ rfl

theorem Node.renamed_of_holds {ρ : NodeIndex → NodeIndex} {n n' : Node} (hs : n'.shape = n.shape)
    (hh : ∀ t w, n'.Holds t w ↔ ∃ u, n.Holds t u ∧ ρ u = w ∧ (w ≠ emptyIdx ∨ u = emptyIdx)) : Node.Renamed ρ n n' := by
  have hs' := hs
  simp only [Node.shape, Prod.mk.injEq] at hs
  obtain ⟨h1, h2, h3⟩ := hs
  refine ⟨h1, h2, ?_⟩
  have hlen : n.links.length = n'.links.length := by
    have := congrArg List.length h3; simpa using this.symm
  rw [List.forall₂_iff_get]
  refine ⟨hlen, ?_⟩
  intro p hp hp'
  refine LinkVal.renamed_of_holds ?_ ?_
  · have := congrArg (fun l => l[p]?) h3
    simp only [List.getElem?_map, List.getElem?_eq_getElem hp, List.getElem?_eq_getElem hp', Option.map_some, Option.some.injEq] at this
    simpa using this
  · intro k w
    have := hh ⟨n.disc, p, k⟩ w
    simpa only [Node.Holds, h1, true_and, List.getElem?_eq_getElem hp, List.getElem?_eq_getElem hp', Option.some.injEq, exists_eq_left', List.get_eq_getElem] using this

theorem Node.Renamed.shape {ρ : NodeIndex → NodeIndex} {n n' : Node} (h : Node.Renamed ρ n n') : n'.shape = n.shape := by
  obtain ⟨h1, h2, h3⟩ := h
  simp only [Node.shape, Prod.mk.injEq]
  refine ⟨h1, h2, ?_⟩
  rw [List.forall₂_iff_get] at h3
  apply List.ext_getElem
  · simp [h3.1]
  · intro k hk hk'
    simp only [List.length_map] at hk hk'
    simp only [List.getElem_map]
    exact (h3.2 k hk' hk).shape

theorem Node.Renamed.holds {ρ : NodeIndex → NodeIndex} {n n' : Node} (h : Node.Renamed ρ n n') (t : Source) (w : NodeIndex) :
    n'.Holds t w ↔ ∃ u, n.Holds t u ∧ ρ u = w ∧ (w ≠ emptyIdx ∨ u = emptyIdx) := by
  obtain ⟨h1, h2, h3⟩ := h
  rw [List.forall₂_iff_get] at h3
  simp only [Node.Holds, h1]
  by_cases hd : t.disc = n.disc
  · simp only [hd, true_and]
    by_cases hp : t.pos < n.links.length
    · have hp' : t.pos < n'.links.length := h3.1 ▸ hp
      have := (h3.2 t.pos hp hp').holds t.slot w
      simpa only [List.getElem?_eq_getElem hp, List.getElem?_eq_getElem hp', Option.some.injEq, exists_eq_left', List.get_eq_getElem] using this
    · have hp' : ¬ t.pos < n'.links.length := h3.1 ▸ hp
      rw [List.getElem?_eq_none (by omega), List.getElem?_eq_none (by omega)]
      simp
  · simp [hd]

theorem View.renH_iff {ρ : NodeIndex → NodeIndex} {v v' : View} : View.RenH ρ v v' ↔ View.Renamed ρ v v' := by
  constructor
  · intro h x
    have hx := h.shape x
    cases hv : v x with
    | none =>
      cases hv' : v' x with
      | none => trivial
      | some n' => rw [hv, hv'] at hx; simp at hx
    | some n =>
      cases hv' : v' x with
      | none => rw [hv, hv'] at hx; simp at hx
      | some n' =>
        rw [hv, hv'] at hx
        simp only [Option.map_some, Option.some.injEq] at hx
        refine Node.renamed_of_holds hx ?_
        intro t w
        have := h.holds x t w
        simpa only [View.Holds, hv, hv', Option.some.injEq, exists_eq_left'] using this
  · intro h
    refine ⟨?_, ?_⟩
    · intro x
      have hx := h x
      cases hv : v x with
      | none =>
        cases hv' : v' x with
        | none => rfl
        | some n' => rw [hv, hv'] at hx; exact absurd hx id
      | some n =>
        cases hv' : v' x with
        | none => rw [hv, hv'] at hx; exact absurd hx id
        | some n' =>
          rw [hv, hv'] at hx
          simp [Node.Renamed.shape hx]
    · intro x t w
      have hx := h x
      cases hv : v x with
      | none =>
        cases hv' : v' x with
        | none => simp [View.Holds, hv, hv']
        | some n' => rw [hv, hv'] at hx; exact absurd hx id
      | some n =>
        cases hv' : v' x with
        | none => rw [hv, hv'] at hx; exact absurd hx id
        | some n' =>
          rw [hv, hv'] at hx
          have hx : Node.Renamed ρ n n' := hx
          simpa only [View.Holds, hv, hv', Option.some.injEq, exists_eq_left'] using hx.holds t w

theorem View.Renamed.renH {ρ : NodeIndex → NodeIndex} {v v' : View} (h : View.Renamed ρ v v') : View.RenH ρ v v' := View.renH_iff.2 h

namespace Spec

theorem chain_iff {reqs : List (NodeIndex × NodeIndex)} {a b : NodeIndex} : Chain reqs a b ↔ Graph.Reach reqs a b := by
  constructor
  · intro h
    induction h with
    | here a => exact Relation.ReflTransGen.refl
    | step h _ ih => exact Relation.ReflTransGen.head h ih
  · intro h
    induction h using Relation.ReflTransGen.head_induction_on with
    | refl => exact .here _
    | head h _ ih => exact .step h ih

theorem loop_iff {reqs : List (NodeIndex × NodeIndex)} : Loop reqs ↔ Graph.Cyclic reqs := by
  constructor
  · rintro ⟨a, b, h, hc⟩
    exact ⟨a, Relation.TransGen.head' h (chain_iff.1 hc)⟩
  · rintro ⟨a, h⟩
    obtain ⟨b, h1, h2⟩ := Relation.TransGen.head'_iff.1 h
    exact ⟨a, b, h1, chain_iff.2 h2⟩

/-- The map of the model is a redirect map. -/
theorem redirectMap_firstTarget {R : NodeIndex → NodeIndex} {reqs : List (NodeIndex × NodeIndex)}
    (h : ∀ p ∈ reqs, (∀ n, (R p.2, n) ∉ reqs) ∧ Graph.Reach reqs p.2 (R p.2)) : RedirectMap reqs (Graph.firstTarget R reqs) where
  other u hu := Graph.firstTarget_not_old hu
  first pre u n post hr hpre := by
    have hm : (u, n) ∈ reqs := by rw [hr]; simp
    have : Graph.firstTarget R reqs u = R n := by rw [hr]; exact Graph.firstTarget_first hpre
    rw [this]
    exact ⟨chain_iff.2 (h _ hm).2, (h _ hm).1⟩

theorem sameButLinks_iff {v v' : View} : SameButLinks v v' ↔ View.SameShape v v' := Iff.rfl

end Spec
end TTGraph
