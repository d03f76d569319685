import Verif.Lemmas.Unique
import Verif.Spec.Worlds

/-!
# Commits that only insert, and completion of symmetric graphs
-/

set_option autoImplicit false

namespace TTGraph
open Spec
variable {S : Schema}

theorem redirected_nil {v v' : View} (h : Redirected [] v v') : View.Same v v' := by
  obtain ⟨ρ, h1, h2⟩ := h
  have e : ρ = id := funext fun u => h1.other u (by simp)
  rw [e] at h2
  exact h2

theorem removed_nil {v v' : View} (h : Removed [] v v') : View.Same v v' := by
  refine View.same_of (fun x hx => (removed_none h x).2 (Or.inl hx)) fun x n hn => ?_
  obtain ⟨n', h1, h2⟩ := removed_node h hn (by simp)
  refine ⟨n', h1, ?_⟩
  have e : (fun u => if u ∈ ([] : List NodeIndex) then emptyIdx else u) = id := funext fun u => by simp
  rw [e] at h2
  exact h2

theorem applied_nil {v v' : View} (h : Applied [] v v') : v' = v := by
  cases h with
  | nil h => exact funext h

theorem union_same {a v v' : View} (h : View.Same v v') : View.Same (union a v) (union a v') := by
  refine View.same_of (fun x hx => ?_) fun x n hn => ?_
  · simp only [union] at hx ⊢
    split at hx
    · exact absurd hx (by simp)
    · exact (h.none_iff x).2 hx
  · simp only [union] at hn ⊢
    split at hn
    · exact ⟨n, hn, Node.Same.refl n⟩
    · exact h.some hn

/-- Only new nodes. -/
theorem performed_insert {t : Trans} {v v6 : View} (h : Performed t v v6) (h1 : t.redir = []) (h2 : t.muts = []) (h3 : t.upds = [])
    (h4 : t.redirAll = []) (h5 : t.dec.elems = []) : View.Same (union t.inc.get? v) v6 := by
  obtain ⟨v1, v2, v3, v4, v5, a1, a2, a3, a4, a5, a6⟩ := h
  rw [h1] at a1
  rw [h2] at a3
  rw [h3] at a4
  rw [h4] at a5
  rw [h5] at a6
  have e2 : v2 = union t.inc.get? v1 := by
    funext x
    simp only [union]
    split
    · rename_i n hn
      exact (a2.2 x n hn).2
    · rename_i hn
      exact a2.1 x hn
  rw [applied_nil a4, applied_nil a3, e2] at a5
  exact ((union_same (redirected_nil a1)).trans (redirected_nil a5)).trans (removed_nil a6)

/-- Completion adds nothing to a symmetric graph from which nothing was removed. -/
theorem completion_symmetric {v v6 v7 : View} (hwt : ∀ x n, v6 x = some n → S.WT n) (h : Completion S v v6 v7)
    (hsym : Symmetric S v6) (hrem : ∀ x m y, ¬ RemovedLink v v6 x m y) : View.Same v6 v7 := by
  refine View.same_iff.2 ⟨sameButLinks_iff.1 h.1, fun x s y => ?_⟩
  rw [h.2]
  constructor
  · rintro (⟨h1, _⟩ | ⟨h0, hk, m, d, ha, ⟨hx, n, hn, hd⟩, hop⟩)
    · exact h1
    · obtain ⟨n', hn', slot, hh⟩ := hsym y m x n s.mirror ha.2.1 hn hop.1 (by rw [hop.2.1, hd])
      have hh' : View.Holds v6 x ⟨s.disc, s.pos, slot⟩ y := ⟨n', hn', hh⟩
      have hz := View.slot_zero hwt hh' hk
      simp only at hz
      subst hz
      rw [← h0] at hh'
      exact hh'
  · intro h1
    exact Or.inl ⟨h1, fun ⟨m, d, hr, _⟩ => hrem _ _ _ hr⟩

theorem sameUpToBidir_of_same {v v' v'' : View} (h : View.Same v v') (h' : SameUpToBidir S v' v'') : SameUpToBidir S v v'' := by
  obtain ⟨h1, h2⟩ := View.same_iff.1 h
  refine ⟨fun x => by rw [h'.1 x]; exact sameButLinks_iff.2 h1 x, fun x s y hs => ?_⟩
  rw [h'.2 x s y hs, h2]

theorem View.Same.symmetric {v v' : View} (h : View.Same v v') (hs : Symmetric S v) : Symmetric S v' := by
  intro x m y n m' hl hn ho hd
  obtain ⟨n0, hn0, hns⟩ := h.symm.some hn
  rw [h.link] at hl ⊢
  exact hs x m y n0 m' hl hn0 ho (by rw [hd]; exact hns.1.symm)

end TTGraph
