import Verif.Lemmas.Meets

/-!
# How a commit can panic
-/

set_option autoImplicit false

namespace TTGraph
namespace Graph

section
variable {S : Schema} {e0 : Prop} {step : Graph → NodeIndex → Closure → Lcr → Except Panic (Graph × Lcr)}

/-- Applying a closure to a node fails because the node is missing, because the closure panics, or because it leaves a link to an unknown
index. -/
theorem step_error (hst : IsStep step) {g : Graph} {x : NodeIndex} {f : Closure} {r : Lcr} {e : Panic} (h : g.Inv S e0) (hf : Closure.Typed S f)
    (hs : step g x f r = .error e) :
    (e = .nodeMissing ∧ g.get? x = none) ∨ (∃ n, g.get? x = some n ∧ f n = .error e) ∨
      (e = .backMissing ∧ ∃ n n' s y, g.get? x = some n ∧ f n = .ok n' ∧ n'.Holds s y ∧ ¬ g.back.Known y) := by
  cases hn : g.get? x with
  | none =>
    left
    rcases hst with rfl | rfl
    · rw [modifyNode_missing hn] at hs; exact ⟨by simpa using hs.symm, rfl⟩
    · rw [updateNode_missing hn] at hs; exact ⟨by simpa using hs.symm, rfl⟩
  | some n =>
    right
    cases hf' : f n with
    | error e' =>
      left
      refine ⟨n, rfl, ?_⟩
      rcases hst with rfl | rfl
      · rw [modifyNode_user h hn hf'] at hs
        rw [hf', ← (by simpa using hs : e' = e)]
      · rw [updateNode_user h hn hf'] at hs
        rw [hf', ← (by simpa using hs : e' = e)]
    | ok n' =>
      right
      by_cases hk : ∃ s y, n'.Holds s y ∧ ¬ g.back.Known y
      · obtain ⟨s, y, hh, hc⟩ := hk
        refine ⟨?_, n, n', s, y, rfl, hf', hh, hc⟩
        rcases hst with rfl | rfl
        · rw [modifyNode_unknown h hn hf' ⟨s, y, hh, hc⟩] at hs; simpa using hs.symm
        · rw [updateNode_unknown h hn hf' ⟨s, y, hh, hc⟩] at hs; simpa using hs.symm
      · obtain ⟨g', r', h1, _⟩ := step_ok (r := r) hst h hn hf' (hf n n' (h.wt _ _ hn) hf')
          (fun s y hh => by by_contra hc; exact hk ⟨s, y, hh, hc⟩) (fun _ => True)
        rw [hs] at h1
        exact absurd h1 (by simp)

theorem applyClosures_error (hst : IsStep step) (l : List (NodeIndex × Closure)) (hl : ∀ p ∈ l, Closure.Typed S p.2) :
    ∀ {g : Graph} {r : Lcr} {e : Panic}, g.Inv S e0 → applyClosures step (g, r) l = .error e →
      (e = .nodeMissing ∧ ∃ p ∈ l, g.get? p.1 = none) ∨ (∃ p ∈ l, ∃ n, p.2 n = .error e) ∨ e = .backMissing := by
  induction l with
  | nil =>
    intro g r e _ hs
    simp only [applyClosures, foldE] at hs
    exact absurd hs (by simp)
  | cons p l ih =>
    intro g r e h hs
    simp only [applyClosures, foldE] at hs
    cases hp : step g p.1 p.2 r with
    | error e' =>
      rw [hp] at hs
      obtain rfl : e' = e := by simpa using hs
      rcases step_error hst h (hl p List.mem_cons_self) hp with ⟨h1, h2⟩ | ⟨n, _, h2⟩ | ⟨h1, _⟩
      · exact Or.inl ⟨h1, p, List.mem_cons_self, h2⟩
      · exact Or.inr (Or.inl ⟨p, List.mem_cons_self, n, h2⟩)
      · exact Or.inr (Or.inr h1)
    | ok st1 =>
      rw [hp] at hs
      obtain ⟨g1, r1⟩ := st1
      obtain ⟨n, n', h1, h2, h3⟩ := step_inv hst h hp
      obtain ⟨g1', r1', h4, h5, h6, _⟩ := step_ok (r := r) hst h h1 h2 (hl p List.mem_cons_self n n' (h.wt _ _ h1) h2) h3 (fun _ => True)
      rw [hp] at h4
      obtain ⟨rfl, rfl⟩ : g1 = g1' ∧ r1 = r1' := by simpa using h4
      rcases ih (fun q hq => hl q (List.mem_cons_of_mem _ hq)) h6 hs with ⟨k1, q, k2, k3⟩ | ⟨q, k1, k2⟩ | k1
      · refine Or.inl ⟨k1, q, List.mem_cons_of_mem _ k2, ?_⟩
        rw [h5] at k3
        split at k3
        · exact absurd k3 (by simp)
        · exact k3
      · exact Or.inr (Or.inl ⟨q, List.mem_cons_of_mem _ k1, k2⟩)
      · exact Or.inr (Or.inr k1)

end

variable [SetImpl] {S : Schema} {e0 : Prop}

/-- If every node is redirected at most once, a loop is always found. -/
theorem redirect_loop {reps : List (NodeIndex × NodeIndex)} (hn : (reps.map Prod.fst).Nodup) (hl : Spec.Loop reps) (g : Graph) (r : Lcr) :
    redirectLinksVec g reps r = .error .redirectLoop := by
  rcases faPass (reps := reps) with ⟨fa, _, hinv⟩ | ⟨herr, _⟩
  · exact absurd (Spec.loop_iff.1 hl) (not_cyclic_of_faInv hinv (fun p hp => ⟨p, hp, Or.inl rfl⟩) hn)
  · simp only [redirectLinksVec, herr]

/-- The ways in which the operations of a transaction can panic. -/
theorem perform_error (hS : S.discs.Nodup) {g : Graph} {t : Trans} {e : Panic} (h : g.Inv S e0) (ht : t.Good S) (hd : g.nodes.Disjoint t.inc)
    (hz : t.NoFromEmpty) (hs : perform S g t = .error e) :
    (e = .redirectLoop ∧ (Spec.Loop t.redir ∨ Spec.Loop t.redirAll)) ∨ e = .backMissing ∨
    (e = .nodeMissing ∧ ∃ p ∈ t.muts ++ t.upds, g.get? p.1 = none ∧ t.inc.get? p.1 = none) ∨
    (e = .removeMissing ∧ ∃ x ∈ t.dec.elems, g.get? x = none ∧ t.inc.get? x = none) ∨ ∃ p ∈ t.muts ++ t.upds, ∃ n, p.2 n = .error e := by
  simp only [perform] at hs
  rcases redirect_cases (S := S) h Lcr.new (reps := t.redir) (fun ⟨n, hn⟩ => absurd (List.mem_append_left _ hn) (hz n)) (View.L g.get?) with
    ⟨hl, h1⟩ | ⟨_, h1⟩ | ⟨_, g1, r1, h1, o1⟩
  · rw [h1] at hs
    exact Or.inl ⟨by simpa using hs.symm, Or.inl hl⟩
  · rw [h1] at hs
    exact Or.inr (Or.inl (by simpa using hs.symm))
  rw [h1] at hs
  simp only at hs
  have hd1 : g1.nodes.Disjoint t.inc := by intro i hi; rw [o1.disp]; exact hd i hi
  obtain ⟨m1, m2, _⟩ := mergeNodes_spec (r := r1) (L0 := View.L g.get?) hS o1.inv ht.inv hd1 ht.noEmpty ht.wt
  have hnone : ∀ x, (mergeNodes S g1 t.inc r1).1.get? x = none → g.get? x = none ∧ t.inc.get? x = none := by
    intro x hx
    rw [m1] at hx
    obtain ⟨h2, h3⟩ : t.inc.get? x = none ∧ g1.get? x = none := by
      cases hi : t.inc.get? x with
      | none => rw [hi] at hx; exact ⟨rfl, by simpa using hx⟩
      | some n => rw [hi] at hx; exact absurd hx (by simp)
    obtain ⟨ρ, _, h4⟩ := o1.redirected
    refine ⟨?_, h2⟩
    have := h4 x
    rw [h3] at this
    cases hg : g.get? x with
    | none => rfl
    | some n => rw [hg] at this; exact absurd this id
  cases h3 : applyClosures modifyNode (mergeNodes S g1 t.inc r1) t.muts with
  | error e' =>
    rw [h3] at hs
    obtain rfl : e' = e := by simpa using hs
    rcases applyClosures_error (Or.inl rfl) t.muts (fun p hp => ht.closures p (by simp [hp])) m2 h3 with ⟨k1, p, k2, k3⟩ | ⟨p, k1, k2⟩ | k
    · exact Or.inr (Or.inr (Or.inl ⟨k1, p, by simp [k2], hnone _ k3⟩))
    · exact Or.inr (Or.inr (Or.inr (Or.inr ⟨p, by simp [k1], k2⟩)))
    · exact Or.inr (Or.inl k)
  | ok st3 =>
    rw [h3] at hs
    simp only at hs
    have o3 := applyClosures_out (L0 := View.L g.get?) (Or.inl rfl) t.muts (fun p hp => ht.closures p (by simp [hp])) m2 h3
    cases h4 : applyClosures updateNode st3 t.upds with
    | error e' =>
      rw [h4] at hs
      obtain rfl : e' = e := by simpa using hs
      rcases applyClosures_error (Or.inr rfl) t.upds (fun p hp => ht.closures p (by simp [hp])) o3.inv h4 with ⟨k1, p, k2, k3⟩ | ⟨p, k1, k2⟩ | k
      · exact Or.inr (Or.inr (Or.inl ⟨k1, p, by simp [k2], hnone _ ((applied_exists o3.applied _).1 k3)⟩))
      · exact Or.inr (Or.inr (Or.inr (Or.inr ⟨p, by simp [k1], k2⟩)))
      · exact Or.inr (Or.inl k)
    | ok st4 =>
      rw [h4] at hs
      obtain ⟨g4, r4⟩ := st4
      simp only at hs
      have o4 := applyClosures_out (L0 := View.L g.get?) (Or.inr rfl) t.upds (fun p hp => ht.closures p (by simp [hp])) o3.inv h4
      rcases redirect_cases (S := S) o4.inv r4 (reps := t.redirAll) (fun ⟨n, hn⟩ => absurd (List.mem_append_right _ hn) (hz n)) (View.L g.get?) with
        ⟨hl, h5⟩ | ⟨_, h5⟩ | ⟨_, g5, r5, h5, o5⟩
      · rw [h5] at hs
        exact Or.inl ⟨by simpa using hs.symm, Or.inr hl⟩
      · rw [h5] at hs
        exact Or.inr (Or.inl (by simpa using hs.symm))
      · rw [h5] at hs
        simp only at hs
        rcases removeAll_cases (S := S) (r := r5) t.dec.elems t.dec.nodup (View.L g.get?) o5.inv with ⟨⟨x, hx, hx'⟩, h6⟩ | ⟨hall, g6, r6, h6, o6⟩
        · rw [h6] at hs
          refine Or.inr (Or.inr (Or.inr (Or.inl ⟨by simpa using hs.symm, x, hx, hnone x ?_⟩)))
          refine (applied_exists o3.applied x).1 ((applied_exists o4.applied x).1 ?_)
          obtain ⟨ρ, _, h7⟩ := o5.redirected
          have := h7 x
          rw [hx'] at this
          cases hg : g4.get? x with
          | none => rfl
          | some n => rw [hg] at this; exact absurd this id
        · rw [h6] at hs
          exact absurd hs (by simp)

/-- The ways in which a commit can panic. -/
theorem commit_error (hw : Spec.WellNamed S) {dbg : Bool} {g : Graph} {t : Trans} (hst : Spec.SteadyBidir S t g.get?) {e : Panic} (h : g.Inv S e0) (ht : t.Good S)
    (hd : g.nodes.Disjoint t.inc) (hz : t.NoFromEmpty) (hs : commit S dbg g t = .error e) :
    (e = .ctxMismatch ∧ dbg = true ∧ t.ctxId ≠ g.ctxId) ∨ (e = .unfilledAlloc ∧ dbg = true ∧ t.allocs.isEmpty = false) ∨
    perform S g t = .error e ∨
    ∃ g6 r6, perform S g t = .ok (g6, r6) ∧ PerformOut S e0 t g g6 r6 ∧
      ((e = .multiChoice ∧ Unanswered S g.get? g6.get? ∧ Spec.Undecided S g.get? g6.get?) ∨
       (e = .addOnExisting ∧ Spec.Conflict S g.get? g6.get?) ∨
       (e = .removeOnVec ∧ Spec.VecLeft S g.get? g6.get?) ∨
       (e = .addOnVec ∧ Spec.VecMissing S g.get? g6.get?) ∨
       (e = .linkType ∧ ∃ x m y n, g6.get? y = some n ∧ View.Link g6.get? x m y ∧ (Spec.Steady S t g.get? x m y → ¬ View.Link g.get? x m y) ∧
          S.checkLinkType n.disc m = false)) := by
  by_cases c1 : dbg = true ∧ t.ctxId ≠ g.ctxId
  · left
    rw [commit, doCommit_eq, if_pos (by simp [c1.1, c1.2])] at hs
    exact ⟨by simpa using hs.symm, c1⟩
  by_cases c2 : dbg = true ∧ t.allocs.isEmpty = false
  · right; left
    rw [commit, doCommit_eq, if_neg (by simpa using c1), if_pos (by simp [c2.1, c2.2])] at hs
    exact ⟨by simpa using hs.symm, c2⟩
  right; right
  have hc1 : dbg = true → t.ctxId = g.ctxId := fun hb => by by_contra hne; exact c1 ⟨hb, hne⟩
  have hc2 : dbg = true → t.allocs.isEmpty = true := fun hb => by
    cases ha : t.allocs.isEmpty with
    | true => rfl
    | false => exact absurd ⟨hb, ha⟩ c2
  cases hp : perform S g t with
  | error e' =>
    left
    rw [commit, doCommit_eq, if_neg (by simpa using c1), if_neg (by simpa using c2), hp] at hs
    simpa using hs
  | ok st =>
    right
    obtain ⟨g6, r6⟩ := st
    have out := perform_out hw.variants h ht hd hz hp
    refine ⟨g6, r6, rfl, out, ?_⟩
    rcases commit_after hw dbg hst hc1 hc2 hp out with ⟨h1, h2⟩ | ⟨_, ⟨g', h1, _⟩ | ⟨h1, h2, h3⟩ | ⟨h1, h2⟩ | ⟨h1, h2⟩ | ⟨h1, h2⟩⟩
    · rw [h1] at hs; exact Or.inr (Or.inr (Or.inl ⟨by simpa using hs.symm, h2⟩))
    · rw [h1] at hs; exact absurd hs (by simp)
    · rw [h1] at hs; exact Or.inl ⟨by simpa using hs.symm, h2, h3⟩
    · rw [h1] at hs; exact Or.inr (Or.inl ⟨by simpa using hs.symm, h2⟩)
    · rw [h1] at hs; exact Or.inr (Or.inr (Or.inr (Or.inr ⟨by simpa using hs.symm, h2⟩)))
    · rw [h1] at hs; exact Or.inr (Or.inr (Or.inr (Or.inl ⟨by simpa using hs.symm, h2⟩)))

/-- The same for all declarations, with less about the reasons. -/
theorem commit_panics (hw : Spec.WellNamed S) {dbg : Bool} {g : Graph} {t : Trans} {e : Panic} (h : g.Inv S e0) (ht : t.Good S)
    (hd : g.nodes.Disjoint t.inc) (hz : t.NoFromEmpty) (hs : commit S dbg g t = .error e) :
    (e = .ctxMismatch ∧ t.ctxId ≠ g.ctxId) ∨ e = .unfilledAlloc ∨ perform S g t = .error e ∨ e = .multiChoice ∨ e = .addOnExisting ∨
      ((e = .addOnVec ∨ e = .removeOnVec) ∧ ¬ S.NoVecBd) ∨ e = .linkType := by
  simp only [commit] at hs
  rw [doCommit_eq] at hs
  by_cases h1 : (dbg && decide (t.ctxId ≠ g.ctxId)) = true
  · rw [if_pos h1] at hs; exact Or.inl ⟨by simpa using hs.symm, by simp only [Bool.and_eq_true, decide_eq_true_eq] at h1; exact h1.2⟩
  rw [if_neg h1] at hs
  by_cases h2 : (dbg && !t.allocs.isEmpty) = true
  · rw [if_pos h2] at hs; exact Or.inr (Or.inl (by simpa using hs.symm))
  rw [if_neg h2] at hs
  right; right
  cases hp : perform S g t with
  | error e' => rw [hp] at hs; exact Or.inl (by simpa using hs)
  | ok st =>
    right
    obtain ⟨g6, r6⟩ := st
    have out := perform_out hw.variants h ht hd hz hp
    rw [hp] at hs
    simp only at hs
    rcases applyBidirectional_kept out.inv r6 with ⟨g', h3, _⟩ | ⟨e', h3, h4⟩
    · rw [h3] at hs
      simp only at hs
      cases hlt : checkLinkType S g' r6 with
      | error e' =>
        rw [hlt] at hs
        obtain ⟨rfl, _⟩ := checkLinkType_err hlt
        exact Or.inr (Or.inr (Or.inr (by simpa using hs.symm)))
      | ok u => rw [hlt] at hs; exact absurd hs (by simp)
    · rw [h3] at hs
      obtain rfl : e' = e := by simpa using hs
      rcases h4 with h4 | h4 | h4
      · exact Or.inl h4
      · exact Or.inr (Or.inl h4)
      · exact Or.inr (Or.inr (Or.inl h4))

end Graph
end TTGraph
