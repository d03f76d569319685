import Verif.Spec.Reasons
import Verif.Lemmas.Errors
import Verif.Lemmas.Wreck
import Verif.Lemmas.Types

/-!
# Why a commit panics
-/

set_option autoImplicit false

namespace TTGraph
namespace Graph
open Spec

section
variable {S : Schema} {e0 : Prop}

/-- Where and why the loop over closures stops. -/
theorem applyClosures_stop (k : Loop2) (l : List (NodeIndex × Closure)) (hl : ∀ p ∈ l, Closure.Typed S p.2) :
    ∀ {g : Graph} {r : Lcr} {e : Panic}, g.Inv S e0 → applyClosures (stepOf k) (g, r) l = .error e →
      ∃ pre p post v3, l = pre ++ p :: post ∧ Applied pre g.get? v3 ∧
        ((e = .nodeMissing ∧ v3 p.1 = none) ∨ (∃ n, v3 p.1 = some n ∧ p.2 n = .error e) ∨
          (e = .backMissing ∧ ∃ n n' s y, v3 p.1 = some n ∧ p.2 n = .ok n' ∧ n'.Holds s y ∧ v3 y = none)) := by
  induction l with
  | nil =>
    intro g r e _ hs
    simp only [applyClosures, foldE] at hs
    exact absurd hs (by simp)
  | cons p l ih =>
    intro g r e h hs
    simp only [applyClosures, foldE] at hs
    cases hp : stepOf k g p.1 p.2 r with
    | error e' =>
      rw [hp] at hs
      obtain rfl : e' = e := by simpa using hs
      refine ⟨[], p, l, g.get?, rfl, .nil fun _ => rfl, ?_⟩
      rcases step_error (stepOf_isStep k) h (hl p List.mem_cons_self) hp with h1 | h1 | ⟨h1, n, n', s, y, h2, h3, h4, h5⟩
      · exact Or.inl h1
      · exact Or.inr (Or.inl h1)
      · refine Or.inr (Or.inr ⟨h1, n, n', s, y, h2, h3, h4, ?_⟩)
        by_contra hc
        exact h5 (h.known_of (Or.inl hc))
    | ok st1 =>
      rw [hp] at hs
      obtain ⟨g1, r1⟩ := st1
      obtain ⟨n, n', h1, h2, h3⟩ := step_inv (stepOf_isStep k) h hp
      obtain ⟨g1', r1', h4, h5, h6, _⟩ := step_ok (r := r) (stepOf_isStep k) h h1 h2 (hl p List.mem_cons_self n n' (h.wt _ _ h1) h2) h3 (fun _ => True)
      rw [hp] at h4
      obtain ⟨rfl, rfl⟩ : g1 = g1' ∧ r1 = r1' := by simpa using h4
      obtain ⟨pre, q, post, v3, k1, k2, k3⟩ := ih (fun q hq => hl q (List.mem_cons_of_mem _ hq)) h6 hs
      exact ⟨p :: pre, q, post, v3, by rw [k1]; rfl, .cons h1 h2 h5 k2, k3⟩

end

variable [SetImpl] {S : Schema} {e0 : Prop}

/-- Why the operations of a transaction panic. -/
theorem perform_reason (hS : S.discs.Nodup) {dbg : Bool} {g : Graph} {t : Trans} {e : Panic} (h : g.Inv S e0) (ht : t.Good S) (hd : g.nodes.Disjoint t.inc)
    (hz : t.NoFromEmpty) (hs : perform S g t = .error e) : Reason S dbg t g.get? e := by
  simp only [perform] at hs
  rcases redirect_cases (S := S) h Lcr.new (reps := t.redir) (fun ⟨n, hn⟩ => absurd (List.mem_append_left _ hn) (hz n)) (View.L g.get?) with
    ⟨hl, h1⟩ | ⟨⟨p, hp, hk⟩, h1⟩ | ⟨_, g1, r1, h1, o1⟩
  · rw [h1] at hs
    obtain rfl : Panic.redirectLoop = e := by simpa using hs
    exact .loop (Or.inl hl)
  · rw [h1] at hs
    obtain rfl : Panic.backMissing = e := by simpa using hs
    refine .redirected (old := p.1) (new := p.2) hp ?_
    by_contra hc
    exact hk (h.known_of (Or.inl hc))
  rw [h1] at hs
  simp only at hs
  have hd1 : g1.nodes.Disjoint t.inc := by intro i hi; rw [o1.disp]; exact hd i hi
  obtain ⟨m1, m2, _⟩ := mergeNodes_spec (r := r1) (L0 := View.L g.get?) hS o1.inv ht.inv hd1 ht.noEmpty ht.wt
  have hdis : ∀ x, t.inc.get? x ≠ none → g1.get? x = none := by
    intro x hx
    obtain ⟨n, hn⟩ := Option.ne_none_iff_exists'.1 hx
    obtain ⟨d, hdd, _⟩ := Arena.get?_eq_some.1 hn
    exact Arena.get?_of_disp_none (hd1 x (by simp [hdd]))
  have hins : Inserted t.pending.new g1.get? (mergeNodes S g1 t.inc r1).1.get? := inserted_of_merge hdis m1
  have hnone : ∀ x, (mergeNodes S g1 t.inc r1).1.get? x = none → Absent g.get? t x := by
    intro x hx
    rw [m1] at hx
    obtain ⟨h2, h3⟩ : t.inc.get? x = none ∧ g1.get? x = none := by
      cases hi : t.inc.get? x with
      | none => rw [hi] at hx; exact ⟨rfl, by simpa using hx⟩
      | some n => rw [hi] at hx; exact absurd hx (by simp)
    obtain ⟨ρ, _, h4⟩ := o1.redirected
    refine ⟨?_, h2⟩
    have := h4 x
    rw [h3] at this
    cases hg : g.get? x with
    | none => rfl
    | some n => rw [hg] at this; exact absurd this id
  cases h3 : applyClosures modifyNode (mergeNodes S g1 t.inc r1) t.muts with
  | error e' =>
    rw [h3] at hs
    obtain rfl : e' = e := by simpa using hs
    obtain ⟨pre, ⟨i, f⟩, post, v3, k1, k2, k3⟩ := applyClosures_stop .mutating t.muts (fun p hp => ht.closures p (by simp [hp])) m2 h3
    have hb : Before t.pending g.get? v3 i f .mutating := ⟨_, _, pre, post, o1.redirected, hins, k1, k2⟩
    have hv : ∀ y, v3 y = none → Absent g.get? t y := fun y hy => hnone y ((applied_exists k2 y).1 hy)
    rcases k3 with ⟨rfl, k3⟩ | ⟨n, k3, k4⟩ | ⟨rfl, n, n', s, y, k3, k4, k5, k6⟩
    · exact .missing (i := i) (f := f) (List.mem_append_left _ (by show (i, f) ∈ t.muts; rw [k1]; simp)) (hv i k3)
    · exact .closure hb k3 k4
    · exact .link hb k3 k4 k5 (hv y k6)
  | ok st3 =>
    rw [h3] at hs
    simp only at hs
    have o3 := applyClosures_out (L0 := View.L g.get?) (Or.inl rfl) t.muts (fun p hp => ht.closures p (by simp [hp])) m2 h3
    cases h4 : applyClosures updateNode st3 t.upds with
    | error e' =>
      rw [h4] at hs
      obtain rfl : e' = e := by simpa using hs
      obtain ⟨pre, ⟨i, f⟩, post, v3, k1, k2, k3⟩ := applyClosures_stop .updating t.upds (fun p hp => ht.closures p (by simp [hp])) o3.inv h4
      have hb : Before t.pending g.get? v3 i f .updating := ⟨_, _, _, pre, post, o1.redirected, hins, o3.applied, k1, k2⟩
      have hv : ∀ y, v3 y = none → Absent g.get? t y := fun y hy => hnone y ((applied_exists o3.applied y).1 ((applied_exists k2 y).1 hy))
      rcases k3 with ⟨rfl, k3⟩ | ⟨n, k3, k4⟩ | ⟨rfl, n, n', s, y, k3, k4, k5, k6⟩
      · exact .missing (i := i) (f := f) (List.mem_append_right _ (by show (i, f) ∈ t.upds; rw [k1]; simp)) (hv i k3)
      · exact .closure hb k3 k4
      · exact .link hb k3 k4 k5 (hv y k6)
    | ok st4 =>
      rw [h4] at hs
      obtain ⟨g4, r4⟩ := st4
      simp only at hs
      have o4 := applyClosures_out (L0 := View.L g.get?) (Or.inr rfl) t.upds (fun p hp => ht.closures p (by simp [hp])) o3.inv h4
      have hv : ∀ y, g4.get? y = none → Absent g.get? t y := fun y hy =>
        hnone y ((applied_exists o3.applied y).1 ((applied_exists o4.applied y).1 hy))
      rcases redirect_cases (S := S) o4.inv r4 (reps := t.redirAll) (fun ⟨n, hn⟩ => absurd (List.mem_append_right _ hn) (hz n)) (View.L g.get?) with
        ⟨hl, h5⟩ | ⟨⟨p, hp, hk⟩, h5⟩ | ⟨_, g5, r5, h5, o5⟩
      · rw [h5] at hs
        obtain rfl : Panic.redirectLoop = e := by simpa using hs
        exact .loop (Or.inr hl)
      · rw [h5] at hs
        obtain rfl : Panic.backMissing = e := by simpa using hs
        refine .redirectedAll (old := p.1) (new := p.2) hp (hv _ ?_)
        by_contra hc
        exact hk (o4.inv.known_of (Or.inl hc))
      · rw [h5] at hs
        simp only at hs
        rcases removeAll_cases (S := S) (r := r5) t.dec.elems t.dec.nodup (View.L g.get?) o5.inv with ⟨⟨x, hx, hx'⟩, h6⟩ | ⟨hall, g6, r6, h6, o6⟩
        · rw [h6] at hs
          obtain rfl : Panic.removeMissing = e := by simpa using hs
          refine .removed (i := x) hx (hv x ?_)
          obtain ⟨ρ, _, h7⟩ := o5.redirected
          have := h7 x
          rw [hx'] at this
          cases hg : g4.get? x with
          | none => rfl
          | some n => rw [hg] at this; exact absurd this id
        · rw [h6] at hs
          exact absurd hs (by simp)

/-- Why a commit panics. -/
theorem commit_reason (hw : Spec.WellNamed S) {dbg : Bool} {g : Graph} {t : Trans} (hst : Spec.SteadyBidir S t g.get?) {e : Panic} (h : g.Inv S e0)
    (ht : t.Good S) (hd : g.nodes.Disjoint t.inc) (hz : t.NoFromEmpty) (hctx : t.ctxId = g.ctxId) (hs : commit S dbg g t = .error e) :
    Reason S dbg t g.get? e := by
  rcases commit_error hw hst h ht hd hz hs with ⟨_, _, hc⟩ | ⟨rfl, hb, ha⟩ | hp | ⟨g6, r6, hp, out, ⟨rfl, _, a⟩ | ⟨rfl, a⟩ | ⟨rfl, a⟩ | ⟨rfl, a⟩ |
    ⟨rfl, x, m, y, n, a1, a2, a3, a4⟩⟩
  · exact absurd hctx hc
  · obtain ⟨i, hi⟩ : ∃ i, i ∈ t.allocs.elems := by
      cases hel : t.allocs.elems with
      | nil => simp [OrderSet.isEmpty, hel] at ha
      | cons i l => exact ⟨i, by simp⟩
    exact .unfilled (i := i) hb hi
  · exact perform_reason hw.variants h ht hd hz hp
  · exact .undecided out.performed a
  · exact .conflict out.performed a
  · exact .vecLeft out.performed a
  · exact .vecMissing out.performed a
  · exact .linkType out.performed a1 a2 a3 (fun hc => by rw [(Schema.checkLinkType_iff hw).2 hc] at a4; exact absurd a4 (by simp))

end Graph
end TTGraph
