import Verif.Lemmas.Arena
import Verif.Spec.Iter

/-!
# The generated iterator yields the entries of all containers
-/

set_option autoImplicit false

namespace TTGraph
open Spec
namespace Iter

/-- The variants still to visit are `suf`; the containers of the others are used up. -/
structure At (S : Schema) (it : Iter) (suf : List Ident) : Prop where
  split : ∃ pre, S.discs = pre ++ suf ∧ ∀ d ∈ pre, it.rest d = []
  state : it.state = suf.head?

/-- What is left. -/
def left (it : Iter) (suf : List Ident) : List (NodeIndex × Node) := suf.flatMap it.rest

theorem nextDisc_eq {pre : List Ident} {d : Ident} {r : List Ident} (h : d ∉ pre) : nextDisc (pre ++ d :: r) d = r.head? := by
  induction pre with
  | nil => simp [nextDisc]
  | cons a pre ih =>
    simp only [List.mem_cons, not_or] at h
    simp only [List.cons_append, nextDisc, if_neg (Ne.symm h.1)]
    exact ih h.2

theorem next_spec {S : Schema} (hS : S.discs.Nodup) : ∀ {suf : List Ident} {it : Iter} {fuel : Nat}, it.At S suf → suf.length < fuel →
    (it.left suf = [] ∧ ∃ it', next S fuel it = (none, it') ∧ it'.state = none) ∨
    ∃ e r it' suf', it.left suf = e :: r ∧ next S fuel it = (some e, it') ∧ it'.At S suf' ∧ it'.left suf' = r ∧ suf'.length ≤ suf.length := by
  intro suf
  induction suf with
  | nil =>
    intro it fuel h hf
    cases fuel with
    | zero => exact absurd hf (Nat.not_lt_zero _)
    | succ fuel =>
      refine Or.inl ⟨rfl, it, ?_, h.state⟩
      simp only [next, h.state, List.head?_nil]
  | cons d suf ih =>
    intro it fuel h hf
    cases fuel with
    | zero => exact absurd hf (Nat.not_lt_zero _)
    | succ fuel =>
      have hst : it.state = some d := h.state
      obtain ⟨pre, h1, h2⟩ := h.split
      rw [h1, List.nodup_append] at hS
      have hd : d ∉ pre := fun hm => hS.2.2 d hm d (List.mem_cons_self ..) rfl
      have hd' : d ∉ suf := (List.nodup_cons.1 hS.2.1).1
      cases hr : it.rest d with
      | nil =>
        have h' : At S { it with state := nextDisc S.discs d } suf := by
          refine ⟨⟨pre ++ [d], by rw [h1]; simp, ?_⟩, by rw [h1]; exact nextDisc_eq hd⟩
          intro d' hm
          simp only [List.mem_append, List.mem_singleton] at hm
          rcases hm with hm | rfl
          · exact h2 d' hm
          · exact hr
        have hleft : it.left (d :: suf) = left { it with state := nextDisc S.discs d } suf := by simp [left, hr]
        have hnext : next S (fuel + 1) it = next S fuel { it with state := nextDisc S.discs d } := by
          simp only [next, hst, hr]
        rw [hleft, hnext]
        rcases ih h' (Nat.lt_of_succ_lt_succ hf) with a | ⟨e, r, it', suf', a1, a2, a3, a4, a5⟩
        · exact Or.inl a
        · exact Or.inr ⟨e, r, it', suf', a1, a2, a3, a4, Nat.le_succ_of_le a5⟩
      | cons e r =>
        refine Or.inr ⟨e, r ++ suf.flatMap it.rest, { it with rest := fun d' => if d' = d then r else it.rest d' }, d :: suf, ?_, ?_, ?_, ?_,
          Nat.le_refl _⟩
        · simp [left, hr]
        · simp only [next, hst, hr]
        · refine ⟨⟨pre, h1, ?_⟩, hst⟩
          intro d' hm
          have : d' ≠ d := fun e => hd (e ▸ hm)
          simp only [if_neg this]
          exact h2 d' hm
        · simp only [left, List.flatMap_cons, if_true, List.append_cancel_left_eq]
          rw [List.flatMap_def, List.flatMap_def]
          congr 1
          refine List.map_congr_left fun d' hm => ?_
          rw [if_neg]
          rintro rfl
          exact hd' hm

theorem next_fuel {S : Schema} (hS : S.discs.Nodup) : ∀ {suf : List Ident} {it : Iter} {fuel : Nat}, it.At S suf → suf.length < fuel →
    next S fuel it = next S (suf.length + 1) it := by
  intro suf
  induction suf with
  | nil =>
    intro it fuel h hf
    cases fuel with
    | zero => exact absurd hf (Nat.not_lt_zero _)
    | succ fuel => simp only [next, h.state, List.head?_nil]
  | cons d suf ih =>
    intro it fuel h hf
    cases fuel with
    | zero => exact absurd hf (Nat.not_lt_zero _)
    | succ fuel =>
      have hst : it.state = some d := h.state
      obtain ⟨pre, h1, h2⟩ := h.split
      rw [h1, List.nodup_append] at hS
      have hd : d ∉ pre := fun hm => hS.2.2 d hm d (List.mem_cons_self ..) rfl
      cases hr : it.rest d with
      | cons e r =>
        simp only [next, hst, hr]
      | nil =>
        have h' : At S { it with state := nextDisc S.discs d } suf := by
          refine ⟨⟨pre ++ [d], by rw [h1]; simp, ?_⟩, by rw [h1]; exact nextDisc_eq hd⟩
          intro d' hm
          simp only [List.mem_append, List.mem_singleton] at hm
          rcases hm with hm | rfl
          · exact h2 d' hm
          · exact hr
        have hnext : ∀ k, next S (k + 1) it = next S k { it with state := nextDisc S.discs d } := by
          intro k
          simp only [next, hst, hr]
        rw [hnext, List.length_cons, hnext]
        exact ih h' (Nat.lt_of_succ_lt_succ hf)

theorem sizeHint_eq {S : Schema} {it : Iter} {suf : List Ident} (h : it.At S suf) : it.sizeHint S = (it.left suf).length := by
  obtain ⟨pre, h1, h2⟩ := h.split
  have h0 : (pre.map fun d => (it.rest d).length).sum = 0 := by
    clear h1
    induction pre with
    | nil => rfl
    | cons d pre ih =>
      rw [List.map_cons, List.sum_cons, h2 d (List.mem_cons_self ..), ih fun d hd => h2 d (List.mem_cons_of_mem _ hd)]
      rfl
  simp only [sizeHint, left, h1, List.map_append, List.sum_append, List.length_flatMap, h0, Nat.zero_add]

theorem start_at (S : Schema) (a : Arena) : (start S a).At S S.discs := ⟨⟨[], rfl, by simp⟩, rfl⟩

theorem start_left (S : Schema) (a : Arena) : (start S a).left S.discs = a.entries S := rfl

theorem At.le {S : Schema} {it : Iter} {suf : List Ident} (h : it.At S suf) : suf.length < S.discs.length + 1 := by
  obtain ⟨pre, h1, _⟩ := h.split
  rw [h1, List.length_append]
  exact Nat.lt_succ_of_le (Nat.le_add_left _ _)

theorem call_none {S : Schema} {it : Iter} (h : it.state = none) : call S it = (none, it) := by
  simp only [call, next, h]

/-- Walking as far as possible. -/
theorem walk_all {S : Schema} (hS : S.discs.Nodup) : ∀ (l : List (NodeIndex × Node)) {it : Iter} {suf : List Ident}, it.At S suf →
    it.left suf = l → ∃ it', Walk S it l it' ∧ Exhausted S it' := by
  intro l
  induction l with
  | nil =>
    intro it suf h hl
    rcases next_spec hS h h.le with ⟨_, it', h1, h2⟩ | ⟨e, r, it', suf', h1, _⟩
    · exact ⟨it, .start it, it', h1, call_none h2⟩
    · rw [h1] at hl
      exact absurd hl (by simp)
  | cons e l ih =>
    intro it suf h hl
    rcases next_spec hS h h.le with ⟨h1, _⟩ | ⟨e', r, it', suf', h1, h2, h3, h4, h5⟩
    · rw [h1] at hl
      exact absurd hl (by simp)
    · rw [h1, List.cons.injEq] at hl
      obtain ⟨it2, hw, he⟩ := ih h3 (h4.trans hl.2)
      exact ⟨it2, .step (h2.trans (by rw [hl.1])) hw, he⟩

/-- Every walk yields a beginning of what is left, and the size hint at its end is exact. -/
theorem walk_some {S : Schema} (hS : S.discs.Nodup) {it it' : Iter} {l : List (NodeIndex × Node)} (hw : Walk S it l it') :
    ∀ {suf : List Ident}, it.At S suf → ∃ suf', it'.At S suf' ∧ it.left suf = l ++ it'.left suf' := by
  induction hw with
  | start it => exact fun h => ⟨_, h, rfl⟩
  | step hc _ ih =>
    intro suf h
    rcases next_spec hS h h.le with ⟨_, it2, h1, _⟩ | ⟨e', r, it2, suf', h1, h2, h3, h4, h5⟩
    · rw [call, h1] at hc
      exact absurd (congrArg Prod.fst hc) (by simp)
    · rw [call, h2, Prod.mk.injEq] at hc
      obtain ⟨h6, h7⟩ := hc
      subst h7
      obtain ⟨suf2, h8, h9⟩ := ih h3
      refine ⟨suf2, h8, ?_⟩
      rw [h1, List.cons_append, ← h9, h4]
      simp only [Option.some.injEq] at h6
      rw [h6]

end Iter
end TTGraph
