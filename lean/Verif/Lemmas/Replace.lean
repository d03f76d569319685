import Verif.Lemmas.Frame
import Verif.Lemmas.Unique
import Verif.Spec.Replace

set_option autoImplicit false

namespace TTGraph
open Spec
variable [SetImpl]

omit [SetImpl] in
theorem RedirectMap.one {a b : NodeIndex} (hab : b ≠ a) {ρ : NodeIndex → NodeIndex} (h : RedirectMap [(a, b)] ρ) (u : NodeIndex) :
    ρ u = if u = a then b else u := by
  by_cases hu : u = a
  · subst hu
    rw [if_pos rfl]
    obtain ⟨h1, _⟩ := h.first [] u b [] rfl (by simp)
    cases h1 with
    | here => rfl
    | step h2 _ =>
      simp only [List.mem_singleton, Prod.mk.injEq] at h2
      exact absurd h2.1 hab
  · rw [if_neg hu]
    exact h.other u (fun n hn => hu (by simpa using congrArg Prod.fst (List.mem_singleton.1 hn)))

omit [SetImpl] in
theorem performed_replaced {t : Trans} {v v0 v6 : View} {a b : NodeIndex} (hp : Performed t v v6) (hr : Replacing t.pending a b)
    (hab : b ≠ a) (hb : b ≠ emptyIdx) (h0 : Inserted t.pending.new v v0) :
    Replaced a b v0 v6 := by
  obtain ⟨v1, v2, v3, v4, v5, ⟨ρ, a1, a1'⟩, a2, a3, a4, ⟨ρ', a5, a5'⟩, a6⟩ := hp
  have e1 : t.redir = [] := hr.redir
  have e3 : t.muts = [] := hr.muts
  have e4 : t.upds = [] := hr.upds
  have e5 : t.redirAll = [(a, b)] := hr.redirAll
  have e6 : ∀ i, i ∈ t.dec.elems ↔ i = a := hr.removed
  rw [e1] at a1
  rw [e3] at a3
  rw [e4] at a4
  rw [e5] at a5
  have hρ : ρ = id := funext fun u => a1.other u (by simp)
  rw [hρ] at a1'
  have f3 : v3 = v2 := by cases a3 with | nil h => exact funext h
  have f4 : v4 = v3 := by cases a4 with | nil h => exact funext h
  subst f4
  subst f3
  have s02 : View.Same v0 v4 := by
    intro x
    cases hn : t.inc.get? x with
    | none =>
      have := a1' x
      rw [a2.1 x hn, h0.1 x hn]
      exact this
    | some n =>
      rw [(a2.2 x n hn).2, (h0.2 x n hn).2]
      exact Node.Same.refl n
  obtain ⟨p1, p2⟩ := View.same_iff.1 s02
  have r5 := View.Renamed.renH a5'
  have h5 : ∀ x s y, v5.Holds x s y ↔ (y ≠ a ∧ v0.Holds x s y) ∨ (y = b ∧ v0.Holds x s a) := by
    intro x s y
    rw [r5.holds x s y]
    constructor
    · rintro ⟨u, hu, hy, _⟩
      rw [RedirectMap.one hab a5] at hy
      rw [p2] at hu
      by_cases hua : u = a
      · rw [if_pos hua] at hy
        exact Or.inr ⟨hy.symm, hua ▸ hu⟩
      · rw [if_neg hua] at hy
        exact Or.inl ⟨hy ▸ hua, hy ▸ hu⟩
    · rintro (⟨hya, hu⟩ | ⟨rfl, hu⟩)
      · refine ⟨y, (p2 _ _ _).2 hu, ?_, ?_⟩
        · rw [RedirectMap.one hab a5, if_neg hya]
        · by_cases he : y = emptyIdx
          · exact Or.inr he
          · exact Or.inl he
      · exact ⟨a, (p2 _ _ _).2 hu, by rw [RedirectMap.one hab a5, if_pos rfl], Or.inl hb⟩
  have ga : v6 a = none := (a6.1 a ((e6 a).2 rfl)).2
  have gx : ∀ x, x ≠ a → (v6 x).map Node.shape = (v5 x).map Node.shape ∧ ∀ s y, v6.Holds x s y ↔ v5.Holds x s y := by
    intro x hx
    have h6 := a6.2 x (fun hm => hx ((e6 x).1 hm))
    cases hv5 : v5 x with
    | none =>
      cases hv6 : v6 x with
      | none => exact ⟨rfl, fun s y => by simp [View.Holds, hv5, hv6]⟩
      | some n6 => rw [hv5, hv6] at h6; exact absurd h6 id
    | some n5 =>
      cases hv6 : v6 x with
      | none => rw [hv5, hv6] at h6; exact absurd h6 id
      | some n6 =>
        rw [hv5, hv6] at h6
        have h6' : Node.Renamed (fun u => if u ∈ t.dec.elems then emptyIdx else u) n5 n6 := h6
        have no : ∀ s, ¬ n5.Holds s a := by
          intro s hs
          rcases (h5 x s a).1 ⟨n5, hv5, hs⟩ with ⟨h, _⟩ | ⟨h, _⟩
          · exact h rfl
          · exact hab h.symm
        have hsame := Node.same_iff.1 (h6'.same (fun s y hy => if_neg (fun hm => no s ((e6 y).1 hm ▸ hy))))
        refine ⟨congrArg some hsame.1, fun s y => ?_⟩
        simp only [View.Holds, hv5, hv6, Option.some.injEq, exists_eq_left']
        exact hsame.2 s y
  refine ⟨ga, fun x hx => ?_⟩
  · refine ⟨?_, fun s y => ((gx x hx).2 s y).trans (h5 x s y)⟩
    rw [(gx x hx).1, r5.shape x, p1 x]

end TTGraph
