import Verif.Model.Unwind

/-!
# Lemmas about `stopped`
-/

set_option autoImplicit false

namespace TTGraph
namespace Graph

theorem stopped_ok {σ α : Type} {f : σ → α → Except Panic σ} {s s' : σ} {l : List α} (h : foldE f s l = .ok s') : stopped f s l = s' := by
  induction l generalizing s with
  | nil => simpa [foldE, stopped] using h
  | cons a l ih =>
    simp only [foldE] at h
    simp only [stopped]
    cases hf : f s a with
    | error e => simp [hf] at h
    | ok s1 => simp only [hf] at h ⊢; exact ih h

end Graph
end TTGraph
