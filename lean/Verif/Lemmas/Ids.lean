import Verif.Model.Ids
import Mathlib.Data.List.Nodup
import Mathlib.Data.List.Perm.Basic

/-!
# Executions of threads that allocate ids
-/

set_option autoImplicit false

namespace TTGraph
namespace Threads

/-- The id that a call gets: `c + 1` for a call that is still inside. -/
def ids (s : State) : List Word := (s.inside.map fun p => plusOne p.2) ++ s.out.map Prod.snd

theorem toNat_plusOne {c : Word} (h : c.toNat + 1 < 2 ^ 64) : (plusOne c).toNat = c.toNat + 1 := by
  unfold plusOne
  rw [BitVec.toNat_add]
  have h1 : BitVec.toNat (1 : Word) = 1 := by decide
  rw [h1, Nat.mod_eq_of_lt h]

theorem exec_inv {cnt : Word} {n : Nat} {s : State} (h : Exec cnt n s) (hn : cnt.toNat + n < 2 ^ 64) :
    s.cnt.toNat = cnt.toNat + n ∧ (ids s).Nodup ∧ ∀ i ∈ ids s, cnt.toNat < i.toNat ∧ i.toNat ≤ cnt.toNat + n := by
  induction h with
  | start => simp [start, ids]
  | @fetch n s t he ih =>
    obtain ⟨h1, h2, h3⟩ := ih (by omega)
    have h4 : (plusOne s.cnt).toNat = cnt.toNat + n + 1 := by rw [toNat_plusOne (by omega), h1]
    refine ⟨?_, ?_, ?_⟩
    · show (plusOne s.cnt).toNat = _
      rw [h4]; omega
    · show (plusOne s.cnt :: ids s).Nodup
      refine List.nodup_cons.2 ⟨fun hm => ?_, h2⟩
      have := (h3 _ hm).2
      omega
    · intro i hi
      have hi' : i = plusOne s.cnt ∨ i ∈ ids s := by simpa [ids, fetchAdd] using hi
      rcases hi' with rfl | hi'
      · omega
      · have := h3 i hi'
        omega
  | @ret n s t c l r he hs ih =>
    obtain ⟨h1, h2, h3⟩ := ih hn
    have hp : (ids ⟨s.cnt, l ++ r, s.out ++ [(t, plusOne c)]⟩).Perm (ids s) := by
      simp only [ids, hs, List.map_append, List.map_cons, List.map_nil, List.append_assoc]
      refine List.Perm.append_left _ ?_
      rw [← List.append_assoc]
      exact (List.perm_append_singleton _ _)
    exact ⟨h1, hp.nodup_iff.2 h2, fun i hi => h3 i (hp.mem_iff.1 hi)⟩

end Threads
end TTGraph
