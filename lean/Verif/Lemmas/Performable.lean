import Verif.Lemmas.Errors
import Verif.Lemmas.Meets
import Verif.Lemmas.Pending
import Verif.Spec.Valid

/-!
# The operations of a valid transaction succeed
-/

set_option autoImplicit false

namespace TTGraph
open Spec
variable [SetImpl] {S : Schema} {dbg : Bool} {R : World → Call → Prop}

theorem Spec.Valid.perform (hw : WellNamed S) {g : Graph} {t : Trans} (h : Meets S dbg R g t) (hvalid : Valid S g.get? t.pending) :
    ∃ g6 r6, Graph.perform S g t = .ok (g6, r6) ∧ Graph.PerformOut S False t g g6 r6 := by
  have hinv := h.inv hw
  have hr := h.ready hw
  obtain ⟨hdis, hctx, _⟩ := h.disjoint hw
  have hment : ∀ y, Mentioned g.get? t.pending y ↔ t.Mentions g y := by
    intro y
    simp only [Mentioned, Trans.Mentions, Trans.pending, or_assoc]
    constructor
    · rintro (a | a | a | a | ⟨o, a⟩)
      · exact Or.inl a
      · exact Or.inr (Or.inl a)
      · exact Or.inr (Or.inr (Or.inl a))
      · exact Or.inr (Or.inr (Or.inr (Or.inl a)))
      · exact Or.inr (Or.inr (Or.inr (Or.inr ⟨_, a, rfl⟩)))
    · rintro (a | a | a | a | ⟨⟨o, n⟩, a, rfl⟩)
      · exact Or.inl a
      · exact Or.inr (Or.inl a)
      · exact Or.inr (Or.inr (Or.inl a))
      · exact Or.inr (Or.inr (Or.inr (Or.inl a)))
      · exact Or.inr (Or.inr (Or.inr (Or.inr ⟨o, a⟩)))
  have hperf : Graph.Performable S t g := by
    refine ⟨fun p hp => hvalid.redir p.1 p.2 hp, hvalid.noLoop, fun p hp => ⟨hvalid.muts p.1 p.2 hp, ?_⟩,
      fun p hp => (hment _).1 (hvalid.redirAll p.1 p.2 hp), hvalid.noLoopAll, fun x hx => hvalid.removed x hx⟩
    have e : Mentioned g.get? t.pending = t.Mentions g := funext fun y => propext (hment y)
    have := hvalid.closures p.1 p.2 hp
    rw [e] at this
    exact this
  obtain ⟨g6, r6, hp⟩ := Graph.perform_total hw.variants hinv hr.good hdis hr.noFrom hperf
  exact ⟨g6, r6, hp, Graph.perform_out hw.variants hinv hr.good hdis hr.noFrom hp⟩

omit [SetImpl] in
theorem Trans.allocs_empty {t : Trans} (hfill : dbg = true → ∀ i, ¬ t.pending.unfilled i) : dbg = true → t.allocs.isEmpty = true := by
  intro hd
  by_contra hne
  cases hl : t.allocs.elems with
  | nil => exact hne (by simp [OrderSet.isEmpty, hl])
  | cons a l => exact hfill hd a (show a ∈ t.allocs.elems by rw [hl]; exact List.mem_cons_self)

/-- Once the operations have succeeded, a conflict makes the commit panic. -/
theorem Graph.commit_conflict {e0 : Prop} (hw : WellNamed S) (ho : OneOpposite S) (hd : DeclaredOnce S) {g g6 : Graph} {t : Trans} {r6 : Lcr}
    (hst : SteadyBidir S t g.get?) (hnl : ¬ VecLeft S g.get? g6.get?) (hnm : ¬ VecMissing S g.get? g6.get?)
    (hctx : dbg = true → t.ctxId = g.ctxId) (hall : dbg = true → t.allocs.isEmpty = true) (hp : Graph.perform S g t = .ok (g6, r6))
    (out : Graph.PerformOut S e0 t g g6 r6) (hc : Spec.Conflict S g.get? g6.get?) : g.commit S dbg t = .error .addOnExisting := by
  have c1 : ¬ (dbg && decide (t.ctxId ≠ g.ctxId)) = true := by
    intro h
    simp only [Bool.and_eq_true, decide_eq_true_eq] at h
    exact h.2 (hctx h.1)
  have c2 : ¬ (dbg && !t.allocs.isEmpty) = true := by
    intro h
    simp only [Bool.and_eq_true, Bool.not_eq_true'] at h
    rw [hall h.1] at h
    exact absurd h.2 (by simp)
  rcases Graph.complete_cases hw out.inv (fun h => out.adds (hst _ _ _ _ h)) (fun h => out.removes (hst _ _ _ _ h)) with
    ⟨_, h1⟩ | ⟨_, ⟨g7, _, hnc⟩ | ⟨_, _, hund⟩ | ⟨h1, _⟩ | ⟨_, h1⟩⟩
  · exact absurd h1 hnl
  · exact absurd hc hnc
  · obtain ⟨_, m, _, d, _, _, h, _⟩ := hund
    exact absurd h (Schema.not_manyWays hw ho hd m d)
  · rw [Graph.commit, Graph.doCommit_eq, hp, if_neg c1, if_neg c2]
    simp only [h1]
  · exact absurd h1 hnm

end TTGraph
