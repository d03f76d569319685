import Verif.Demo.Traced
import Verif.Demo.Decls
import Verif.Lemmas.Exact
import Verif.Lemmas.Types
import Verif.Lemmas.Steady
import Verif.Props.Integrity
import Verif.Props.Valid

/-!
# Exactly when a commit returns: C58
-/

set_option autoImplicit false

namespace TTGraph
open Spec
variable [SetImpl] {S : Schema} {dbg : Bool} {R : World → Call → Prop}

/-- In a program without dangling links, the commit of a transaction returns exactly if all its allocated indices are filled (in debug
builds), its operations can be carried out one phase after the other, and the result can be completed. -/
theorem C58_commit_iff (hw : WellNamed S) (ho : OneOpposite S) (hd : DeclaredOnce S)
    (hR : ∀ w c, R w c → SoundCalls w c) {g : Graph} {t : Trans} (h : Meets S dbg R g t) (hst : SteadyBidir S t g.get?) (hva : SteadyAnnos S t g.get?)
    (hs : Sound g.get? t.pending)
    (hreg : Regular t.pending) (he : NoEmptyLinks t.pending) :
    (∃ g', g.commit S dbg t = .ok g') ↔
      (dbg = true → ∀ i, ¬ t.pending.unfilled i) ∧ ∃ v6, CarriedOut t.pending g.get? v6 ∧ Completable S g.get? v6 := by
  have hr := h.ready hw
  obtain ⟨hdis, hctx, _⟩ := h.disjoint hw
  have hinv := h.inv hw
  have hti := (tight_closed hw hR).reachable h.reachable
  have hiff := Graph.perform_iff hw.variants hinv hr.good hdis hr.noFrom hti hs hreg he
  constructor
  · rintro ⟨g', hc⟩
    have hcl : ∀ p ∈ t.pending.muts ++ t.pending.upds, p.2.Respects := fun p hp => hreg.closures p.1 p.2 hp
    obtain ⟨h1, _, _, _, _, h6⟩ := C13_needed hw hst h hreg.redir hreg.redirAll hcl hc
    obtain ⟨_, _, g6, r6, hp⟩ := Graph.perform_of_commit hc
    obtain ⟨v6, hv6⟩ := hiff.1 ⟨g6, r6, hp⟩
    obtain ⟨k1, k3, k2⟩ := h6 v6 hv6.performed
    refine ⟨h1, v6, hv6, k1, k3, fun x m y n hl hn => ?_⟩
    rcases hva x m y with hk | hk
    · exact k2 x m y n hl hk hn
    · exact Schema.permitted_of_accept hw (hk n.disc)
  · rintro ⟨hfill, v6, hv6, h1, h3, h2⟩
    obtain ⟨g6, r6, hp⟩ := hiff.2 ⟨v6, hv6⟩
    have out := Graph.perform_out hw.variants hinv hr.good hdis hr.noFrom hp
    have hsame := performed_same rfl hreg.redir hreg.redirAll (fun p hp => hreg.closures p.1 p.2 hp) (.refl _) hv6.performed out.performed
    have h4 := ((View.Same.refl _).noVecDue hsame).2 h3
    rcases Graph.commit_after hw dbg hst (fun _ => hctx) (Trans.allocs_empty hfill) hp out with
      ⟨_, hc⟩ | ⟨_, ⟨g', hc, _⟩ | ⟨_, _, hu⟩ | ⟨_, hc⟩ | ⟨_, x, m, y, n, hn, hl, hl', hf⟩ | ⟨_, hc⟩⟩
    · exact absurd hc h4.1
    · exact ⟨g', hc⟩
    · exact absurd hu (not_undecided hw ho hd _ _)
    · exact absurd (((View.Same.refl _).conflict hsame).1 hc) h1
    · have hacc : Permitted S m n.disc := by
        rcases hva x m y with hk | hk
        · obtain ⟨n6, hn6, hns⟩ := hsame.symm.some hn
          have hy : y ≠ emptyIdx := by rintro rfl; rw [out.inv.noEmpty] at hn; exact absurd hn (by simp)
          have := h2 x m y n6 ⟨hy, (hsame.link x m y).1 hl, hl' hk⟩ hn6
          rw [show n6.disc = n.disc from hns.1] at this
          exact this
        · exact Schema.permitted_of_accept hw (hk n.disc)
      rw [(Schema.checkLinkType_iff hw).2 hacc] at hf
      exact absurd hf (by simp)
    · exact absurd hc h4.2

end TTGraph

namespace TTGraph
namespace Demo
open Spec

theorem typed_noVecAnnos : NoVecAnnos typed := noVecAnnos_sound typed_named (by decide)

/-- The hypotheses of `C58_commit_iff` about the transaction, by evaluation. -/
theorem regular_of {p : Pending} {l : List (NodeIndex × Node)} (hm : p.muts ++ p.upds = l.map fun e => (e.1, const e.2))
    (hl : (l.all fun e => e.2.iterSources.all fun q => decide (q.1 ≠ emptyIdx)) = true) (hr : (p.redir.map Prod.fst).Nodup)
    (hra : (p.redirAll.map Prod.fst).Nodup) : Regular p ∧ NoEmptyLinks p := by
  refine ⟨⟨hr, hra, fun i f hf => ?_⟩, fun i f hf n n' hn s hh => ?_⟩
  · rw [hm] at hf
    obtain ⟨e, _, he⟩ := List.mem_map.1 hf
    simp only [Prod.mk.injEq] at he
    rw [← he.2]
    exact fun _ _ _ => Or.inr ⟨_, _, rfl, rfl, Node.Same.refl _⟩
  · rw [hm] at hf
    obtain ⟨e, h1, he⟩ := List.mem_map.1 hf
    simp only [Prod.mk.injEq] at he
    rw [← he.2] at hn
    obtain rfl : e.2 = n' := by simpa [const] using hn
    simp only [List.all_eq_true, decide_eq_true_eq] at hl
    exact hl e h1 _ (Node.mem_iterSources.2 hh) rfl

/-- `valid4` (in Props/Valid) is a program without dangling links. -/
theorem valid4_sound : Reaches typed true SoundCalls (run typed true World.init valid4) :=
  reaches_sound (us := []) typed_named valid4 .init (fun _ _ h => absurd h (by simp [World.init])) (by decide +kernel)

/-- C58: the hypotheses hold for its transaction with operations of all kinds, which is committed; hence it can be carried out and completed. -/
example : let w := run typed true World.init valid4
    let g := graphAt w 0
    let t := transAt w 1
    Meets typed true SoundCalls g t ∧ Sound g.get? t.pending ∧ Regular t.pending ∧ NoEmptyLinks t.pending ∧
      ∃ v6, CarriedOut t.pending g.get? v6 ∧ Completable typed g.get? v6 := by
  intro w g t
  have hm : Meets typed true SoundCalls g t := meets_of valid4_sound 0 1 (by decide +kernel)
  have hs : Sound g.get? t.pending := sound_sound (hm.ready typed_named).good.inv (by decide +kernel)
  obtain ⟨hr, he⟩ := regular_of (p := t.pending) (l := [(3, pB [1] 4)]) rfl (by decide +kernel) (by decide +kernel) (by decide +kernel)
  refine ⟨hm, hs, hr, he, ((C58_commit_iff typed_named typed_one typed_once (fun _ _ h => h) hm (typed_noVec.steadyBidir _ _) (typed_noVecAnnos.steady _ _) hs hr he).1
    ⟨_, got_ok (d := Graph.new 0) valid4_needed.1⟩).2⟩

/-- As `valid4`, but the second transaction also mutates node 2 to link to node 5, which it does not insert. -/
def invalid4 : List Step := valid4 ++ [.mutate 1 2 (pB [5] 0)]

/-- C58: the hypotheses hold for it too.  It cannot be carried out, and its commit panics. -/
example : let w := run typed true World.init invalid4
    let g := graphAt w 0
    let t := transAt w 1
    Meets typed true SoundCalls g t ∧ Sound g.get? t.pending ∧ Regular t.pending ∧ NoEmptyLinks t.pending ∧
      g.commit typed true t = .error .backMissing ∧ ¬ ∃ v6, CarriedOut t.pending g.get? v6 ∧ Completable typed g.get? v6 := by
  intro w g t
  have hm : Meets typed true SoundCalls g t := meets_of (reaches_sound (us := []) typed_named invalid4 .init
    (fun _ _ h => absurd h (by simp [World.init])) (by decide +kernel)) 0 1 (by decide +kernel)
  have hs : Sound g.get? t.pending := sound_sound (hm.ready typed_named).good.inv (by decide +kernel)
  obtain ⟨hr, he⟩ := regular_of (p := t.pending) (l := [(3, pB [1] 4), (2, pB [5] 0)]) rfl (by decide +kernel) (by decide +kernel) (by decide +kernel)
  have hc : g.commit typed true t = .error .backMissing := panic_of (by decide +kernel)
  refine ⟨hm, hs, hr, he, hc, fun hx => ?_⟩
  have hf : true = true → ∀ i, ¬ t.pending.unfilled i := by
    intro _ i hi
    have : t.allocs.elems = [] := by decide +kernel
    have hi' : i ∈ t.allocs.elems := hi
    rw [this] at hi'
    exact absurd hi' (by simp)
  obtain ⟨g', hg⟩ :=
    (C58_commit_iff typed_named typed_one typed_once (fun _ _ h => h) hm (typed_noVec.steadyBidir _ _) (typed_noVecAnnos.steady _ _) hs hr he).2 ⟨hf, hx⟩
  rw [hc] at hg
  exact absurd hg (by simp)

end Demo
end TTGraph
