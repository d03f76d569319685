import Verif.Lemmas.Reasons
import Verif.Lemmas.ReasonsIff
import Verif.Props.Exact
import Verif.Props.Report
import Verif.Props.Caught

/-!
# What a panic of a commit says: C90
-/

set_option autoImplicit false

namespace TTGraph
open Spec
variable [SetImpl] {S : Schema} {dbg : Bool} {R : World → Call → Prop}

/-- If a commit panics, then the panic says what is wrong with the transaction, and it is true. -/
theorem C90_reason (hw : WellNamed S) {g : Graph} {t : Trans} (hst : SteadyBidir S t g.get?) (h : Meets S dbg R g t) {e : Panic}
    (hc : g.commit S dbg t = .error e) : Reason S dbg t g.get? e :=
  Graph.commit_reason hw hst (h.inv hw) (h.ready hw).good (h.disjoint hw).1 (h.ready hw).noFrom (h.disjoint hw).2.1 hc

/-- A transaction without mistakes is committed. -/
theorem C90_returns (hw : WellNamed S) {g : Graph} {t : Trans} (hst : SteadyBidir S t g.get?) (h : Meets S dbg R g t)
    (hq : ∀ e, ¬ Reason S dbg t g.get? e) : ∃ g', g.commit S dbg t = .ok g' := by
  cases hc : g.commit S dbg t with
  | ok g' => exact ⟨g', rfl⟩
  | error e => exact absurd (C90_reason hw hst h hc) (hq e)

/-- No internal failure of the implementation ever shows, under whatever declaration: a commit panics with one of the ten complaints, or a closure
panics on the node that it is applied to. -/
theorem C90_complains (hw : WellNamed S) {g : Graph} {t : Trans} (h : Meets S dbg R g t) {e : Panic} (hc : g.commit S dbg t = .error e) :
    e ∈ complaints ∨ ∃ k i f v3 n, Before t.pending g.get? v3 i f k ∧ v3 i = some n ∧ f n = .error e := by
  have hctx := (h.disjoint hw).2.1
  rcases Graph.commit_panics hw (h.inv hw) (h.ready hw).good (h.disjoint hw).1 (h.ready hw).noFrom hc with
    ⟨_, h1⟩ | h1 | h1 | h1 | h1 | ⟨h1 | h1, _⟩ | h1
  · exact absurd hctx h1
  · left; rw [h1]; decide
  · have hr : Reason S dbg t g.get? e := Graph.perform_reason hw.variants (h.inv hw) (h.ready hw).good (h.disjoint hw).1 (h.ready hw).noFrom h1
    cases hr with
    | closure a b c => exact Or.inr ⟨_, _, _, _, _, a, b, c⟩
    | _ => left; decide
  all_goals (left; rw [h1]; decide)

/-- In particular, if the closures do not panic, then there are no other panics than the complaints. -/
theorem C90_quiet (hw : WellNamed S) {g : Graph} {t : Trans} (h : Meets S dbg R g t)
    (hq : ∀ i f, (i, f) ∈ t.pending.muts ++ t.pending.upds → ∀ n e, f n ≠ .error e) {e : Panic} (hc : g.commit S dbg t = .error e) :
    e ∈ complaints := by
  rcases C90_complains hw h hc with h1 | ⟨k, i, f, v3, n, hb, _, hf⟩
  · exact h1
  · refine absurd hf (hq i f ?_ n e)
    cases k with
    | mutating => obtain ⟨_, _, pre, post, _, _, e, _⟩ := hb; rw [e]; simp
    | updating => obtain ⟨_, _, _, pre, post, _, _, _, e, _⟩ := hb; rw [e]; simp

/-- `commit_checked` panics like `commit`, or, where `commit` would return, because of the checks. -/
theorem C90_checked (hw : WellNamed S) {g : Graph} {t : Trans} {cs : GraphCheck} (hnv : ∀ x m y, Steady S t g.get? x m y) (h : Meets S dbg R g t) {e : Panic}
    (hc : g.commitChecked S dbg t cs = .error e) :
    (g.commit S dbg t = .error e ∧ Reason S dbg t g.get? e) ∨
    ∃ g' v6, g.commit S dbg t = .ok g' ∧ Performed t g.get? v6 ∧ Completion S g.get? v6 g'.get? ∧
      ((∃ names, e = .checkFailed names ∧ names ≠ [] ∧ ∀ name ∈ names, CheckFails cs g.get? v6 g'.get? name) ∨
        (e = .user ∧ CheckPanics cs g.get? v6 g'.get?) ∨
        (e = .nodeMissing ∧ (∃ name f, cs.nodeChecks.get? name = some f) ∧
          ∃ x m y, y ≠ emptyIdx ∧ View.Link g.get? x m y ∧ g'.get? x = none)) := by
  cases hcm : g.commit S dbg t with
  | ok g' =>
    obtain ⟨v6, h1, h2, h3⟩ := C60_reasons hw hnv h hcm hc
    exact Or.inr ⟨g', v6, rfl, h1, h2, h3⟩
  | error e' =>
    left
    have he : e' = e := by
      simp only [Graph.commit] at hcm
      simp only [Graph.commitChecked] at hc
      cases hd : Graph.doCommit S dbg g t with
      | error e1 =>
        rw [hd] at hcm hc
        simp only [Except.error.injEq] at hcm hc
        rw [← hcm, ← hc]
      | ok st =>
        obtain ⟨g1, r1⟩ := st
        rw [hd] at hcm hc
        simp only at hcm hc
        cases hl : Graph.checkLinkType S g1 r1 with
        | error e1 =>
          rw [hl] at hcm hc
          simp only [Except.error.injEq] at hcm hc
          rw [← hcm, ← hc]
        | ok u =>
          rw [hl] at hcm
          exact absurd hcm (by simp)
    subst he
    exact ⟨rfl, C90_reason hw (fun x m y _ _ => hnv x m y) h hcm⟩

/-- In a program without dangling links, no mistake goes unnoticed: a commit panics exactly if the transaction has one. -/
theorem C90_iff (hw : WellNamed S) (ho : OneOpposite S) (hd : DeclaredOnce S) (hR : ∀ w c, R w c → SoundCalls w c) {g : Graph} {t : Trans}
    (h : Meets S dbg R g t) (hst : SteadyBidir S t g.get?) (hva : SteadyAnnos S t g.get?) (hs : Sound g.get? t.pending) (hreg : Regular t.pending)
    (he : NoEmptyLinks t.pending) : (∃ e, g.commit S dbg t = .error e) ↔ ∃ e, Reason S dbg t g.get? e := by
  refine ⟨fun ⟨e, hc⟩ => ⟨e, C90_reason hw hst h hc⟩, fun ⟨e, hr⟩ => ?_⟩
  cases hc : g.commit S dbg t with
  | error e => exact ⟨e, rfl⟩
  | ok g' =>
    obtain ⟨k1, v6, k2, k3⟩ := (C58_commit_iff hw ho hd hR h hst hva hs hreg he).1 ⟨g', hc⟩
    exact absurd hr (k2.noReason hw ho hd hva hreg (h.inv hw).noEmpty (h.ready hw).good.noEmpty k1 k3 e)

end TTGraph

namespace TTGraph.Demo
open Spec

/-- C90: the hypotheses of `C90_reason` and `C90_complains` are met, by a link that is not permitted (program `wrong4`). -/
example : ∃ g t, Meets typed true AnyCall g t ∧ SteadyBidir typed t g.get? ∧ g.commit typed true t = .error .linkType :=
  ⟨_, _, meets_of (reaches wrong4 (by decide +kernel)) 0 1 (by decide +kernel), typed_noVec.steadyBidir _ _, rfl⟩

/-- C90: the same for a node that is to be removed and does not exist (program `missing4`); there are no closures. -/
example : ∃ g t, Meets pair true AnyCall g t ∧ SteadyBidir pair t g.get? ∧ t.pending.muts ++ t.pending.upds = [] ∧
    g.commit pair true t = .error .removeMissing :=
  ⟨_, _, meets_of (reaches missing4 (by decide +kernel)) 0 1 (by decide +kernel), pair_noVec.steadyBidir _ _, rfl, rfl⟩

/-- C90: the hypotheses of `C90_checked` are met, once where `commit` panics, once where only the checks fail (program `link3`). -/
example : (∃ g t, Meets pair true AnyCall g t ∧ (∀ x m y, Steady pair t g.get? x m y) ∧ g.commitChecked pair true t manyChecks = .error .removeMissing) ∧
    ∃ g t, Meets pair true AnyCall g t ∧ (∀ x m y, Steady pair t g.get? x m y) ∧ g.commitChecked pair true t manyChecks = .error (.checkFailed [9, 8, 9, 5]) :=
  ⟨⟨_, _, meets_of (reaches missing4 (by decide +kernel)) 0 1 (by decide +kernel), fun _ m _ => Or.inl (noVecFields_sound (by decide) m), rfl⟩,
   ⟨_, _, link3_meets, fun _ m _ => Or.inl (noVecFields_sound (by decide) m), link3_checked⟩⟩

/-- C90: the hypotheses of `C90_iff` hold for a transaction with operations of all kinds, which is committed (program `valid4`).  Hence it has no
mistakes. -/
example : let w := run typed true World.init valid4
    let g := graphAt w 0
    let t := transAt w 1
    Meets typed true SoundCalls g t ∧ Sound g.get? t.pending ∧ Regular t.pending ∧ NoEmptyLinks t.pending ∧ ¬ ∃ e, Reason typed true t g.get? e := by
  intro w g t
  have hm : Meets typed true SoundCalls g t := meets_of valid4_sound 0 1 (by decide +kernel)
  have hs : Sound g.get? t.pending := sound_sound (hm.ready typed_named).good.inv (by decide +kernel)
  obtain ⟨hr, he⟩ := regular_of (p := t.pending) (l := [(3, pB [1] 4)]) rfl (by decide +kernel) (by decide +kernel) (by decide +kernel)
  refine ⟨hm, hs, hr, he, fun hx => ?_⟩
  obtain ⟨e, hc⟩ := (C90_iff typed_named typed_one typed_once (fun _ _ h => h) hm (typed_noVec.steadyBidir _ _) (typed_noVecAnnos.steady _ _) hs hr he).2 hx
  have hg := got_ok (d := Graph.new 0) valid4_needed.1
  rw [show (graphAt w 0).commit typed true (transAt w 1) = .error e from hc] at hg
  exact absurd hg (by simp)

/-- C90: they hold too if the transaction makes node 2 link to a node that does not exist (program `invalid4`).  This is a mistake, hence the commit
panics. -/
example : let w := run typed true World.init invalid4
    let g := graphAt w 0
    let t := transAt w 1
    Meets typed true SoundCalls g t ∧ Sound g.get? t.pending ∧ Regular t.pending ∧ NoEmptyLinks t.pending ∧ (∃ e, Reason typed true t g.get? e) ∧
      ∃ e, g.commit typed true t = .error e := by
  intro w g t
  have hm : Meets typed true SoundCalls g t := meets_of (reaches_sound (us := []) typed_named invalid4 .init
    (fun _ _ h => absurd h (by simp [World.init])) (by decide +kernel)) 0 1 (by decide +kernel)
  have hs : Sound g.get? t.pending := sound_sound (hm.ready typed_named).good.inv (by decide +kernel)
  obtain ⟨hr, he⟩ := regular_of (p := t.pending) (l := [(3, pB [1] 4), (2, pB [5] 0)]) rfl (by decide +kernel) (by decide +kernel) (by decide +kernel)
  have hc : g.commit typed true t = .error .backMissing := panic_of (by decide +kernel)
  have hr' := C90_reason typed_named (typed_noVec.steadyBidir _ _) hm hc
  exact ⟨hm, hs, hr, he, ⟨_, hr'⟩,
    (C90_iff typed_named typed_one typed_once (fun _ _ h => h) hm (typed_noVec.steadyBidir _ _) (typed_noVecAnnos.steady _ _) hs hr he).2 ⟨_, hr'⟩⟩

end TTGraph.Demo
