import Verif.Spec.Intact
import Verif.Lemmas.Machine

/-!
# The guarantees follow from the invariant
-/

set_option autoImplicit false

namespace TTGraph
open Spec
variable [SetImpl] {S : Schema}

theorem World.WInv.intact (hw : WellNamed S) (dbg : Bool) {w : World} (hi : World.WInv S w) : Intact S dbg w where
  ids := by
    intro c
    refine ⟨hi.issuedNodup c, fun he => ?_⟩
    obtain ⟨_, _, h1, _⟩ := hi.issued c _ he
    exact h1 rfl
  apart := by
    intro c i
    have hg : ∀ {a : Arena}, a.get? i ≠ none → a.disp.get? i ≠ none := by
      intro a ha hd
      exact ha (by simp [Arena.get?, hd])
    have ht : ∀ {t : Trans}, t.pending.new i ≠ none ∨ t.pending.unfilled i → t.Owns i := by
      rintro t (h1 | h1)
      · exact .inl (hg h1)
      · exact .inr h1
    refine ⟨?_, ?_, ?_⟩
    · intro h1 h2 g g' k1 k2 k3 k4
      have := hi.disj (.inl h1) (.inl h2) c i ⟨g, k1, hg k3⟩ ⟨g', k2, hg k4⟩
      exact Sum.inl.inj this
    · intro h1 k g t k1 k2 k3
      have key : ¬ (t.pending.new i ≠ none ∨ t.pending.unfilled i) := fun k4 =>
        absurd (hi.disj (.inl h1) (.inr k) c i ⟨g, k1, hg k3⟩ ⟨t, k2, ht k4⟩) (by simp)
      exact ⟨by_contra fun e => key (.inl e), fun e => key (.inr e)⟩
    · intro k k' t t' k1 k2 k3 k4
      exact Sum.inr.inj (hi.disj (.inr k) (.inr k') c i ⟨t, k1, ht k3⟩ ⟨t', k2, ht k4⟩)
  backlinks := by
    intro gh c g hg
    obtain ⟨_, _, _, hi⟩ := hi.graph gh c g hg
    refine ⟨fun x s y hy => ⟨hi.exact x s y (Or.inl hy), hi.recd x s y⟩, fun x hx => ?_⟩
    obtain ⟨n, hn⟩ := Option.ne_none_iff_exists'.1 hx
    obtain ⟨st, hst⟩ := hi.known x n hn
    rw [hst]
    simp
  methods := by
    intro k c t t' x o cnt l ht hx ho hr
    obtain ⟨_, _, _, hrd⟩ := hi.trans k c t ht
    refine Trans.effect_run hrd (fun i hi' => ?_) ho hr
    obtain ⟨x', hx', h2⟩ := hi.bound (.inr k) c i ⟨t, ht, hi'⟩
    rw [hx] at hx'
    simp only [Option.some.injEq] at hx'
    subst hx'
    exact h2
  commit := by
    intro gh k c g g' t hg ht hc
    obtain ⟨x, _, _, _, h3, h4, _, h6, _⟩ := hi.pair ht hg
    obtain ⟨v6, h1⟩ := Graph.commit_ok hw h4 h3.good h6 h3.noFrom hc
    refine ⟨fun e i hi => ?_, v6, machine_performed.2 h1.performed, h1.same,
      fun hst => ⟨h1.noConflict hst, ⟨h1.noLeft hst, h1.noMissing hst⟩, h1.completion hst⟩,
      fun x m y n k1 k2 k3 => (Schema.checkLinkType_iff hw).1 (h1.types x m y n k1 k2 k3)⟩
    subst e
    exact perform_debug hc i hi

end TTGraph
