import Verif.Lemmas.Feature
import Verif.Lemmas.Types
import Verif.Props.Types

/-!
# C68: the cargo feature `debug`
-/

set_option autoImplicit false

namespace TTGraph
open Spec

section
variable [SetImpl] {S : Schema} {dbg : Bool} {R : World → Call → Prop}

/-- A commit that panics without the feature panics with it, for the same reason. -/
theorem C68_panics {g : Graph} {t : Trans} {e : Panic} (hc : g.commitOff S dbg t = .error e) : g.commit S dbg t = .error e := by
  rcases Graph.commit_eq_off (S := S) dbg g t with ⟨e', h1, h2⟩ | ⟨g6, r6, h1, _⟩
  · rw [hc, Except.error.injEq] at h1
    rw [h2, h1]
  · rw [hc] at h1
    exact absurd h1 (by simp)

/-- Without the feature a commit that returns has performed the operations of the transaction, and nothing else. -/
theorem C68_off (hw : WellNamed S) {g g' : Graph} {t : Trans} (h : Meets S dbg R g t) (hc : g.commitOff S dbg t = .ok g') :
    Performed t g.get? g'.get? := by
  rcases Graph.commit_eq_off (S := S) dbg g t with ⟨e', h1, _⟩ | ⟨g6, r6, h1, h2, _⟩
  · rw [hc] at h1
    exact absurd h1 (by simp)
  · rw [hc, Except.ok.injEq] at h1
    subst h1
    exact (Graph.perform_out hw.variants (h.inv hw) (h.ready hw).good (h.disjoint hw).1 (h.ready hw).noFrom h2).performed

/-- A commit that returns with the feature returns without it, and the graphs agree in everything but the links that `bidirectional!` declares. -/
theorem C68_commit (hw : WellNamed S) {g g' : Graph} {t : Trans} (h : Meets S dbg R g t) (hc : g.commit S dbg t = .ok g') :
    ∃ g6, g.commitOff S dbg t = .ok g6 ∧ Performed t g.get? g6.get? ∧ SameUpToBidir S g6.get? g'.get? := by
  rcases Graph.commit_eq_off (S := S) dbg g t with ⟨e', _, h1⟩ | ⟨g6, r6, h1, h2, h3, h4, _⟩
  · rw [hc] at h1
    exact absurd h1 (by simp)
  · have out := Graph.perform_out hw.variants (h.inv hw) (h.ready hw).good (h.disjoint hw).1 (h.ready hw).noFrom h2
    refine ⟨g6, h1, out.performed, ?_⟩
    exact (Graph.commit_out hw h2 out hc).same

/-- For declarations without `bidirectional!` in which no annotation refuses anything, commits do the same with and without the feature.  What is
missing: declarations with `bidirectional!` or `link_type!`, for which this is false (`Demo.C68_bidirectional_fails`, `Demo.C68_types_fails`). -/
theorem C68_commit_partial (hw : WellNamed S) (hb : ∀ m m', ¬ Opposite S m m') (ha : ∀ m d, AllAccept S m d) (g : Graph) (t : Trans) :
    g.commitOff S dbg t = g.commit S dbg t := by
  rcases Graph.commit_eq_off (S := S) dbg g t with ⟨e', h1, h2⟩ | ⟨g6, r6, h1, _, _, _, h2⟩
  · rw [h1, h2]
  · rw [h1, h2, Graph.applyBidirectional_none hw hb]
    simp only
    rw [Graph.checkLinkType_ok.2 fun c _ n _ => (Schema.checkLinkType_iff hw).2 (Schema.permitted_of_accept hw (ha _ _))]

/-- For declarations without `bidirectional!`, commits do the same with and without the feature, unless the commit with the feature panics because of
an annotation. -/
theorem C68_types_partial (hw : WellNamed S) (hb : ∀ m m', ¬ Opposite S m m') (g : Graph) (t : Trans) :
    g.commit S dbg t = .error .linkType ∨ g.commitOff S dbg t = g.commit S dbg t := by
  rcases Graph.commit_eq_off (S := S) dbg g t with ⟨e', h1, h2⟩ | ⟨g6, r6, h1, _, _, _, h2⟩
  · exact Or.inr (by rw [h1, h2])
  · rw [Graph.applyBidirectional_none hw hb] at h2
    simp only at h2
    rw [h2, h1]
    cases hc : Graph.checkLinkType S g6 r6 with
    | error e => exact Or.inl (by rw [(Graph.checkLinkType_err hc).1])
    | ok _ => exact Or.inr rfl

/-- The same for `switch_context`. -/
theorem C68_switch_partial (hw : WellNamed S) (hb : ∀ m m', ¬ Opposite S m m') (ha : ∀ m d, AllAccept S m d) (g : Graph) (newId cnt : Nat) :
    g.switchContextOff S newId cnt = g.switchContext S newId cnt := by
  simp only [Graph.switchContextOff, Graph.switchContext, Graph.applyBidirectional_none hw hb]
  have hc : ∀ g r, Graph.checkLinkType S g r = .ok () := fun g r =>
    Graph.checkLinkType_ok.2 fun c _ n _ => (Schema.checkLinkType_iff hw).2 (Schema.permitted_of_accept hw (ha _ _))
  simp only [hc]
  cases Graph.switchNodes S g cnt <;> rfl

/-- The same for reading a graph. -/
theorem C68_load_partial (hw : WellNamed S) (hb : ∀ m m', ¬ Opposite S m m') (id : Nat) (nodes : List (NodeIndex × Node)) :
    Graph.doDeserializeOff S id nodes = Graph.doDeserialize S id nodes := by
  simp only [Graph.doDeserializeOff, Graph.doDeserialize, Graph.applyBidirectional_none hw hb]
  cases Arena.newFromIter nodes <;> rfl

end
end TTGraph

namespace TTGraph
namespace Demo
open Spec

/-- The declarations without annotations and `bidirectional!`. -/
example : WellNamed plain ∧ (∀ m m', ¬ Opposite plain m m') ∧ (∀ m d, AllAccept plain m d) ∧
    ∃ g', (graphAt (run plain true World.init base3) 0).commitOff plain true (transAt (run plain true World.init base3) 1) = .ok g' :=
  ⟨plain_named, fun _ _ ⟨_, h, _⟩ => (nomatch h), fun _ _ _ h => (nomatch h), _, got_ok (d := Graph.new 0) (by decide +kernel)⟩

/-- A commit that returns in both cases. -/
example : let w := run pair true World.init pair5
    Meets pair true SoundKeep (graphAt w 0) (transAt w 1) ∧ ∃ g', (graphAt w 0).commit pair true (transAt w 1) = .ok g' ∧
      g'.get? 2 = some (pB [] 1) ∧ g'.get? 3 = some (pA 0 []) :=
  ⟨pair5_meets, _, got_ok (d := Graph.new 0) (by decide +kernel), by decide +kernel⟩

/-- Without the feature opposite links are not maintained: 1 is linked with 4 instead of 2 and back, and 2 and 3 keep their links to 1 and 4. -/
theorem C68_bidirectional_fails : ∃ g t g1 g2, Meets pair true SoundKeep g t ∧ g.commit pair true t = .ok g1 ∧ g.commitOff pair true t = .ok g2 ∧
    g1.get? 2 = some (pB [] 1) ∧ g2.get? 2 = some (pB [1] 0) ∧ g1.get? 3 = some (pA 0 []) ∧ g2.get? 3 = some (pA 4 []) :=
  ⟨_, _, _, _, pair5_meets, got_ok (d := Graph.new 0) (by decide +kernel), got_ok (d := Graph.new 0) (by decide +kernel), by decide +kernel⟩

/-- Without the feature annotations are not enforced. -/
theorem C68_types_fails : ∃ g t g2, Meets typed true SoundKeepNoLoads g t ∧ g.commit typed true t = .error .linkType ∧ g.commitOff typed true t = .ok g2 :=
  ⟨_, _, _, meets_of (reaches_soundKeepNoLoads typed_named (pair4 ++ [.edit 1 1 (pA 3 [])]) (by decide +kernel)) 0 1 (by decide +kernel), rfl,
    got_ok (d := Graph.new 0) (by decide +kernel)⟩

end Demo
end TTGraph
