import Verif.Spec.Undo
import Verif.Lemmas.Insert
import Verif.Props.Valid
import Verif.Props.Bidir

/-!
# Removing what was inserted: C75
-/

set_option autoImplicit false

namespace TTGraph
open Spec
variable {S : Schema}

/-- What removals do, before bidirectional completion. -/
theorem performed_without {t : Trans} {v v6 : View} {N : NodeIndex → Prop} (hp : Performed t v v6) (hr : OnlyRemoves t.pending N)
    (hv0 : v emptyIdx = none) :
    Without N v v6 := by
  obtain ⟨v1, v2, v3, v4, v5, a1, a2, a3, a4, a5, a6⟩ := hp
  rw [show t.redir = [] from hr.redir] at a1
  rw [show t.muts = [] from hr.muts] at a3
  rw [show t.upds = [] from hr.upds] at a4
  rw [show t.redirAll = [] from hr.redirAll] at a5
  have e2 : v2 = v1 := funext fun x => a2.1 x (hr.new x)
  rw [applied_nil a4, applied_nil a3, e2] at a5
  have hs := (redirected_nil a1).trans (redirected_nil a5)
  obtain ⟨s1, s2⟩ := View.same_iff.1 hs
  have hN : ∀ i, i ∈ t.dec.elems ↔ N i := hr.removed
  have h0 : ¬ N emptyIdx := fun h => (a6.1 _ ((hN _).2 h)).1 ((hs.none_iff _).2 hv0)
  refine ⟨fun x hx => (a6.1 x ((hN x).2 hx)).2, fun x hx => ?_⟩
  have hx' : x ∉ t.dec.elems := fun h => hx ((hN x).1 h)
  cases h5 : v5 x with
  | none =>
    have h6 : v6 x = none := (removed_none a6 x).2 (Or.inl h5)
    have hv : v x = none := (hs.none_iff x).1 h5
    rw [h6, hv]
    refine ⟨rfl, fun s y => ⟨?_, ?_⟩⟩
    · rintro ⟨n, hn, _⟩
      rw [h6] at hn
      exact absurd hn (by simp)
    · rintro ⟨⟨n, hn, _⟩, _⟩
      rw [hv] at hn
      exact absurd hn (by simp)
  | some n5 =>
    obtain ⟨n6, h6, hren⟩ := removed_node a6 h5 hx'
    obtain ⟨n, hn, hsame⟩ := hs.symm.some h5
    refine ⟨?_, fun s y => ?_⟩
    · rw [h6, hn]
      simp only [Option.map_some, Option.some.injEq]
      exact hren.shape.trans hsame.shape.symm
    · rw [← s2]
      constructor
      · rintro ⟨n', hn', hh⟩
        obtain rfl : n6 = n' := Option.some.inj (h6.symm.trans hn')
        obtain ⟨u, hu, e, hor⟩ := (Node.Renamed.holds hren s y).1 hh
        by_cases hu' : u ∈ t.dec.elems
        · rw [if_pos hu'] at e
          rcases hor with hor | hor
          · exact absurd e.symm hor
          · exact absurd ((hN u).1 hu') (hor ▸ h0)
        · rw [if_neg hu'] at e
          subst e
          exact ⟨⟨n5, h5, hu⟩, fun h => hu' ((hN u).2 h)⟩
      · rintro ⟨⟨n', hn', hh⟩, hy⟩
        obtain rfl : n5 = n' := Option.some.inj (h5.symm.trans hn')
        refine ⟨n6, h6, (Node.Renamed.holds hren s y).2 ⟨y, hh, ?_, ?_⟩⟩
        · rw [if_neg (fun h => hy ((hN y).1 h))]
        · by_cases e : y = emptyIdx
          · exact Or.inr e
          · exact Or.inl e

/-- A link that is gone led from or to a removed node, and no link is new. -/
theorem Spec.Without.links {v v6 : View} {N : NodeIndex → Prop} (h : Without N v v6) {x : NodeIndex} {m : Mirror} {y : NodeIndex} :
    v6.Link x m y ↔ v.Link x m y ∧ ¬ N x ∧ ¬ N y := by
  constructor
  · rintro ⟨n, hn, k, hk⟩
    have hx : ¬ N x := fun hx => by rw [h.1 x hx] at hn; exact absurd hn (by simp)
    obtain ⟨⟨n', h1, h2⟩, h3⟩ := ((h.2 x hx).2 ⟨m.disc, m.pos, k⟩ y).1 ⟨n, hn, hk⟩
    exact ⟨⟨n', h1, k, h2⟩, hx, h3⟩
  · rintro ⟨⟨n, hn, k, hk⟩, hx, hy⟩
    obtain ⟨n', h1, h2⟩ := ((h.2 x hx).2 ⟨m.disc, m.pos, k⟩ y).2 ⟨⟨n, hn, hk⟩, hy⟩
    exact ⟨n', h1, k, h2⟩

theorem Spec.Without.exists {v v6 : View} {N : NodeIndex → Prop} (h : Without N v v6) {x : NodeIndex} (hx : v6 x ≠ none) : ¬ N x :=
  fun hN => hx (h.1 x hN)

/-- Bidirectional completion has nothing to do after removals. -/
theorem Spec.Without.completion {v v6 v7 : View} {N : NodeIndex → Prop} (h : Without N v v6) (hc : Completion S v v6 v7) : Without N v v7 := by
  refine ⟨fun x hx => ?_, fun x hx => ⟨(hc.1 x).trans (h.2 x hx).1, fun s y => ?_⟩⟩
  · have := hc.1 x
    rw [h.1 x hx] at this
    simpa using this
  · rw [hc.2, ← (h.2 x hx).2]
    constructor
    · rintro (⟨h1, _⟩ | ⟨_, _, m, d, ha, _⟩)
      · exact h1
      · exact absurd (h.links.1 ha.2.1).1 ha.2.2
    · intro h1
      refine Or.inl ⟨h1, ?_⟩
      rintro ⟨m, d, hr, he, _⟩
      obtain ⟨n, hn, _⟩ := he.2
      exact hr.2.2 (h.links.2 ⟨hr.2.1, h.exists he.1, h.exists (by rw [hn]; simp)⟩)

variable [SetImpl] {dbg : Bool} {R : World → Call → Prop}

/-- A transaction that only removes nodes removes exactly these nodes and the links to them; every other node keeps its data and its other links. -/
theorem C75_removal (hw : WellNamed S) {g g' : Graph} {t : Trans} (hst : SteadyBidir S t g.get?) (h : Meets S dbg R g t) 
    (hc : g.commit S dbg t = .ok g') {N : NodeIndex → Prop} (hr : OnlyRemoves t.pending N) : Without N g.get? g'.get? := by
  obtain ⟨v6, hp, hcomp⟩ := C03_order hw hst h hc
  exact (performed_without hp hr (h.inv hw).noEmpty).completion hcomp

/-- Such a commit returns if the nodes are there. -/
theorem C75_removal_returns (hw : WellNamed S) {g : Graph} {t : Trans}
    (hst : SteadyBidir S t g.get?) (h : Meets S dbg R g t)
    {N : NodeIndex → Prop} (hr : OnlyRemoves t.pending N) (hN : ∀ i, N i → g.get? i ≠ none) (hfill : ∀ i, ¬ t.pending.unfilled i)
    (hva : SteadyAnnos S t g.get?) : ∃ g', g.commit S dbg t = .ok g' := by
  obtain ⟨_, hctx, _⟩ := h.disjoint hw
  have hvalid : Valid S g.get? t.pending := by
    refine ⟨?_, fun i hi => Or.inl (hN i ((hr.removed i).1 hi)), ?_, ?_, ?_, ?_, ?_⟩
    · rw [hr.muts, hr.upds]; intro i f hf; exact absurd hf (by simp)
    · rw [hr.muts, hr.upds]; intro i f hf; exact absurd hf (by simp)
    · rw [hr.redir]; intro i f hf; exact absurd hf (by simp)
    · rw [hr.redirAll]; intro i f hf; exact absurd hf (by simp)
    · rw [hr.redir]; rintro ⟨i, j, hf, _⟩; exact absurd hf (by simp)
    · rw [hr.redirAll]; rintro ⟨i, j, hf, _⟩; exact absurd hf (by simp)
  obtain ⟨g6, r6, hp, out⟩ := hvalid.perform hw h
  have hwo := performed_without out.performed hr (h.inv hw).noEmpty
  have hall := Trans.allocs_empty (dbg := dbg) (t := t) fun _ => hfill
  rcases Graph.commit_after hw dbg hst (fun _ => hctx) hall hp out with
    ⟨_, hc⟩ | ⟨_, ⟨g', hc, _⟩ | ⟨_, hu, _⟩ | ⟨_, hc⟩ | ⟨_, x, m, y, n, hn, hl, hl', hf⟩ | ⟨_, hc⟩⟩
  · obtain ⟨x, m, y, d, m', ⟨_, h1, h2⟩, ⟨h3, n, h4, _⟩, _⟩ := hc
    exact absurd (hwo.links.2 ⟨h1, hwo.exists h3, hwo.exists (by rw [h4]; simp)⟩) h2
  · exact ⟨g', hc⟩
  · obtain ⟨x, m, y, d, ha, _⟩ := hu
    exact absurd (hwo.links.1 ha.2.1).1 ha.2.2
  · obtain ⟨_, _, _, _, _, ⟨m, d, ha, _⟩, _⟩ := hc
    exact absurd (hwo.links.1 ha.2.1).1 ha.2.2
  · rcases hva x m y with hst | hacc
    · exact absurd (hwo.links.1 hl).1 (hl' hst)
    · rw [(Schema.checkLinkType_iff hw).2 (Schema.permitted_of_accept hw (hacc n.disc))] at hf
      exact absurd hf (by simp)
  · obtain ⟨x, m, y, d, ha, _⟩ := hc
    exact absurd (hwo.links.1 ha.2.1).1 ha.2.2

/-- Insertions can be undone.  `t` only inserts nodes, to which the graph has no links yet, and is committed; then `t'` removes the inserted nodes and
is committed.  The nodes are the same as in the beginning, up to the iteration order of sets: the links that `bidirectional!` lines added to
old nodes are gone too. -/
theorem C75_undo (hw : WellNamed S) {g g1 g2 : Graph} {t t' : Trans} (hst : SteadyBidir S t g.get?) (hst' : SteadyBidir S t' g1.get?)
    (h : Meets S dbg R g t) (hc : g.commit S dbg t = .ok g1)
    (h' : Meets S dbg R g1 t') (hc' : g1.commit S dbg t' = .ok g2) (hi : OnlyInserts t.pending)
    (hr : OnlyRemoves t'.pending fun i => t.pending.new i ≠ none) (hno : ∀ x s y, View.Holds g.get? x s y → t.pending.new y = none) :
    View.Same g.get? g2.get? := by
  obtain ⟨v6, hp, hcomp⟩ := C03_order hw hst h hc
  have hdec : t.dec.elems = [] := List.eq_nil_iff_forall_not_mem.2 hi.removed
  have hs := performed_insert hp hi.redir hi.muts hi.upds hi.redirAll hdec
  obtain ⟨s1, s2⟩ := View.same_iff.1 hs
  have hwo := C75_removal hw hst' h' hc' hr
  have hnew : ∀ x, t.pending.new x ≠ none → g.get? x = none := by
    intro x hx
    obtain ⟨n, hn⟩ := Option.ne_none_iff_exists'.1 hx
    obtain ⟨v1, v2, _, _, _, ⟨ρ, _, a1⟩, a2, _⟩ := hp
    exact (renamed_none a1 x).1 (a2.2 x n hn).1
  have hun : ∀ x, t.pending.new x = none → union t.inc.get? g.get? x = g.get? x := by
    intro x hx
    simp only [union, show t.inc.get? x = none from hx]
  have hold : ∀ x, t.pending.new x = none → ∀ s y, v6.Holds x s y ↔ View.Holds g.get? x s y := by
    intro x hx s y
    rw [s2]
    simp only [View.Holds, hun x hx]
  have holdl : ∀ x, t.pending.new x = none → ∀ m y, v6.Link x m y ↔ View.Link g.get? x m y := by
    intro x hx m y
    rw [hs.link]
    simp only [View.Link, hun x hx]
  refine View.same_iff.2 ⟨fun x => ?_, fun x s y => ?_⟩
  · by_cases hx : t.pending.new x = none
    · rw [(hwo.2 x (fun e => e hx)).1, hcomp.1 x, s1 x, hun x hx]
    · rw [hwo.1 x hx, hnew x hx]
  · by_cases hx : t.pending.new x = none
    · rw [(hwo.2 x (fun e => e hx)).2, hcomp.2]
      constructor
      · rintro ⟨⟨h1, _⟩ | ⟨_, _, m, d, ha, _⟩, h2⟩
        · exact (hold x hx s y).1 h1
        · have hy : t.pending.new y = none := by
            by_contra hy
            exact h2 hy
          exact absurd ((holdl y hy m x).1 ha.2.1) ha.2.2
      · intro h1
        refine ⟨Or.inl ⟨(hold x hx s y).2 h1, ?_⟩, fun hy => hy (hno x s y h1)⟩
        rintro ⟨m, d, hrem, _⟩
        obtain ⟨n, hn, _⟩ := hrem.2.1
        have hy := hno x s y h1
        exact hrem.2.2 ((holdl y hy m x).2 hrem.2.1)
    · constructor
      · rintro ⟨n, hn, _⟩
        rw [hwo.1 x hx] at hn
        exact absurd hn (by simp)
      · rintro ⟨n, hn, _⟩
        rw [hnew x hx] at hn
        exact absurd hn (by simp)

/-- And the second commit returns. -/
theorem C75_undo_returns (hw : WellNamed S) {g g1 : Graph} {t t' : Trans}
    (hst : SteadyBidir S t g.get?) (hst' : SteadyBidir S t' g1.get?)
    (h : Meets S dbg R g t) (hc : g.commit S dbg t = .ok g1) (h' : Meets S dbg R g1 t') (hi : OnlyInserts t.pending)
    (hr : OnlyRemoves t'.pending fun i => t.pending.new i ≠ none) (hfill : ∀ i, ¬ t'.pending.unfilled i) (hva : SteadyAnnos S t' g1.get?)
    (hno : ∀ x s y, View.Holds g.get? x s y → t.pending.new y = none) :
    ∃ g2, g1.commit S dbg t' = .ok g2 ∧ View.Same g.get? g2.get? := by
  obtain ⟨v6, hp, hcomp⟩ := C03_order hw hst h hc
  have hthere : ∀ i, t.pending.new i ≠ none → g1.get? i ≠ none := by
    intro i hi1 hi2
    have h1 := hcomp.1 i
    rw [hi2] at h1
    have h6 : v6 i = none := by simpa using h1.symm
    rcases (performed_none hp i).1 h6 with ⟨_, e⟩ | e
    · exact hi1 e
    · exact hi.removed i e
  obtain ⟨g2, hc'⟩ := C75_removal_returns hw hst' h' hr hthere hfill hva
  exact ⟨g2, hc', C75_undo hw hst hst' h hc h' hc' hi hr hno⟩

end TTGraph

namespace TTGraph
namespace Demo
open Spec

/-- `pair4` (1 is linked with 2 and 4, 3 with 4), and a transaction that inserts 5, linked with 2 and 6, then 6, and 7, linked with 3. -/
def undo7 : List Step :=
  pair4 ++ [.call (.op 1 (.insert (pA 2 [6]))), .call (.op 1 (.insert (pB [] 5))), .call (.op 1 (.insert (pB [] 3)))]

/-- After its commit, a transaction that removes 5, 6 and 7. -/
def undo7r : List Step :=
  undo7 ++ [.call (.commit 0 1), .call (.newTrans 2 0), .call (.op 2 (.remove 6)), .call (.op 2 (.remove 5)), .call (.op 2 (.remove 7))]

/-- C75: all hypotheses hold for these two transactions. -/
example : let g := graphAt (run pair true World.init undo7) 0
    let g1 := graphAt (run pair true World.init undo7r) 0
    let t := transAt (run pair true World.init undo7) 1
    let t' := transAt (run pair true World.init undo7r) 2
    g.commit pair true t = .ok g1 ∧ (g.get? 2, g.get? 3) = (some (pB [1] 0), some (pA 4 [])) ∧
    (g1.get? 2, g1.get? 3) = (some (pB [1, 5] 0), some (pA 4 [7])) ∧ ∃ g2, g1.commit pair true t' = .ok g2 ∧ View.Same g.get? g2.get? := by
  intro g g1 t t'
  have hm : Meets pair true SoundKeep g t := meets_of (reaches_soundKeep pair_named undo7 (by decide +kernel)) 0 1 (by decide +kernel)
  have hm' : Meets pair true SoundKeep g1 t' := meets_of (reaches_soundKeep pair_named undo7r (by decide +kernel)) 0 2 (by decide +kernel)
  have hc : g.commit pair true t = .ok g1 := rfl
  have hnew : ∀ i, t.pending.new i ≠ none ↔ i ∈ ([5, 6, 7] : List NodeIndex) := by
    intro i
    constructor
    · intro hi
      obtain ⟨n, hn⟩ := Option.ne_none_iff_exists'.1 hi
      have := (Arena.mem_entries (i := i) (hm.ready pair_named).good.inv).2 hn
      have h2 : i ∈ (t.inc.entries pair).map Prod.fst := List.mem_map.2 ⟨_, this, rfl⟩
      rw [show (t.inc.entries pair).map Prod.fst = [5, 6, 7] from by decide +kernel] at h2
      exact h2
    · intro hi
      have : ∀ i ∈ ([5, 6, 7] : List NodeIndex), t.inc.get? i ≠ none := by decide +kernel
      exact this i hi
  refine ⟨hc, by decide +kernel, by decide +kernel, ?_⟩
  refine C75_undo_returns pair_named (pair_noVec.steadyBidir _ _) (pair_noVec.steadyBidir _ _) hm hc hm' ⟨?_, by decide +kernel, by decide +kernel, rfl, rfl⟩
    ⟨fun i => ?_, fun i => ?_, by decide +kernel, by decide +kernel, rfl, rfl⟩ ?_ ?_ ?_
  · exact fun i hi => absurd (show i ∈ t.dec.elems from hi) (by rw [show t.dec.elems = [] from by decide +kernel]; simp)
  · rw [hnew]
    show i ∈ t'.dec.elems ↔ _
    rw [show t'.dec.elems = [6, 5, 7] from by decide +kernel]
    simp only [List.mem_cons, List.not_mem_nil, or_false]
    tauto
  · by_contra hi
    obtain ⟨n, hn⟩ := Option.ne_none_iff_exists'.1 hi
    have := (Arena.mem_entries (i := i) (hm'.ready pair_named).good.inv).2 hn
    rw [show t'.inc.entries pair = [] from by decide +kernel] at this
    exact absurd this (by simp)
  · exact OrderSet.isEmpty_iff.1 (show t'.allocs.isEmpty = true from by decide +kernel)
  · exact fun _ _ _ => Or.inr fun _ _ h => (nomatch h)
  · rintro x s y ⟨n, hn, hh⟩
    by_contra hy
    have h1 := (Arena.mem_entries (i := x) (hm.inv pair_named).arena).2 hn
    have h2 : ∀ e ∈ g.nodes.entries pair, ∀ p ∈ e.2.iterSources, p.1 ∉ ([5, 6, 7] : List NodeIndex) := by decide +kernel
    exact h2 _ h1 _ (Node.mem_iterSources.2 hh) ((hnew y).1 hy)

/-- Node 1 is allocated; node 2 with a link to 1 is inserted and committed; then 1 is filled in. -/
def linked2 : List Step :=
  [.call (.newContext 0 77), .call (.newGraph 0 0), .call (.newTrans 1 0), .call (.newTrans 2 0), .call (.op 1 .allocUntyped),
   .call (.op 2 (.insert (nB 1))), .call (.commit 0 2), .call (.op 1 (.fillBackUntyped 1 (nB 2)))]

/-- It is committed, and then removed. -/
def linked2r : List Step := linked2 ++ [.call (.commit 0 1), .call (.newTrans 3 0), .call (.op 3 (.remove 1))]

/-- C75 needs that the graph had no links to the inserted nodes: in `linked2r`, the link of node 2 is not there afterwards. -/
theorem C75_linked_differ : let w := run plain true World.init linked2
    let w' := run plain true World.init linked2r
    let g := graphAt w 0
    let g1 := graphAt w' 0
    Meets plain true AnyCall g (transAt w 1) ∧ Meets plain true AnyCall g1 (transAt w' 3) ∧ OnlyInserts (transAt w 1).pending ∧
    ∃ g2, g.commit plain true (transAt w 1) = .ok g1 ∧ g1.commit plain true (transAt w' 3) = .ok g2 ∧
      g.get? 2 = some (nB 1) ∧ g2.get? 2 = some (nB 0) := by
  intro w w' g g1
  refine ⟨meets_of (reaches linked2 (by decide +kernel)) 0 1 (by decide +kernel), meets_of (reaches linked2r (by decide +kernel)) 0 3 (by decide +kernel),
    ⟨?_, by decide +kernel, by decide +kernel, rfl, rfl⟩, _, rfl, got_ok (d := Graph.new 0) (by decide +kernel), by decide +kernel, by decide +kernel⟩
  exact fun i hi => absurd (show i ∈ (transAt w 1).dec.elems from hi) (by rw [show (transAt w 1).dec.elems = [] from by decide +kernel]; simp)

end Demo
end TTGraph
