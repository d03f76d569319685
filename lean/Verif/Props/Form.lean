import Verif.Lemmas.Build
import Verif.Lemmas.Insert
import Verif.Lemmas.Calm
import Verif.Props.Valid
import Verif.Props.Bidir
import Verif.Props.Types
import Verif.Props.Undo
import Verif.Props.Restore
import Verif.Props.Vec

/-!
# Which graphs there are: C80
-/

set_option autoImplicit false

namespace TTGraph
open Spec
variable {S : Schema}

/-- Well-formedness does not depend on the order of sets. -/
theorem Spec.WellFormed.same {v v' : View} (hs : View.Same v v') (h : WellFormed S v) : WellFormed S v' := by
  have hh := (View.same_iff.1 hs).2
  refine ⟨?_, fun x n hn => ?_, fun x s y hy => ?_, hs.symmetric h.symmetric, fun x m y n hl hn => ?_, fun x m y hk ho k k' h1 h2 => ?_⟩
  · obtain ⟨N, hN⟩ := h.indices
    exact ⟨N, fun x hx => hN x fun e => hx ((hs.none_iff x).2 e)⟩
  · obtain ⟨n0, hn0, e⟩ := hs.symm.some hn
    exact Schema.wt_of_shape (Node.Renamed.shape e).symm (h.nodes x n0 hn0)
  · exact (h.internal x s y ((hh x s y).1 hy)).imp id fun e e' => e ((hs.none_iff y).1 e')
  · obtain ⟨n0, hn0, e⟩ := hs.symm.some hn
    have := h.typed x m y n0 ((hs.link x m y).1 hl) hn0
    rwa [e.1] at this
  · exact h.once x m y hk ho k k' ((hh x _ y).1 h1) ((hh x _ y).1 h2)

variable [SetImpl] {dbg : Bool} {R : World → Call → Prop}

omit [SetImpl] in
/-- A transaction that only inserts the nodes of a well-formed state is steady for the empty graph. -/
theorem WellFormed.steady {u : Nat} {t : Trans} (ho : OnlyInserts t.pending) (hf : WellFormed S t.pending.new) :
    SteadyBidir S t (Graph.new u).get? ∧ SteadyAnnos S t (Graph.new u).get? := by
  have key : ∀ x m y, (S.kind? m = some .vec → View.Once t.inc.get? x m y) → Steady S t (Graph.new u).get? x m y := by
    intro x m y h
    by_cases hk : S.kind? m = some .vec
    · refine steady_of ho.redir ho.redirAll (fun k k' h1 => ?_) (h hk) fun f hf => ?_
      · obtain ⟨n, hn, _⟩ := h1
        exact absurd hn (by simp [Graph.new, Graph.get?])
      · rw [show t.muts = [] from ho.muts, show t.upds = [] from ho.upds] at hf
        exact absurd hf (by simp)
    · exact Or.inl hk
  refine ⟨fun x m y m' hop => key x m y fun hk => hf.once x m y hk (Or.inl ⟨m', hop⟩), fun x m y => ?_⟩
  by_cases ha : ∀ d, AllAccept S m d
  · exact Or.inr ha
  · exact Or.inl (key x m y fun hk => hf.once x m y hk (Or.inr ha))

/-- Any well-formed state can be inserted into an empty graph by one transaction: `t` has all its nodes, under their indices, and does nothing else.
Its commit returns, and the graph is in this state: nothing is added by bidirectional completion. -/
theorem C80_inserted (hw : WellNamed S) (hd : DeclaredOnce S) (hone : OneOpposite S) {u : Nat} {t : Trans} (h : Meets S dbg R (Graph.new u) t)
    (ho : OnlyInserts t.pending) (hfill : ∀ i, ¬ t.pending.unfilled i) (hf : WellFormed S t.pending.new) :
    ∃ g', (Graph.new u).commit S dbg t = .ok g' ∧ View.Same t.pending.new g'.get? := by
  have hst := (WellFormed.steady (u := u) ho hf).1
  have h0 : ∀ x, (Graph.new u).get? x = none := fun x => by simp [Graph.new, Graph.get?]
  have hdec : t.dec.elems = [] := List.eq_nil_iff_forall_not_mem.2 ho.removed
  have hsame : ∀ v6, Performed t (Graph.new u).get? v6 → View.Same t.pending.new v6 := fun v6 hp => by
    have := performed_insert hp ho.redir ho.muts ho.upds ho.redirAll hdec
    rwa [show union t.inc.get? (Graph.new u).get? = t.pending.new from funext fun x => by
      simp only [union, Trans.pending]
      split
      · next n hn => exact hn.symm
      · next hn => rw [hn, h0]] at this
  have hrem : ∀ v6 x m y, ¬ RemovedLink (Graph.new u).get? v6 x m y := by
    rintro v6 x m y ⟨_, ⟨n, hn, _⟩, _⟩
    rw [h0] at hn
    exact absurd hn (by simp)
  have hret : ∃ g', (Graph.new u).commit S dbg t = .ok g' := by
    refine C13_commit_succeeds hw hst h (fun _ => hfill) ⟨?_, fun i hi => absurd hi (ho.removed i), ?_, ?_, ?_, ?_, ?_⟩ (fun v6 hp => ?_)
    · rw [ho.muts, ho.upds]; intro i f hf; exact absurd hf (by simp)
    · rw [ho.muts, ho.upds]; intro i f hf; exact absurd hf (by simp)
    · rw [ho.redir]; intro i f hf; exact absurd hf (by simp)
    · rw [ho.redirAll]; intro i f hf; exact absurd hf (by simp)
    · rw [ho.redir]; rintro ⟨i, j, hf, _⟩; exact absurd hf (by simp)
    · rw [ho.redirAll]; rintro ⟨i, j, hf, _⟩; exact absurd hf (by simp)
    · have hs := hsame v6 hp
      have hdem : ∀ y m' x, Demanded S (Graph.new u).get? v6 y m' x → View.Link t.pending.new y m' x := by
        rintro y m' x ⟨m, d, ha, he, hopp, hd, _⟩
        exact (hs.link y m' x).1 (restore_opposite hs hf.symmetric ha.2.1 he hopp hd)
      refine ⟨?_, not_undecided hw hone hd _ _, ⟨?_, ?_⟩, fun x m y n hch hn => ?_⟩
      · rintro ⟨y, m', x, i, hk, h1, hne, h2⟩
        refine hne (Graph.direct_unique hf.nodes hk ?_ (hdem y m' x h1))
        rcases h2 with h2 | h2
        · exact (hs.link y m' i).1 h2.1
        · exact hdem y m' i h2
      · rintro ⟨x, m, y, d, m', k1, _⟩
        exact hrem v6 x m y k1
      · rintro ⟨x, m, y, d, ha, he, ⟨m', h1, h2⟩, h3⟩
        exact (h3 m' h1 h2).2 (restore_opposite hs hf.symmetric ha.2.1 he h1 h2)
      · obtain ⟨n0, hn0, hsame⟩ := hs.symm.some hn
        have := hf.typed x m y n0 ((hs.link x m y).1 hch.1) hn0
        rw [hsame.1] at this
        exact Schema.permitted_of_accept hw this
  obtain ⟨g', hc⟩ := hret
  obtain ⟨v6, hp, hcomp⟩ := C03_order hw hst h hc
  have hs := hsame v6 hp
  exact ⟨g', hc, hs.trans (completion_symmetric (hf.same hs).nodes hcomp (hf.same hs).symmetric (hrem v6))⟩

omit [SetImpl] in
/-- The calls that build a transaction are careful. -/
theorem careful_permits : Permits (Careful S) :=
  ⟨fun _ => ⟨trivial, trivial, trivial, trivial, trivial⟩, fun _ => ⟨trivial, trivial, trivial, trivial, trivial⟩,
   fun _ => ⟨trivial, trivial, trivial, trivial, trivial⟩, fun _ => ⟨trivial, trivial, trivial, trivial, trivial⟩,
   fun _ _ _ => ⟨trivial, trivial, trivial, trivial, trivial⟩, fun _ _ => ⟨trivial, trivial, trivial, trivial, trivial⟩⟩

/-- Every well-formed state is the state of a graph that a careful program has after its first commit: it can have an empty graph and a transaction
whose commit is careful, returns, and leads to this state. -/
theorem C80_built (hw : WellNamed S) (hd : DeclaredOnce S) (hone : OneOpposite S) (dbg : Bool) {v : View} (hf : WellFormed S v) :
    ∃ w u t g', Reaches S dbg (Careful S) w ∧ w.graph 0 = some (0, Graph.new u) ∧ w.trans 0 = some (0, t) ∧ t.pending.new = v ∧
      Careful S w (.commit 0 0) ∧ (Graph.new u).commit S dbg t = .ok g' ∧ View.Same v g'.get? := by
  obtain ⟨N, hN⟩ := hf.indices
  obtain ⟨w, t, hp⟩ := preparing_all (dbg := dbg) hw (careful_permits (S := S)) hf.nodes hN
  have hf' : WellFormed S t.pending.new := hp.new ▸ hf
  obtain ⟨g', hc, hs⟩ := C80_inserted hw hd hone (u := 1) ⟨w, 0, 0, 0, hp.reaches, hp.graph, hp.trans⟩ hp.only
    (fun i hi => by have := (hp.unfilled i).1 hi; omega) hf'
  rw [hp.new] at hs
  refine ⟨w, 1, t, g', hp.reaches, hp.graph, hp.trans, hp.new, ⟨?_, trivial, trivial, ?_, ?_⟩, hc, hs⟩
  · intro c g c' t' hg ht
    rw [hp.trans, Option.some.injEq, Prod.mk.injEq] at ht
    obtain ⟨_, rfl⟩ := ht
    refine ⟨?_, ?_⟩
    · rintro y ⟨x, s, hy⟩
      exact (hf'.internal x s y hy).imp id Or.inr
    · rw [hp.only.redir, hp.only.redirAll]
      intro a b hab
      exact absurd hab (by simp)
  · intro c c' g t' hg ht
    rw [hp.trans, Option.some.injEq, Prod.mk.injEq] at ht
    rw [hp.graph, Option.some.injEq, Prod.mk.injEq] at hg
    obtain ⟨_, rfl⟩ := ht
    obtain ⟨_, rfl⟩ := hg
    exact (WellFormed.steady hp.only hf').1
  · intro c c' g t' hg ht
    rw [hp.trans, Option.some.injEq, Prod.mk.injEq] at ht
    rw [hp.graph, Option.some.injEq, Prod.mk.injEq] at hg
    obtain ⟨_, rfl⟩ := ht
    obtain ⟨_, rfl⟩ := hg
    exact (WellFormed.steady hp.only hf').2

/-- `Vec` fields that are bidirectional or annotated hold no node twice. -/
theorem once_closed (hw : WellNamed S) : Closed S dbg (Careful S)
    (fun g => ∀ x m y, S.kind? m = some .vec → ((∃ m', Opposite S m m') ∨ ¬ ∀ d, AllAccept S m d) → View.Once g.get? x m y) (fun _ => True) where
  newGraph u x m y _ _ k k' h1 := by
    obtain ⟨n, hn, _⟩ := h1
    simp [Graph.new, Graph.get?] at hn
  newTrans _ := trivial
  op := fun _ _ _ _ _ _ _ => trivial
  merge := fun _ _ _ _ _ _ _ _ => trivial
  commit := by
    intro w k h g g' t _ hm hr ⟨c1, hg⟩ ⟨c2, ht⟩ _ _ hc x m y hk ho
    have hsb : SteadyBidir S t g.get? ∧ SteadyAnnos S t g.get? := by
      rcases hr with hr | ⟨cs, hr⟩
      · exact ⟨hr.2.2.2.1 _ _ _ _ hg ht, hr.2.2.2.2 _ _ _ _ hg ht⟩
      · exact ⟨hr.2.2.2.1 _ _ _ _ hg ht, hr.2.2.2.2 _ _ _ _ hg ht⟩
    refine Steady.after ?_ (C03_order hw hsb.1 hm hc) hk
    rcases ho with ⟨m', ho⟩ | ho
    · exact hsb.1 x m y m' ho
    · exact (hsb.2 x m y).resolve_right ho
  caught := fun _ _ hr _ _ _ _ _ => absurd hr.1 id
  switch := fun _ _ h _ _ _ => absurd h.2.2.1 id
  deserialize := fun _ h _ _ => absurd h.2.2.1 id

/-- Every graph of a careful program is well formed. -/
theorem C80_wellformed (hw : WellNamed S) (hone : OneOpposite S) (ha : AnnotatedOnce S) (hfit : AnnosFit S) {g : Graph}
    (h : Reachable S dbg (Careful S) g) : WellFormed S g.get? := by
  have hI : ∀ g, Reachable S dbg (Careful S) g → Internal g.get? := fun _ hg => C12_internal_partial hw (fun _ _ h => h.1) hg
  have hi := h.inv hw
  refine ⟨?_, hi.wt, hI g h,
    (symmetric_closed hw (fun _ _ h => h.2.2.2.1) hone (fun _ _ h => h.2.1) (fun _ _ h => h.1.noCatch) hI).reachable h,
    C27_reachable_partial hw (fun _ _ h => h.2.2.2.1) ha hfit (fun _ _ h => h.2.2.2.2) (fun _ _ h => h.2.1) (fun _ _ h => h.2.2.1) (fun _ _ h => h.1) h,
    (once_closed hw).reachable h⟩
  refine ⟨(g.nodes.entries S).foldl (fun m e => max m e.1) 0, fun x hx => ⟨?_, ?_⟩⟩
  · rintro rfl
    exact hx hi.noEmpty
  · obtain ⟨n, hn⟩ := Option.ne_none_iff_exists'.1 hx
    exact (Graph.le_maxIndex _ 0).1 (x, n) ((Arena.mem_entries hi.arena).2 hn)

/-- The states of the graphs of careful programs are exactly the well-formed ones. -/
theorem C80_exactly (hw : WellNamed S) (hd : DeclaredOnce S) (hone : OneOpposite S) (ha : AnnotatedOnce S) (hfit : AnnosFit S) (dbg : Bool) (v : View) :
    (∃ g, Reachable S dbg (Careful S) g ∧ View.Same v g.get?) ↔ WellFormed S v := by
  constructor
  · rintro ⟨g, hg, hs⟩
    exact (C80_wellformed hw hone ha hfit hg).same hs.symm
  · intro hf
    obtain ⟨w, u, t, g', hr, hg, ht, _, hR, hc, hs⟩ := C80_built hw hd hone dbg hf
    refine ⟨g', ⟨w.exec S dbg (.commit 0 0), 0, 0, hr.step (fun c t1 c' g1 h1 h2 => ?_) hR, ?_⟩, hs⟩
    · rw [ht, Option.some.injEq, Prod.mk.injEq] at h1
      rw [hg, Option.some.injEq, Prod.mk.injEq] at h2
      rw [← h1.1, ← h2.1]
    · simp only [World.exec, ht, hg, hc]
      simp [World.setGraph, World.put]

end TTGraph

namespace TTGraph
namespace Demo
open Spec

/-- Programs over `typed` are careful if they are sound, keep variants and load nothing. -/
theorem typed_careful (l : List Step)
    (hok : runOk typed true (fun w s => soundStep typed w s && keepStep w s && noLoadsStep w s) [] World.init l = true) :
    Reaches typed true (Careful typed) (run typed true World.init l) :=
  (reaches_soundKeepNoLoads typed_named l hok).mono fun w c h =>
    ⟨h.1.1, h.1.2, h.2, typed_noVec.steadyBidirCalls w c, (noVecAnnos_sound typed_named (by decide)).steadyCalls w c⟩

/-- C80: the hypotheses of `C80_wellformed`, `C80_built` and `C80_exactly` are met by `typed`, a declaration with bidirectional and annotated links, and by a
state in which nodes link to each other in both directions. -/
example : WellNamed typed ∧ DeclaredOnce typed ∧ OneOpposite typed ∧ AnnotatedOnce typed ∧ AnnosFit typed ∧
    ∃ g, Reachable typed true (Careful typed) g ∧ g.get? 1 = some (pA 4 [2, 4]) ∧ g.get? 2 = some (pB [] 1) ∧ g.get? 4 = some (pB [1] 1) ∧
      WellFormed typed g.get? := by
  have hr : Reachable typed true (Careful typed) (graphAt (run typed true World.init (pair5 ++ [.call (.commit 0 1)])) 0) :=
    reachable_of (typed_careful (pair5 ++ [.call (.commit 0 1)]) (by decide +kernel)) 0 (by decide +kernel)
  have hfit := annosFit_sound typed_named typed_annos (by decide)
  exact ⟨typed_named, typed_once, typed_one, typed_annos, hfit, _, hr, by decide +kernel, by decide +kernel, by decide +kernel,
    C80_wellformed typed_named typed_one typed_annos hfit hr⟩

/-- C80: the same for a declaration with a bidirectional `Vec`. -/
example : WellNamed owner ∧ DeclaredOnce owner ∧ OneOpposite owner ∧ AnnotatedOnce owner ∧ AnnosFit owner ∧
    ∃ g, Reachable owner true (Careful owner) g ∧ g.get? 1 = none ∧ g.get? 2 = some (cC 3) ∧ g.get? 3 = some (cP [2, 0]) ∧
      g.get? 4 = some (cC 5) ∧ g.get? 5 = some (cP [4]) ∧ WellFormed owner g.get? := by
  have han : AnnotatedOnce owner := fun a ha => absurd ha (by simp [owner])
  have hfit : AnnosFit owner := fun m m' _ a ha => absurd ha (by simp [owner])
  have hr : Reachable owner true (Careful owner) (graphAt (run owner true World.init own6) 0) := by
    refine reachable_of (w := run owner true World.init own6) ?_ 0 (by decide +kernel)
    refine reaches_where (us := []) (r := fun w s => soundStep owner w s && keepStep w s && noLoadsStep w s && steadyStep owner w s)
      (fun w s h hs => ?_) own6 .init (fun _ _ h => absurd h (by simp [World.init])) (by decide +kernel)
    simp only [Bool.and_eq_true] at hs
    exact ⟨soundStep_ok owner_named w s h hs.1.1.1, keepStep_ok w s hs.1.1.2, noLoadsStep_ok w s hs.1.2, steadyStep_bidir owner_named w s h hs.2,
      steadyStep_ok owner_named w s h hs.2⟩
  exact ⟨owner_named, owner_once, owner_one, han, hfit, _, hr, by decide +kernel, by decide +kernel, by decide +kernel, by decide +kernel,
    by decide +kernel, C80_wellformed owner_named owner_one han hfit hr⟩

/-- One child and a parent that does not have it. -/
def half : View := fun i => if i = 1 then some (cC 2) else if i = 2 then some (cP []) else none

/-- C80: no careful program ever has a graph in this state. -/
example : ¬ ∃ g, Reachable owner true (Careful owner) g ∧ View.Same half g.get? := by
  intro h
  have hf := (C80_exactly owner_named owner_once owner_one (fun a ha => absurd ha (by simp [owner])) (fun m m' _ a ha => absurd ha (by simp [owner])) true half).1 h
  obtain ⟨n, hn, k, hk⟩ := hf.symmetric 1 ⟨1, 0⟩ 2 (cP []) ⟨2, 0⟩ ⟨cC 2, rfl, 0, rfl, .direct 2, rfl, rfl, rfl, by decide⟩ rfl
    ((Schema.mem_mirrorsOf owner_named).1 (by decide)) rfl
  rw [show half 2 = some (cP []) from rfl, Option.some.injEq] at hn
  subst hn
  have := Node.mem_iterSources.2 hk
  rw [show (cP []).iterSources = [] from by decide] at this
  exact absurd this (by simp)

end Demo
end TTGraph
