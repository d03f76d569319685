import Verif.Lemmas.Nested
import Verif.Props.Effects

/-!
# C77: closures that call the API

A closure given to `mutate` or `update` may use other graphs and transactions while it runs: build transactions, commit them to other graphs,
draw indices from the same context, with closures that do the same, to any depth.  The call that runs the closure does not notice: the effect is
that of the closure's calls first and then the call with closures that only return their results.  So all properties that are proved for
programs without such closures hold here as well, for every graph and every commit, at every depth.
-/

set_option autoImplicit false

namespace TTGraph
open Spec

variable [SetImpl] {S : Schema} {dbg : Bool} {σ : Type}

/-- C77.  What the closures of calls in progress do leaves the graphs and transactions that these calls hold as they are. -/
theorem C77_held {R : EWorld σ → ECall σ → Prop} {b : Busy} {w w' : EWorld σ} (h : Goes S dbg R b w w') :
    (∀ g, b.graph g → w'.world.graph g = w.world.graph g) ∧ ∀ k, b.trans k → w'.world.trans k = w.world.trans k ∧ w'.pend k = w.pend k :=
  ⟨h.spared.graph, fun k hk => ⟨h.spared.trans k hk, h.spared.pend k hk⟩⟩

/-- C77.  A commit whose closures lead the program from `w1` to `w2` does to `w2` what a commit does whose closures are functions: these are
possible behaviours of the closures, and they can be in place in any state that `w2` can be. -/
theorem C77_flat {R : EWorld σ → ECall σ → Prop} {b : Busy} {w1 w2 : EWorld σ} {g k c : Nat} {t : Trans} {gr : Graph} {q : Pend (EWorld σ)}
    {r : Except Panic Graph} (ht : w1.world.trans k = some (c, t)) (hg : w1.world.graph g = some (c, gr)) (hd : DeepPend (w1.pend k) q)
    (hrun : gr.commitE S dbg t q w1 = (r, w2)) (h2 : Goes S dbg R (b.commit g k) w1 w2) :
    ∃ t', Poses (some (c, t)) (w1.pend k) (some (c, t')) ∧ gr.commit S dbg t' = r ∧
      ∀ w', Shadow (w2.committed g k c (r, w2.env)) w' →
        ∃ w, Shadow w2 w ∧ w.trans k = some (c, t') ∧ Call.Allowed S w (.commit g k) ∧ w.exec S dbg (.commit g k) = w' :=
  nested_commit ht hg hd hrun h2

/-- C77.  The same for `commit_checked`. -/
theorem C77_flat_checked {R : EWorld σ → ECall σ → Prop} {b : Busy} {w1 w2 : EWorld σ} {g k c : Nat} {t : Trans} {gr : Graph}
    {q : Pend (EWorld σ)} {cs : GraphCheck} {r : Except Panic Graph} (ht : w1.world.trans k = some (c, t)) (hg : w1.world.graph g = some (c, gr))
    (hd : DeepPend (w1.pend k) q) (hrun : gr.commitCheckedE S dbg t q cs w1 = (r, w2)) (h2 : Goes S dbg R (b.commit g k) w1 w2) :
    ∃ t', Poses (some (c, t)) (w1.pend k) (some (c, t')) ∧ gr.commitChecked S dbg t' cs = r ∧
      ∀ w', Shadow (w2.committed g k c (r, w2.env)) w' →
        ∃ w, Shadow w2 w ∧ w.trans k = some (c, t') ∧ Call.Allowed S w (.commitChecked g k cs) ∧ w.exec S dbg (.commitChecked g k cs) = w' :=
  nested_commitChecked ht hg hd hrun h2

/-- C77.  Take any state of a program whose closures call the API, also a state in the middle of calls, and put, in the place of each closure
that waits, any function that on every node does what the closure may do.  The result is a state of a program of `Model/World.lean`, in which no
closure calls the API. -/
theorem C77_programs {R : World → Call → Prop} {s : σ} {b : Busy} {ew : EWorld σ} (h : NReaches S dbg (Whatever R) s b ew) :
    (∃ w, Shadow ew w) ∧ ∀ w, Shadow ew w → Reaches S dbg R w := ⟨Shadow.ex ew, h.grounded⟩

/-- C77.  Every graph of such a program, at any time, is a graph of a program whose closures are functions. -/
theorem C77_graphs {R : World → Call → Prop} {s : σ} {b : Busy} {ew : EWorld σ} (h : NReaches S dbg (Whatever R) s b ew) {k c : Nat} {g : Graph}
    (hg : ew.world.graph k = some (c, g)) : Reachable S dbg R g := by
  obtain ⟨w, hw⟩ := Shadow.ex ew
  exact ⟨w, k, c, h.grounded w hw, by rw [hw.graph]; exact hg⟩

/-- C77.  When such a program commits the transaction `t` to the graph `g`, at any depth, a program whose closures are functions can be about to
commit a transaction with the same operations to the same graph, and the two commits have the same result, whatever API calls the closures
make. -/
theorem C77_commits {R : World → Call → Prop} {s : σ} {b : Busy} {ew : EWorld σ} (h : NReaches S dbg (Whatever R) s b ew) {j k c : Nat} {g : Graph}
    {t : Trans} (hg : ew.world.graph j = some (c, g)) (ht : ew.world.trans k = some (c, t)) {q : Pend (EWorld σ)} (hd : DeepPend (ew.pend k) q) :
    ∃ t', Poses (some (c, t)) (ew.pend k) (some (c, t')) ∧ Meets S dbg R g t' ∧ g.commit S dbg t' = (g.commitE S dbg t q ew).1 := by
  obtain ⟨l, hl⟩ := Graph.commitE_calls S dbg g t q ew
  obtain ⟨t', h3, h4⟩ := CommitCalls.deep (com := fun t' => g.commit S dbg t') hl hd c
  obtain ⟨w, hw, hk⟩ := shadow_with ht h3
  exact ⟨t', h3, ⟨w, j, k, c, h.grounded w hw, by rw [hw.graph]; exact hg, hk⟩, h4⟩

/-- C77.  The same for `commit_checked`. -/
theorem C77_commits_checked {R : World → Call → Prop} {s : σ} {b : Busy} {ew : EWorld σ} (h : NReaches S dbg (Whatever R) s b ew) {j k c : Nat}
    {g : Graph} {t : Trans} (cs : GraphCheck) (hg : ew.world.graph j = some (c, g)) (ht : ew.world.trans k = some (c, t)) {q : Pend (EWorld σ)}
    (hd : DeepPend (ew.pend k) q) :
    ∃ t', Poses (some (c, t)) (ew.pend k) (some (c, t')) ∧ Meets S dbg R g t' ∧ g.commitChecked S dbg t' cs = (g.commitCheckedE S dbg t q cs ew).1 := by
  obtain ⟨l, hl⟩ := Graph.commitCheckedE_calls S dbg g t q cs ew
  obtain ⟨t', h3, h4⟩ := CommitCalls.deep (com := fun t' => g.commitChecked S dbg t' cs) hl hd c
  obtain ⟨w, hw, hk⟩ := shadow_with ht h3
  exact ⟨t', h3, ⟨w, j, k, c, h.grounded w hw, by rw [hw.graph]; exact hg, hk⟩, h4⟩

/-- C77.  Every program satisfies `AnyCall` and `NoCatch`; if its closures keep the variant, it satisfies `KeepVariants`. -/
theorem C77_restrictions {s : σ} {b : Busy} {ew : EWorld σ} :
    (NReaches S dbg EAny s b ew → NReaches S dbg (Whatever AnyCall) s b ew) ∧ (NReaches S dbg EAny s b ew → NReaches S dbg (Whatever NoCatch) s b ew) ∧
    (NReaches S dbg EKeepVariants s b ew → NReaches S dbg (Whatever KeepVariants) s b ew) :=
  ⟨fun h => h.weaken fun _ _ _ _ => whatever_any, fun h => h.weaken fun _ _ h1 _ => whatever_noCatch h1, fun h => h.weaken fun _ _ => whatever_keep⟩

/-- C77.  The programs of C64, whose closures do not call the API, are a special case. -/
theorem C77_special {R : EWorld σ → ECall σ → Prop} {s : σ} {ew : EWorld σ} (h : EReaches S dbg R s ew) : NReaches S dbg R s Busy.none ew :=
  .run .init h.goes

end TTGraph

/-! ### A program that meets the hypotheses -/

namespace TTGraph.Demo
open Spec

/-- Graph 0 has node 1.  Transaction 1 has a `stamp` waiting for it.  Graph 1 and transaction 2 are empty. -/
def nest : List EStep := [.call (.newContext 0 5), .call (.newGraph 0 0), .call (.newGraph 1 0), .call (.newTrans 0 0),
  .call (.op 0 (.insert (nA 0 [] [] 7))), .commit 0 0, .call (.newTrans 1 0), .call (.newTrans 2 0), .stamp 1 1]

/-- The state after these calls. -/
def nestAt : EWorld Nat := erun plain true (EWorld.init 0) nest

theorem nest_reaches : EReaches plain true EAny 0 nestAt := ereaches nest (by decide +kernel)

/-- The closure inserts a node into transaction 2 … -/
def mid (w : EWorld Nat) : EWorld Nat := w.exec plain true (.plain (.op 2 (.insert (nA 0 [] [] 9))))

/-- … and commits it to graph 1. -/
def inner (w : EWorld Nat) : EWorld Nat := (mid w).exec plain true (.commit 1 2)

/-- The state before the commit inside the closure. -/
def midAt : EWorld Nat := mid nestAt

/-- The closure. -/
def inserting : EClosure (EWorld Nat) := fun n w => ((stamp n w.env).1, inner w)

/-- The commit of transaction 1 to graph 0 with that closure. -/
def nestRun : Except Panic Graph × EWorld Nat :=
  Graph.commitE plain true (graphAt nestAt.world 0) (transAt nestAt.world 1) ⟨[(1, inserting)], []⟩ nestAt

theorem graph_there {w : World} {k c : Nat} (h : (w.graph k).map Prod.fst = some c) : w.graph k = some (c, graphAt w k) := by
  obtain ⟨⟨c, g⟩, h1, h2⟩ := Option.map_eq_some_iff.1 h
  simp only at h2
  subst h2
  simp [graphAt, h1]

theorem trans_there {w : World} {k c : Nat} (h : (w.trans k).map Prod.fst = some c) : w.trans k = some (c, transAt w k) := by
  obtain ⟨⟨c, g⟩, h1, h2⟩ := Option.map_eq_some_iff.1 h
  simp only at h2
  subst h2
  simp [transAt, h1]

theorem nest_pend : nestAt.pend 1 = ⟨[(1, stamp)], []⟩ := rfl

theorem nest_deep : DeepPend (nestAt.pend 1) ⟨[(1, inserting)], []⟩ := by
  rw [nest_pend]
  exact ⟨.cons ⟨rfl, fun n w => ⟨w.env, rfl⟩⟩ .nil, .nil⟩

/-- The closure runs: graph 0 gets the stamped node, graph 1 the inserted one, with the next index of the context. -/
example : (got (Graph.new 0) nestRun.1).get? 1 = some (nA 0 [] [] 0) ∧ (graphAt nestRun.2.world 1).get? 2 = some (nA 0 [] [] 9) := by decide +kernel

theorem nest_end : nestRun.2 = inner nestAt := rfl

/-- The first call of the closure leaves graph 0 and transaction 1 alone. -/
theorem nest_mid : Goes plain true EAny (Busy.none.commit 0 1) nestAt midAt := by
  refine .step (e := .plain (.op 2 (.insert (nA 0 [] [] 9)))) (.done _ _) ?_ ?_ trivial
  · refine ⟨fun g h => h.elim, fun k h => ?_⟩
    simp only [Call.usesTrans] at h
    subst h
    simp [Busy.commit, Busy.none]
  · exact ⟨trivial, fun _ _ _ => wt_sound (by decide +kernel)⟩

/-- So do both. -/
theorem nest_inner : Goes plain true EAny (Busy.none.commit 0 1) nestAt (inner nestAt) :=
  .step (e := .commit 1 2) nest_mid (by simp [Free, Busy.commit, Busy.none]) (sameCtx_sound (by decide +kernel)) trivial

/-- The program with the commit. -/
theorem nest_run : NReaches plain true EAny 0 Busy.none (nestRun.2.committed 0 1 0 (nestRun.1, nestRun.2.env)) :=
  .run (C77_special nest_reaches)
    (.commit (.done _ _) (fun h => h) (fun h => h) (trans_there (by decide +kernel)) (graph_there (by decide +kernel)) nest_deep rfl nest_inner trivial)

/-- `C77_graphs` applies to both graphs after it. -/
example : Reachable plain true AnyCall (graphAt (nestRun.2.committed 0 1 0 (nestRun.1, nestRun.2.env)).world 0) ∧
    Reachable plain true AnyCall (graphAt (nestRun.2.committed 0 1 0 (nestRun.1, nestRun.2.env)).world 1) :=
  ⟨C77_graphs (C77_restrictions.1 nest_run) (graph_there (c := 0) (by decide +kernel)),
    C77_graphs (C77_restrictions.1 nest_run) (graph_there (c := 0) (by decide +kernel))⟩

/-- `C77_commits` applies to the commit inside the closure. -/
example : ∃ t' g', Meets plain true AnyCall (graphAt midAt.world 1) t' ∧ Graph.commit plain true (graphAt midAt.world 1) t' = .ok g' := by
  have h : NReaches plain true EAny 0 (Busy.none.commit 0 1) midAt :=
    .run (.enter (C77_special nest_reaches) (fun _ h => h.elim) (fun _ h => h.elim)) nest_mid
  obtain ⟨t', _, h1, h2⟩ := C77_commits (C77_restrictions.1 h) (graph_there (k := 1) (c := 0) (by decide +kernel))
    (trans_there (k := 2) (by decide +kernel)) (q := ⟨[], []⟩) ⟨.nil, .nil⟩
  exact ⟨t', _, h1, h2.trans (got_ok (d := Graph.new 0) (by decide +kernel))⟩

end TTGraph.Demo
