import Verif.Demo.Traced
import Verif.Demo.Decls
import Verif.Lemmas.Contexts
import Verif.Lemmas.Insert
import Verif.Lemmas.Errors
import Verif.Lemmas.Unwind
import Verif.Props.Commit
import Verif.Spec.Worlds

/-!
# Programs with several graphs and contexts: C34, C36, C37, C38
-/

set_option autoImplicit false

namespace TTGraph
open Spec
variable [SetImpl] {S : Schema} {dbg : Bool} {R : World → Call → Prop}

/-! ### C37: building or dropping a transaction does not change any graph -/

/-- Calls made on other graphs, on transactions and on contexts, in any number and order, leave the graph as it is.  Methods of transactions,
`give_up` and dropping a transaction are calls of this kind for every graph; so is committing to another graph. -/
theorem C37_frame (w : World) (h : Nat) (l : List Call) (hl : ∀ call ∈ l, ¬ UsesGraph h call) : (runCalls S dbg w l).graph h = w.graph h := by
  induction l generalizing w with
  | nil => rfl
  | cons call l ih =>
    have := ih (w.exec S dbg call) (fun c hc => hl c (List.mem_cons_of_mem _ hc))
    exact this.trans (exec_graph w call h (hl call List.mem_cons_self))

/-- Building transactions and giving them up changes no graph at all. -/
theorem C37_building (w : World) (l : List Call)
    (hl : ∀ call ∈ l, (∃ k c, call = .newTrans k c) ∨ (∃ k o, call = .op k o) ∨ ∃ k, call = .dropTrans k) :
    (runCalls S dbg w l).graph = w.graph := by
  funext h
  refine C37_frame w h l fun call hc => ?_
  rcases hl call hc with ⟨k, c, rfl⟩ | ⟨k, o, rfl⟩ | ⟨k, rfl⟩ <;> exact id

/-- What a graph holds after a commit depends only on what it held before and on the committed transaction, not on the rest of the program:
on other graphs, other transactions, counters, and the way in which graph and transaction came about. -/
theorem C37_commit (w w' : World) (h k h' k' : Nat) {c c' ct ct' : Nat} {g : Graph} {t : Trans} (hg : w.graph h = some (c, g))
    (hg' : w'.graph h' = some (c', g)) (ht : w.trans k = some (ct, t)) (ht' : w'.trans k' = some (ct', t)) :
    ((w.exec S dbg (.commit h k)).graph h).map Prod.snd = ((w'.exec S dbg (.commit h' k')).graph h').map Prod.snd := by
  simp only [World.exec, hg, ht, hg', ht']
  cases g.commit S dbg t <;> simp [World.setGraph, World.setTrans, World.put]

/-! ### C36: transactions of another context -/

/-- With debug assertions, a transaction of another context is refused, and the graph is not changed.  The contexts of the program come from
`Context::new()`, at most one from `Context::default()`. -/
theorem C36_partial (hw : WellNamed S) (hR : ∀ w c, R w c → NewContexts w c) {w : World} (h : Reaches S dbg R w)
    {gh k c c' : Nat} {g : Graph} {t : Trans} (hg : w.graph gh = some (c, g)) (ht : w.trans k = some (c', t)) (hne : c ≠ c') (checks : GraphCheck) :
    g.commit S true t = .error .ctxMismatch ∧ g.commitChecked S true t checks = .error .ctxMismatch ∧ g.commitLeft S true t = some g := by
  obtain ⟨x, hx, hgx, _⟩ := (h.inv hw).graph _ _ _ hg
  obtain ⟨x', hx', htx, _⟩ := (h.inv hw).trans _ _ _ ht
  have hid : t.ctxId ≠ g.ctxId := by
    rw [hgx, htx]
    exact fun e => hne (ids_inj hR h hx hx' e.symm)
  simp [Graph.commit, Graph.commitChecked, Graph.doCommit, Graph.commitLeft, Graph.commitLeftWith, hid]

/-- A graph of another context cannot be merged into a transaction, in debug and in release builds. -/
theorem C34_refused (hw : WellNamed S) (hR : ∀ w c, R w c → NewContexts w c) {w : World} (h : Reaches S dbg R w)
    {gh k c c' : Nat} {g : Graph} {t : Trans} (hg : w.graph gh = some (c, g)) (ht : w.trans k = some (c', t)) (hne : c ≠ c') :
    t.merge g = .error .ctxMismatch := by
  obtain ⟨x, hx, hgx, _⟩ := (h.inv hw).graph _ _ _ hg
  obtain ⟨x', hx', htx, _⟩ := (h.inv hw).trans _ _ _ ht
  have hid : t.ctxId ≠ g.ctxId := by
    rw [hgx, htx]
    exact fun e => hne (ids_inj hR h hx hx' e.symm)
  simp [Trans.merge, hid]

/-! ### C34: merging -/

/-- Merging a graph of the same context succeeds and adds exactly its nodes, under their indices, to the nodes to be inserted; no index was
in use on both sides. -/
theorem C34_pending (hw : WellNamed S) {g2 : Graph} {t : Trans} (h : Meets S dbg R g2 t) :
    ∃ t', t.merge g2 = .ok t' ∧ t'.pending = { t.pending with new := union g2.get? t.pending.new } ∧
      ∀ i, ¬ (g2.get? i ≠ none ∧ t.pending.new i ≠ none) := by
  obtain ⟨hdis, hctx, _⟩ := h.disjoint hw
  have hinv := h.inv hw
  have hr := h.ready hw
  have hdis' : t.inc.Disjoint g2.nodes := by
    intro i hi
    by_contra hne
    exact hi (hdis i hne)
  refine ⟨{ t with inc := t.inc.merge g2.nodes }, by simp only [Trans.merge, if_pos hctx], ?_, ?_⟩
  · have e : (t.inc.merge g2.nodes).get? = union g2.get? t.inc.get? := by
      funext i
      rw [Arena.merge_get? hr.good.inv hinv.arena hdis']
      simp only [union, Graph.get?]
      cases g2.nodes.get? i <;> rfl
    simp only [Trans.pending, e]
  · rintro i ⟨h1, h2⟩
    exact h2 (Arena.get?_of_disp_none (hdis' i fun e => h1 (Arena.get?_of_disp_none e)))

/-- The merged transaction and any other graph of the context are again what a program can have at one moment: all theorems about `Meets`
apply to committing it. -/
theorem C34_meets {w : World} (h : Reaches S dbg R w) {gh gh2 k c : Nat} {g g2 : Graph} {t t' : Trans} (hg : w.graph gh = some (c, g))
    (hg2 : w.graph gh2 = some (c, g2)) (hne : gh ≠ gh2) (ht : w.trans k = some (c, t)) (hm : t.merge g2 = .ok t') :
    Meets S dbg AnyCall g t' := by
  have h' : Reaches S dbg AnyCall w := h.mono fun _ _ _ => trivial
  refine ⟨w.exec S dbg (.merge k gh2), gh, k, c, h'.step (c := .merge k gh2) ?_ trivial, ?_, ?_⟩
  · intro c1 t1 c2 g1 h1 h2
    rw [ht] at h1
    rw [hg2] at h2
    simp only [Option.some.injEq, Prod.mk.injEq] at h1 h2
    rw [← h1.1, ← h2.1]
  · simp [World.exec, ht, hg2, hm, World.setGraph, World.setTrans, World.put, hne, hg]
  · simp [World.exec, ht, hg2, hm, World.setGraph, World.setTrans, World.put]

/-- After a merge and a commit of nothing else, the graph holds its own nodes, the nodes of the merged graph, and the nodes that were inserted
before, all under their indices, with their data and, except for bidirectional completion, their links.  If all declared opposites are there
already, no link changes (and no bidirectional `Vec` holds a node twice on the way). -/
theorem C34_commit (hw : WellNamed S) {w : World} (h : Reaches S dbg R w) {gh gh2 k c : Nat} {g g2 g' : Graph} {t t' : Trans}
    (hg : w.graph gh = some (c, g)) (hg2 : w.graph gh2 = some (c, g2)) (hne : gh ≠ gh2) (ht : w.trans k = some (c, t))
    (hm : t.merge g2 = .ok t') (h1 : t.pending.redir = []) (h2 : t.pending.muts = []) (h3 : t.pending.upds = []) (h4 : t.pending.redirAll = [])
    (h5 : ∀ i, ¬ t.pending.removed i) {dbg' : Bool} (hc : g.commit S dbg' t' = .ok g') :
    SameUpToBidir S (union g2.get? (union t.pending.new g.get?)) g'.get? ∧
    (SteadyBidir S t' g.get? → Symmetric S (union g2.get? (union t.pending.new g.get?)) → View.Same (union g2.get? (union t.pending.new g.get?)) g'.get?) := by
  have hmt := C34_meets h hg hg2 hne ht hm
  obtain ⟨t1, hm1, hp, _⟩ := C34_pending hw (⟨w, gh2, k, c, h, hg2, ht⟩ : Meets S dbg R g2 t)
  obtain rfl : t1 = t' := by simpa [hm] using hm1.symm
  obtain ⟨v6, out⟩ := hmt.commit hw hc
  obtain ⟨hdis, _, _⟩ := hmt.disjoint hw
  have hnew : t1.inc.get? = union g2.get? t.inc.get? := congrArg Pending.new hp
  have e1 : t1.redir = [] := (congrArg Pending.redir hp).trans h1
  have e2 : t1.muts = [] := (congrArg Pending.muts hp).trans h2
  have e3 : t1.upds = [] := (congrArg Pending.upds hp).trans h3
  have e4 : t1.redirAll = [] := (congrArg Pending.redirAll hp).trans h4
  have e5 : t1.dec.elems = [] := by
    refine List.eq_nil_iff_forall_not_mem.2 fun i hi => h5 i ?_
    have := congrFun (congrArg Pending.removed hp) i
    exact this ▸ hi
  have hun : union t1.inc.get? g.get? = union g2.get? (union t.pending.new g.get?) := by
    rw [hnew]
    funext i
    simp only [union, Trans.pending]
    cases g2.get? i <;> rfl
  have hsame := performed_insert out.performed e1 e2 e3 e4 e5
  rw [hun] at hsame
  refine ⟨sameUpToBidir_of_same hsame (out.same), fun hst hsym => hsame.trans ?_⟩
  have hwt : ∀ x n, v6 x = some n → S.WT n := by
    intro x n hn
    obtain ⟨n0, hn0, hns⟩ := hsame.symm.some hn
    have hi := hmt.inv hw
    have hr := hmt.ready hw
    have : S.WT n0 := by
      rw [← hun] at hn0
      simp only [union] at hn0
      split at hn0
      · rename_i n1 hn1
        obtain rfl : n1 = n0 := by simpa using hn0
        exact hr.good.wt _ _ hn1
      · exact hi.wt _ _ hn0
    exact Schema.wt_of_shape (Node.same_iff.1 hns).1.symm this
  refine completion_symmetric hwt (out.completion hst) (hsame.symmetric hsym) fun x m y hr => ?_
  obtain ⟨h0, ⟨n, hn, hl⟩, hnot⟩ := hr
  refine hnot ?_
  rw [hsame.link, ← hun]
  refine ⟨n, ?_, hl⟩
  have : t1.inc.get? x = none := by
    by_contra hne'
    have h6 := hdis x (fun e => hne' (Arena.get?_of_disp_none e))
    have h7 : g.get? x = none := Arena.get?_of_disp_none h6
    rw [hn] at h7
    exact absurd h7 (by simp)
  simp only [union, this]
  exact hn

/-- Merging and committing, and nothing else, when the graphs are symmetric and do not refer to each other's nodes: every link of both
graphs is intact and no link is new. -/
theorem C34_intact (hw : WellNamed S) {w : World} (h : Reaches S dbg R w) {gh gh2 k c : Nat} {g g2 g' : Graph} {t t' : Trans}
    (hg : w.graph gh = some (c, g)) (hg2 : w.graph gh2 = some (c, g2)) (hne : gh ≠ gh2) (ht : w.trans k = some (c, t))
    (hm : t.merge g2 = .ok t') (h1 : t.pending.redir = []) (h2 : t.pending.muts = []) (h3 : t.pending.upds = []) (h4 : t.pending.redirAll = [])
    (h5 : ∀ i, ¬ t.pending.removed i) (h6 : ∀ i, t.pending.new i = none) {dbg' : Bool} (hst : SteadyBidir S t' g.get?) (hc : g.commit S dbg' t' = .ok g')
    (hs : Symmetric S g.get?) (hs2 : Symmetric S g2.get?) (hx : ∀ x m y, View.Link g.get? x m y → g2.get? y = none)
    (hx2 : ∀ x m y, View.Link g2.get? x m y → g.get? y = none) :
    ∀ i, (∀ n, g.get? i = some n ∨ g2.get? i = some n → ∃ n', g'.get? i = some n' ∧ Node.Same n n') ∧
      (g.get? i = none → g2.get? i = none → g'.get? i = none) := by
  obtain ⟨_, hsame⟩ := C34_commit hw h hg hg2 hne ht hm h1 h2 h3 h4 h5 hc
  replace hsame := hsame hst
  have e : union t.pending.new g.get? = g.get? := by
    funext i
    simp only [union, h6 i]
  rw [e] at hsame
  have hdis : ∀ i, g2.get? i ≠ none → g.get? i = none := by
    intro i hi
    by_contra hne'
    have hd := (h.inv hw).disj (.inl gh) (.inl gh2) c i ⟨g, hg, fun e => hne' (Arena.get?_of_disp_none e)⟩
      ⟨g2, hg2, fun e => hi (Arena.get?_of_disp_none e)⟩
    exact hne (Sum.inl.inj hd)
  have hsym : Symmetric S (union g2.get? g.get?) := by
    intro x m y n m' hl hn ho hd
    obtain ⟨nx, hnx, s, hh⟩ := hl
    simp only [union] at hnx hn
    cases hx2' : g2.get? x with
    | some n2 =>
      rw [hx2'] at hnx
      obtain rfl : n2 = nx := by simpa using hnx
      have hl : View.Link g2.get? x m y := ⟨n2, hx2', s, hh⟩
      cases hy : g2.get? y with
      | none => rw [hy] at hn; rw [hx2 x m y hl] at hn; exact absurd hn (by simp)
      | some ny =>
        rw [hy] at hn
        obtain rfl : ny = n := by simpa using hn
        obtain ⟨ny', hny', r⟩ := hs2 x m y ny m' hl hy ho hd
        exact ⟨ny', by simp only [union, hny'], r⟩
    | none =>
      rw [hx2'] at hnx
      have hl : View.Link g.get? x m y := ⟨nx, hnx, s, hh⟩
      have hy := hx x m y hl
      rw [hy] at hn
      obtain ⟨ny', hny', r⟩ := hs x m y n m' hl hn ho hd
      exact ⟨ny', by simp only [union, hy]; exact hny', r⟩
  have hsame := hsame hsym
  intro i
  refine ⟨fun n hn => hsame.some ?_, fun a b => (hsame.none_iff i).2 ?_⟩
  · simp only [union]
    rcases hn with hn | hn
    · cases h2' : g2.get? i with
      | none => exact hn
      | some n2 => exact absurd (hdis i (by rw [h2']; simp)) (by rw [hn]; simp)
    · rw [hn]
  · simp only [union, b, a]

/-! ### C38: a commit that panics -/

/-- `commitLeft` is the result of a commit that returns. -/
theorem C38_returns {g g' : Graph} {t : Trans} (h : g.commit S dbg t = .ok g') : g.commitLeft S dbg t = some g' := by
  simp only [Graph.commit] at h
  cases hd : g.doCommit S dbg t with
  | error e => rw [hd] at h; exact absurd h (by simp)
  | ok st =>
    obtain ⟨g7, r⟩ := st
    rw [hd] at h
    obtain rfl : g7 = g' := by
      simp only at h
      split at h
      · exact absurd h (by simp)
      · simpa using h
    simp only [Graph.doCommit] at hd
    simp only [Graph.commitLeft, Graph.commitLeftWith]
    split at hd
    · exact absurd hd (by simp)
    rename_i h1
    rw [if_neg h1]
    split at hd
    · exact absurd hd (by simp)
    rename_i h2
    rw [if_neg h2]
    split at hd
    · exact absurd hd (by simp)
    rename_i g1 r1 h3
    simp only [h3]
    split at hd
    · exact absurd hd (by simp)
    rename_i st3 h4
    simp only [h4]
    split at hd
    · exact absurd hd (by simp)
    rename_i g4 r4 h5
    simp only [h5]
    split at hd
    · exact absurd hd (by simp)
    rename_i st5 h6
    simp only [h6]
    split at hd
    · exact absurd hd (by simp)
    rename_i g6 r6 h7
    simp only [h7]
    split at hd
    · exact absurd hd (by simp)
    rename_i g7' h8
    obtain ⟨rfl, -⟩ : g7' = g7 ∧ _ := by simpa using hd
    simp only [Graph.applyBidirectional] at h8
    split at h8
    · exact absurd h8 (by simp)
    rename_i g8 h9
    simp only [Graph.bidirLeft, h9, Graph.stopped_ok h8]

/-- A commit leaves the graph as it was when it is refused because of the context, because of an allocated index that is not filled, or
because of a loop among the requests of `redirect_links`.  (Full statement: whenever commit panics.  That is false, see below.) -/
theorem C38_partial (g : Graph) (t : Trans)
    (h : (dbg = true ∧ t.ctxId ≠ g.ctxId) ∨ (dbg = true ∧ ∃ i, t.pending.unfilled i) ∨
      ((t.pending.redir.map Prod.fst).Nodup ∧ Loop t.pending.redir)) :
    (∃ e, g.commit S dbg t = .error e) ∧ g.commitLeft S dbg t = some g := by
  simp only [Graph.commit, Graph.doCommit, Graph.commitLeft, Graph.commitLeftWith]
  by_cases h1 : (dbg && decide (t.ctxId ≠ g.ctxId)) = true
  · simp only [if_pos h1]
    exact ⟨⟨_, rfl⟩, trivial⟩
  rw [if_neg h1, if_neg h1]
  by_cases h2 : (dbg && !t.allocs.isEmpty) = true
  · simp only [if_pos h2]
    exact ⟨⟨_, rfl⟩, trivial⟩
  rw [if_neg h2, if_neg h2]
  rcases h with ⟨rfl, h⟩ | ⟨rfl, i, hi⟩ | ⟨hn, hl⟩
  · simp [h] at h1
  · have : t.allocs.isEmpty = true := by simpa using h2
    exact absurd hi (OrderSet.isEmpty_iff.1 this i)
  · have hl' : Loop t.redir := hl
    have hn' : (t.redir.map Prod.fst).Nodup := hn
    rw [Graph.redirect_loop hn' hl']
    refine ⟨⟨_, rfl⟩, ?_⟩
    simp only [Graph.redirectLeft]
    rcases Graph.faPass (reps := t.redir) with ⟨fa, _, hinv⟩ | ⟨herr, _⟩
    · exact absurd (Spec.loop_iff.1 hl') (Graph.not_cyclic_of_faInv hinv (fun p hp => ⟨p, hp, Or.inl rfl⟩) hn')
    · simp only [herr]

end TTGraph

namespace TTGraph
namespace Demo
open Spec

/-! ### Programs -/

/-- No default or deserialized contexts. -/
def newOnly (_ : World) : Step → Bool
  | .call (.defaultContext _) => false
  | .call (.deserialize _ _ _) => false
  | _ => true

theorem newOnly_sound (w : World) (s : Step) (h : newOnly w s = true) : NewContexts w s.call' := by
  cases s with
  | mutate k i n => trivial
  | update k i n => trivial
  | edit k i n => trivial
  | swap k i n => trivial
  | call c =>
    cases c with
    | defaultContext c => exact absurd h (by simp [newOnly])
    | deserialize g c i => exact absurd h (by simp [newOnly])
    | _ => trivial

/-- Two contexts; a graph of the first with one node, a transaction of the second with one node. -/
def two4 : List Step :=
  [.call (.newContext 0 7), .call (.newContext 1 8), .call (.newGraph 0 0), .call (.newTrans 0 0), .call (.op 0 (.insert (nB 0))),
   .call (.commit 0 0), .call (.newTrans 1 1), .call (.op 1 (.insert (nB 1)))]

theorem two4_reaches (dbg : Bool) : Reaches plain dbg NewContexts (run plain dbg World.init two4) :=
  reaches_run (us := []) newOnly_sound two4 .init (fun _ _ h => absurd h (by simp [World.init])) (by cases dbg <;> decide +kernel)

/-- Graph and transaction of the final world of `two4` belong to the contexts 0 and 1. -/
theorem two4_objects (dbg : Bool) : let w := run plain dbg World.init two4
    w.graph 0 = some (0, graphAt w 0) ∧ w.trans 1 = some (1, transAt w 1) := by
  cases dbg <;> exact ⟨rfl, rfl⟩

/-- C36, C34: the hypotheses are met. -/
example : ∃ w gh k c c' g t, Reaches plain true NewContexts w ∧ w.graph gh = some (c, g) ∧ w.trans k = some (c', t) ∧ c ≠ c' ∧
    g.commit plain true t = .error .ctxMismatch ∧ t.merge g = .error .ctxMismatch ∧ g.get? 1 ≠ none :=
  ⟨_, 0, 1, 0, 1, _, _, two4_reaches true, (two4_objects true).1, (two4_objects true).2, by decide,
    (C36_partial plain_named (fun _ _ h => h) (two4_reaches true) (two4_objects true).1 (two4_objects true).2 (by decide) .new).1,
    C34_refused plain_named (fun _ _ h => h) (two4_reaches true) (two4_objects true).1 (two4_objects true).2 (by decide),
    by decide +kernel⟩

/-- C36 fails without debug assertions: the commit returns, and a node of the graph is overwritten. -/
theorem C36_release_fails : ∃ w gh k c c' g t g', Reaches plain false NewContexts w ∧ w.graph gh = some (c, g) ∧ w.trans k = some (c', t) ∧
    c ≠ c' ∧ g.commit plain false t = .ok g' ∧ g.get? 1 = some (nB 0) ∧ g'.get? 1 = some (nB 1) := by
  refine ⟨_, 0, 1, 0, 1, _, _, _, two4_reaches false, (two4_objects false).1, (two4_objects false).2, by decide, got_ok (d := Graph.new 0) ?_, ?_, ?_⟩
  · decide +kernel
  · decide +kernel
  · decide +kernel

/-- The same with two contexts made by `Context::default()`. -/
def defaults4 : List Step :=
  [.call (.defaultContext 0), .call (.defaultContext 1), .call (.newGraph 0 0), .call (.newTrans 0 0), .call (.op 0 (.insert (nB 0))),
   .call (.commit 0 0), .call (.newTrans 1 1), .call (.op 1 (.insert (nB 1)))]

/-- C36 fails for two default contexts, also with debug assertions: they have the same id and separate counters. -/
theorem C36_default_fails : ∃ w gh k c c' g t g', Reaches plain true AnyCall w ∧ w.graph gh = some (c, g) ∧ w.trans k = some (c', t) ∧
    c ≠ c' ∧ g.commit plain true t = .ok g' ∧ g.get? 1 = some (nB 0) ∧ g'.get? 1 = some (nB 1) := by
  refine ⟨run plain true World.init defaults4, 0, 1, 0, 1, _, _, _, reaches defaults4 (by decide +kernel), rfl, rfl, by decide,
    got_ok (d := Graph.new 0) ?_, ?_, ?_⟩
  · decide +kernel
  · decide +kernel
  · decide +kernel

/-- A graph is read from a file that was written earlier by the same program, while the context is still in use. -/
def reread4 : List Step :=
  [.call (.newContext 0 7), .call (.newTrans 1 0), .call (.op 1 (.insert (nB 1))), .call (.deserialize 0 1 ⟨7, [(1, nB 0)]⟩)]

/-- C36 fails for a deserialized context: it has the same id as the original and a separate counter. -/
theorem C36_reread_fails : ∃ w gh k c c' g t g', Reaches plain true AnyCall w ∧ w.graph gh = some (c, g) ∧ w.trans k = some (c', t) ∧
    c ≠ c' ∧ g.commit plain true t = .ok g' ∧ g.get? 1 = some (nB 0) ∧ g'.get? 1 = some (nB 1) := by
  refine ⟨run plain true World.init reread4, 0, 1, 1, 0, _, _, _, reaches reread4 (by decide +kernel), rfl, rfl, by decide,
    got_ok (d := Graph.new 0) ?_, ?_, ?_⟩
  · decide +kernel
  · decide +kernel
  · decide +kernel

/-- Two graphs of one context, each with a pair of nodes linked in both directions, and an empty transaction. -/
def merge4 : List Step :=
  [.call (.newContext 0 7), .call (.newGraph 0 0), .call (.newGraph 1 0), .call (.newTrans 0 0), .call (.op 0 (.insert (pA 2 []))),
   .call (.op 0 (.insert (pB [] 0))), .call (.commit 0 0), .call (.newTrans 1 0), .call (.op 1 (.insert (pA 4 []))),
   .call (.op 1 (.insert (pB [] 0))), .call (.commit 1 1), .call (.newTrans 2 0)]

/-- C34: the hypotheses of `C34_commit` are met, and all four nodes are there afterwards with their links. -/
example : ∃ w c g g2 t t' g', Reaches pair true AnyCall w ∧ w.graph 0 = some (c, g) ∧ w.graph 1 = some (c, g2) ∧ w.trans 2 = some (c, t) ∧
    t.merge g2 = .ok t' ∧ t.pending.redir = [] ∧ t.pending.muts = [] ∧ t.pending.upds = [] ∧ t.pending.redirAll = [] ∧
    (∀ i, ¬ t.pending.removed i) ∧ g.commit pair true t' = .ok g' ∧
    g'.get? 1 = some (pA 2 []) ∧ g'.get? 2 = some (pB [1] 0) ∧ g'.get? 3 = some (pA 4 []) ∧ g'.get? 4 = some (pB [3] 0) := by
  refine ⟨run pair true World.init merge4, 0, _, _, _, _, _, reaches merge4 (by decide +kernel), rfl, rfl, rfl, got_ok (d := Trans.new 0) ?_,
    rfl, rfl, rfl, rfl, ?_, got_ok (d := Graph.new 0) ?_, ?_, ?_, ?_, ?_⟩
  · decide +kernel
  · exact fun i hi => absurd hi (List.not_mem_nil)
  all_goals decide +kernel

/-- One node; a transaction that inserts another and links it wrongly. -/
def wrong4 : List Step :=
  [.call (.newContext 0 7), .call (.newGraph 0 0), .call (.newTrans 0 0), .call (.op 0 (.insert (pA 0 []))), .call (.commit 0 0),
   .call (.newTrans 1 0), .call (.op 1 (.insert (pA 1 [])))]

/-- C38 fails: the link type is checked last.  The commit panics, and the new node is in the graph. -/
theorem C38_linkType_fails : ∃ g t g', Meets typed true AnyCall g t ∧ g.commit typed true t = .error .linkType ∧
    g.commitLeft typed true t = some g' ∧ g.get? 2 = none ∧ g'.get? 2 = some (pA 1 []) := by
  refine ⟨_, _, ((graphAt (run typed true World.init wrong4) 0).commitLeft typed true (transAt (run typed true World.init wrong4) 1)).getD (Graph.new 0),
    meets_of (reaches wrong4 (by decide +kernel)) 0 1 (by decide +kernel), ?_, ?_, ?_, ?_⟩
  · rfl
  · rfl
  · decide +kernel
  · decide +kernel

/-- Linked nodes; a transaction that inserts a linked pair and removes a node that does not exist. -/
def missing4 : List Step :=
  [.call (.newContext 0 7), .call (.newGraph 0 0), .call (.newTrans 0 0), .call (.op 0 (.insert (pB [] 0))), .call (.commit 0 0),
   .call (.newTrans 1 0), .call (.op 1 (.insert (pA 1 []))), .call (.op 1 (.remove 9))]

/-- C38 fails, and worse: after the panic the graph holds a link whose declared opposite is missing. -/
theorem C38_symmetry_fails : ∃ g t g', Meets pair true AnyCall g t ∧ g.commit pair true t = .error .removeMissing ∧
    g.commitLeft pair true t = some g' ∧ g.get? 2 = none ∧ g'.get? 2 = some (pA 1 []) ∧ g'.get? 1 = some (pB [] 0) := by
  refine ⟨_, _, ((graphAt (run pair true World.init missing4) 0).commitLeft pair true (transAt (run pair true World.init missing4) 1)).getD (Graph.new 0),
    meets_of (reaches missing4 (by decide +kernel)) 0 1 (by decide +kernel), ?_, ?_, ?_, ?_, ?_⟩
  · rfl
  · rfl
  all_goals decide +kernel

/-- C38: the hypotheses of `C38_partial` are met by a loop (program `loop3`), and the graph is not empty. -/
example : let w := run plain true World.init loop3
    (((transAt w 1).pending.redir.map Prod.fst).Nodup ∧ Loop (transAt w 1).pending.redir) ∧ (graphAt w 0).get? 1 ≠ none := by
  refine ⟨⟨by decide +kernel, ?_⟩, by decide +kernel⟩
  have e : (transAt (run plain true World.init loop3) 1).pending.redir = [(2, 3), (3, 2)] := by decide +kernel
  rw [e]
  exact ⟨2, 3, by simp, .step (b := 2) (by simp) (.here 2)⟩

/-- C38: without the loop, `commitLeft` is a changed graph: the conclusion of `C38_partial` is not vacuous (program `redir3`). -/
example : let w := run plain true World.init redir3
    ((graphAt w 0).commitLeft plain true (transAt w 1)).map (fun g => g.get? 1) ≠ some ((graphAt w 0).get? 1) := by
  decide +kernel

/-- C37: calls that use other objects only. -/
example : let l : List Call := [.newTrans 5 0, .op 5 (.insert (nB 1)), .op 5 (.remove 1), .commit 3 5, .newTrans 6 0, .dropTrans 6]
    ∀ call ∈ l, ¬ UsesGraph 0 call := by
  intro l call h
  simp only [l, List.mem_cons, List.not_mem_nil, or_false] at h
  rcases h with rfl | rfl | rfl | rfl | rfl | rfl <;> simp [UsesGraph]

end Demo
end TTGraph
