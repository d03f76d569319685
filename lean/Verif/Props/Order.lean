import Verif.Lemmas.Order
import Verif.Props.Iter
import Verif.Props.Switch

/-!
# C52: the order of iteration
-/

set_option autoImplicit false

namespace TTGraph
open Spec
variable [SetImpl] {S : Schema} {dbg : Bool} {R : World → Call → Prop}

/-- After a commit `iter_type` yields the old nodes in their old order, followed by the new ones; a node that is updated goes to the end, and
the last node takes the place of one that is removed or updated. -/
theorem C52_commit (hw : WellNamed S) {g g' : Graph} {t : Trans} (h : Meets S dbg R g t) (hc : g.commit S dbg t = .ok g')
    (d : Ident) : g'.order d = orderAfter (g.order d) d t.orders :=
  Graph.commit_order (h.inv hw).arena (h.ready hw).good.inv (h.disjoint hw).1 hc d

omit [SetImpl] in
/-- A transaction starts with nothing. -/
theorem C52_start (c : Nat) : (Trans.new c).orders = ⟨fun _ => [], [], []⟩ := rfl

/-- How each method of a transaction changes the order of the nodes that it will append, and of those it will update and remove. -/
theorem C52_call (hw : WellNamed S) {t t' : Trans} {cnt cnt' : Nat} {l : List NodeIndex} {o : TOp}
    (h : Building S dbg R t cnt) (ho : o.Allowed S t) (hr : o.run t cnt = .ok (t', cnt', l)) : OrderEffect o l t.pending t.orders t'.orders :=
  Trans.order_effect (h.ready hw).1 (h.ready hw).2 ho hr

/-- Merging a graph into a transaction appends its nodes in their order. -/
theorem C52_merge (hw : WellNamed S) {g : Graph} {t t' : Trans} (h : Meets S dbg R g t) (hm : t.merge g = .ok t') :
    t'.orders = { t.orders with new := fun d => t.orders.new d ++ g.order d } := by
  unfold Trans.merge at hm
  split at hm
  · simp only [Except.ok.injEq] at hm
    rw [← hm]
    simp only [Trans.orders, Orders.mk.injEq, and_true]
    funext d
    have hd := (h.disjoint hw).1
    refine Arena.merge_order (h.ready hw).good.inv.homes (h.inv hw).arena.homes ?_ d
    intro i hi
    by_contra hn
    exact hi (hd i hn)
  · exact absurd hm (by simp)

/-- A commit that removes and updates no node of the graph keeps the order of the nodes: the new ones of each variant follow the old ones, so
that `iter` of the old graph is a subsequence of `iter` of the new one. -/
theorem C52_stable (hw : WellNamed S) {g g' : Graph} {t : Trans} (h : Meets S dbg R g t) (hc : g.commit S dbg t = .ok g')
    (hr : ∀ i, ¬ t.pending.removed i) (hu : t.pending.upds = []) :
    (∀ d, g'.order d = g.order d ++ t.orders.new d) ∧ ((g.iter S).map Prod.fst).Sublist ((g'.iter S).map Prod.fst) := by
  have h1 : ∀ d, g'.order d = g.order d ++ t.orders.new d := by
    intro d
    rw [C52_commit hw h hc d]
    have h2 : t.orders.updated = [] := by
      have : t.upds = [] := hu
      simp [Trans.orders, this]
    have h3 : t.orders.removed = [] := List.eq_nil_iff_forall_not_mem.2 hr
    simp [orderAfter, h2, h3]
  refine ⟨h1, ?_⟩
  rw [Graph.iter_fst, Graph.iter_fst]
  have key : ∀ ds : List Ident, (ds.flatMap fun d => (g.nodes.cont d).keys).Sublist (ds.flatMap fun d => (g'.nodes.cont d).keys) := by
    intro ds
    induction ds with
    | nil => exact List.Sublist.refl _
    | cons x r ih =>
      rw [List.flatMap_cons, List.flatMap_cons]
      refine List.Sublist.append ?_ ih
      have : (g'.nodes.cont x).keys = (g.nodes.cont x).keys ++ t.orders.new x := h1 x
      rw [this]
      exact List.sublist_append_left _ _
  exact key _

/-- Part of C19: if the nodes of a variant are in the order of `NodeIndex`, a commit that removes and updates nothing and inserts nodes with
larger indices, in the order of their indices, keeps them so. -/
theorem C19_ascending_partial (hw : WellNamed S) {g g' : Graph} {t : Trans} (h : Meets S dbg R g t)
    (hc : g.commit S dbg t = .ok g') (hr : ∀ i, ¬ t.pending.removed i) (hu : t.pending.upds = []) {d : Ident}
    (hlt : ∀ i j : Nat, g.get? i ≠ none → t.pending.new j ≠ none → i < j) (hold : (g.order d).Pairwise fun i j : Nat => i < j)
    (hnew : (t.orders.new d).Pairwise fun i j : Nat => i < j) : (g'.order d).Pairwise fun i j : Nat => i < j := by
  rw [(C52_stable hw h hc hr hu).1, List.pairwise_append]
  refine ⟨hold, hnew, fun i hi j hj => hlt i j ?_ ?_⟩
  · obtain ⟨n, hn⟩ := OrderMap.mem_keys.1 hi
    rw [show g.get? i = some n from (h.inv hw).arena.get? hn]
    simp
  · obtain ⟨n, hn⟩ := OrderMap.mem_keys.1 hj
    rw [show t.pending.new j = some n from (h.ready hw).good.inv.get? hn]
    simp

/-- Switching the context keeps the order of iteration; the nodes are numbered in that order, so that `iter` of the result follows the order
of `NodeIndex`. -/
theorem C52_switch (hw : WellNamed S) (hR : ∀ w c, R w c → KeepVariants w c) {g g' : Graph} {u cnt cnt' : Nat}
    (h : Reachable S dbg R g) (hs : g.switchContext S u cnt = .ok (g', cnt')) :
    (g'.iter S).map Prod.fst = List.range' (cnt + 1) (g.len S) := by
  have hi := (h.inv hw).arena
  have ht : g.nodes.Typed := (typed_closed hw hR).reachable h
  have hmem : ∀ d ∈ S.discs, ∀ e ∈ (g.nodes.cont d).entries, e.2.disc = d := fun d _ e he => ht d e.1 e.2 (OrderMap.get?_eq_some.2 he)
  rw [Graph.iter_fst]
  simp only [Graph.switchContext_order (S := S) (fun e he => by
    obtain ⟨d, hd, he⟩ := List.mem_flatMap.1 he
    rw [hmem d hd e he]; exact hd) hs, Arena.ofVariant]
  obtain ⟨c', h1, h2⟩ := numbered_grouped S.discs (fun d => (g.nodes.cont d).entries) cnt hw.variants hmem
  have h3 : Arena.numbered cnt (g.iter S) = S.discs.flatMap c' := h1
  rw [h3, ← List.map_flatMap, regroup (fun e : NodeIndex × Node => e.2.disc) S.discs c' hw.variants h2, ← h3, Arena.numbered_fst]
  congr 1
  simp only [Graph.iter, Graph.len, Arena.len, Arena.entries, List.length_flatMap]
  rfl

/-- Writing a graph and reading it back keeps the order of iteration; so a second file lists the nodes in the same order. -/
theorem C52_reload (hw : WellNamed S) (hR : ∀ w c, R w c → KeepVariants w c) {g g' : Graph} {cnt : Nat}
    (h : Reachable S dbg R g) (hd : Graph.deserializeGraph S (g.serialize S) = .ok (cnt, g')) :
    (∀ d, g'.order d = g.order d) ∧ (g'.serialize S).nodes.map Prod.fst = (g.serialize S).nodes.map Prod.fst := by
  have h1 : ∀ d, (g'.nodes.cont d).keys = (g.nodes.cont d).keys := by
    intro d
    unfold Graph.deserializeGraph at hd
    split at hd
    · exact absurd hd (by simp)
    · rename_i g1 hg1
      simp only [Except.ok.injEq, Prod.mk.injEq] at hd
      obtain ⟨_, rfl⟩ := hd
      rw [Graph.doDeserialize_order hg1]
      exact Arena.ofVariant_entries hw.variants (h.inv hw).arena ((typed_closed hw hR).reachable h) d
  refine ⟨h1, ?_⟩
  show (g'.iter S).map Prod.fst = (g.iter S).map Prod.fst
  rw [Graph.iter_fst, Graph.iter_fst]
  simp only [h1]

end TTGraph

namespace TTGraph.Demo
open Spec

/-- Three nodes of variant 1 and one of variant 2; a transaction that inserts a node, updates node 2 and removes node 3. -/
def shuffle3 : List Step :=
  [.call (.newContext 0 77), .call (.newGraph 0 0), .call (.newTrans 0 0), .call (.op 0 (.insert (nB 0))), .call (.op 0 (.insert (nA 1 [1] [1] 5))),
   .call (.op 0 (.insert (nA 1 [1] [1] 6))), .call (.op 0 (.insert (nA 1 [1] [1] 7))), .call (.commit 0 0), .call (.newTrans 1 0),
   .call (.op 1 (.insert (nA 1 [] [] 8))), .update 1 2 (nA 4 [3] [] 8), .call (.op 1 (.remove 3))]

theorem shuffle3_meets : Meets plain true AnyCall (graphAt (run plain true World.init shuffle3) 0) (transAt (run plain true World.init shuffle3) 1) :=
  meets_of (reaches shuffle3 (by decide +kernel)) 0 1 (by decide +kernel)

/-- C52: the order of variant 1 is 2, 3, 4; node 5 is appended, node 2 goes to the end, node 3 is replaced by the last. -/
example : ∃ g', (graphAt (run plain true World.init shuffle3) 0).commit plain true (transAt (run plain true World.init shuffle3) 1) = .ok g' ∧
    (graphAt (run plain true World.init shuffle3) 0).order 1 = [2, 3, 4] ∧
    (transAt (run plain true World.init shuffle3) 1).orders.new 1 = [5] ∧ (transAt (run plain true World.init shuffle3) 1).orders.updated = [2] ∧
    (transAt (run plain true World.init shuffle3) 1).orders.removed = [3] ∧ g'.order 1 = [5, 2, 4] ∧
    orderAfter [2, 3, 4] 1 (transAt (run plain true World.init shuffle3) 1).orders = [5, 2, 4] :=
  ⟨_, got_ok (d := Graph.new 0) (by decide +kernel), by decide +kernel⟩

/-- C52: a call of `remove` on a pending node, with others behind it. -/
example : let t := transAt (run plain true World.init shuffle3) 1
    Building plain true AnyCall t 5 ∧ (TOp.remove 5).Allowed plain t ∧ (TOp.insert (nB 1)).Allowed plain t ∧ (t.remove 5).orders.new 1 = [] :=
  ⟨building_of (reaches shuffle3 (by decide +kernel)) 1 (by decide +kernel), trivial, wt_sound (by decide +kernel), by decide +kernel⟩

/-- C52: a transaction that merges a graph with nodes has its nodes appended. -/
example : ∃ t', (transAt (run plain true World.init shuffle3) 1).merge (graphAt (run plain true World.init shuffle3) 0) = .ok t' ∧
    t'.orders.new 1 = [5, 2, 3, 4] :=
  ⟨_, rfl, by decide +kernel⟩

/-- A transaction that removes and updates nothing. -/
def steady3 : List Step := shuffle3.take 9 ++ [.call (.op 1 (.insert (nA 1 [] [] 8))), .call (.op 1 (.insert (nB 2))), .edit 1 3 (nA 4 [3] [] 8)]

example : let g := graphAt (run plain true World.init steady3) 0
    let t := transAt (run plain true World.init steady3) 1
    Meets plain true AnyCall g t ∧ (∀ i, ¬ t.pending.removed i) ∧ t.pending.upds = [] ∧
    (g.order 1).Pairwise (fun i j : Nat => i < j) ∧ (t.orders.new 1).Pairwise (fun i j : Nat => i < j) ∧
    ∃ g', g.commit plain true t = .ok g' ∧ (g.iter plain).map Prod.fst = [2, 3, 4, 1] ∧ (g'.iter plain).map Prod.fst = [2, 3, 4, 5, 1, 6] := by
  refine ⟨meets_of (reaches steady3 (by decide +kernel)) 0 1 (by decide +kernel), ?_, rfl, by decide +kernel, by decide +kernel, _,
    got_ok (d := Graph.new 0) (by decide +kernel), by decide +kernel⟩
  have : (transAt (run plain true World.init steady3) 1).dec.elems = [] := by decide +kernel
  intro i hi
  have hi : i ∈ (transAt (run plain true World.init steady3) 1).dec.elems := hi
  rw [this] at hi
  exact absurd hi (by simp)

/-- C52: the graph of `order3`, which `iter` walks in the order 4, 3, 1, moved to another context and written and read. -/
example : let g := graphAt (run plain true World.init order3) 0
    Reachable plain true KeepVariants g ∧ (∃ g', g.switchContext plain 78 10 = .ok (g', 13) ∧ (g'.iter plain).map Prod.fst = [11, 12, 13]) ∧
    ∃ g', Graph.deserializeGraph plain (g.serialize plain) = .ok (4, g') ∧ (g'.serialize plain).nodes.map Prod.fst = [4, 3, 1] :=
  ⟨order3_keeps, ⟨_, got_ok (d := (Graph.new 0, 0)) (by decide +kernel), by decide +kernel⟩, _, got_ok (d := (0, Graph.new 0)) (by decide +kernel), by decide +kernel⟩

end TTGraph.Demo
