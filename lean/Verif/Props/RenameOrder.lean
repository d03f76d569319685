import Verif.Lemmas.TwinOrder
import Verif.Props.Rename
import Verif.Props.Order

/-!
# C88: the order of iteration does not depend on the values of indices
-/

set_option autoImplicit false

namespace TTGraph
open Spec

/-- At every moment of two executions of a program, corresponding graphs are iterated in the same order: each variant by `iter_type`, all nodes
by `iter`, groups by `iter_group`, and so in the files written by `serialize`.  Corresponding transactions will append, update and remove corresponding nodes in the
same order. -/
theorem C88_program [SetImpl] {S : Schema} {dbg : Bool} {σ : Nat → Equiv.Perm NodeIndex} {G T : Nat → Prop} (hσ : ∀ c, σ c emptyIdx = emptyIdx)
    (hw : WellNamed S) {R : World → Call → Prop} (hst : ∀ w c, R w c → SteadyBidirCalls S w c) {w w2 : World}
    (h : Twins S S dbg R σ G T w w2) :
    (∀ k c c2 g g2, G k → w.graph k = some (c, g) → w2.graph k = some (c2, g2) →
      (∀ d, List.Forall₂ (AlikeEntry (σ c)) (g.iterType d) (g2.iterType d)) ∧ List.Forall₂ (AlikeEntry (σ c)) (g.iter S) (g2.iter S) ∧
      (∀ name, List.Forall₂ (AlikeEntry (σ c)) (g.iterGroup S name) (g2.iterGroup S name)) ∧
      List.Forall₂ (AlikeEntry (σ c)) (g.serialize S).nodes (g2.serialize S).nodes) ∧
    ∀ k c c2 t t2, T k → w.trans k = some (c, t) → w2.trans k = some (c2, t2) → AlikeOrders (σ c) t.orders t2.orders := by
  have hi := h.inv hσ hw hw (.refl S) hst
  have ho := h.orders hσ hw hst
  refine ⟨fun k c c2 g g2 hk hg hg2 => ?_, ho.trans⟩
  obtain ⟨_, _, _, h1⟩ := hi.left.graph _ _ _ hg
  obtain ⟨_, _, _, h2⟩ := hi.right.graph _ _ _ hg2
  have := iters_alike h1 h2 (hi.graph _ _ _ _ _ hk hg hg2).2 (ho.graph _ _ _ _ _ hk hg hg2)
  exact ⟨this.1, this.2, fun name => group_alike (p := fun d => S.inGroup d name) this.2, this.2⟩

/-- Corresponding graphs that move to another context: the nodes get the next indices in the order of iteration; if these correspond, and no
old index collides with a new one in either execution, the graphs correspond afterwards and are iterated in the same order.

Full statement: the same without the condition on collisions.  That is false, see `Demo.C88_switch_fails`. -/
theorem C88_switch_partial [SetImpl] {S : Schema} {dbg : Bool} {R : World → Call → Prop} {τ τ' : Equiv.Perm NodeIndex} (h0 : τ emptyIdx = emptyIdx)
    (h0' : τ' emptyIdx = emptyIdx) (hw : WellNamed S) {g g2 g' g2' : Graph} {u u2 cnt cnt2 c' c2' : Nat} (h : Reachable S dbg R g)
    (h2 : Reachable S dbg R g2) (hv : Alike τ g.get? g2.get?) (ho : ∀ d, g2.order d = (g.order d).map τ) (hI : Internal g.get?)
    (hc : ¬ Collision g.get? ((g.iter S).map Prod.fst) cnt) (hc2 : ¬ Collision g2.get? ((g2.iter S).map Prod.fst) cnt2)
    (hm : ∀ p, p < (g.iter S).length → τ' (cnt + 1 + p) = cnt2 + 1 + p) (hs : g.switchContext S u cnt = .ok (g', c'))
    (hs2 : g2.switchContext S u2 cnt2 = .ok (g2', c2')) :
    Alike τ' g'.get? g2'.get? ∧ ∀ d, g2'.order d = (g'.order d).map τ' := by
  have i1 := h.inv hw
  have i2 := h2.inv hw
  have hit := iter_alike i1 i2 hv ho
  have hI2 : Internal g2.get? := by
    intro x s y hx
    obtain ⟨x, rfl⟩ := τ.surjective x
    obtain ⟨y, rfl⟩ := τ.surjective y
    rcases hI x s y ((((View.alike_iff h0).1 hv).2 x s y).1 hx) with rfl | hy
    · exact Or.inl h0
    · exact Or.inr fun e => hy ((hv.none_iff y).1 e)
  have nd : ((g.iter S).map Prod.fst).Nodup := Arena.entries_nodup hw.variants i1.arena
  refine ⟨Graph.switch_alike h0 h0' hw hw (.refl S) i1 i2 hv hI hI2 hc hc2 ?_ hs hs2, fun d => ?_⟩
  · intro x p q hp hq
    rw [iter_fst_alike hit, List.getElem?_map, Option.map_eq_some_iff] at hq
    obtain ⟨y, hy, e⟩ := hq
    obtain rfl := τ.injective e
    have hpl : p < (g.iter S).length := by simpa using (List.getElem?_eq_some_iff.1 hp).1
    have : p = q := by
      obtain ⟨l1, e1⟩ := List.getElem?_eq_some_iff.1 hp
      obtain ⟨l2, e2⟩ := List.getElem?_eq_some_iff.1 hy
      exact (List.Nodup.getElem_inj_iff nd).1 (e1.trans e2.symm)
    subst this
    exact (hm p hpl).symm
  · have decl : ∀ {v : Graph}, v.nodes.Inv S → (∀ x n, v.get? x = some n → S.WT n) → ∀ e ∈ v.iter S, e.2.disc ∈ S.discs := by
      rintro v ha hv ⟨i, n⟩ he
      exact (hv i n ((Arena.mem_entries ha).1 he)).disc
    show (g2'.nodes.cont d).keys = ((g'.nodes.cont d).keys).map τ'
    rw [Graph.switchContext_order (decl i1.arena i1.wt) hs d, Graph.switchContext_order (decl i2.arena i2.wt) hs2 d]
    exact numbered_alike hit _ _ (fun p hp => (hm p hp).symm) d

end TTGraph

namespace TTGraph.Demo
open Spec

/-- 1 ↦ 2 ↦ 3 ↦ 4 ↦ 5 ↦ 1. -/
def shift5 : Equiv.Perm NodeIndex := (((Equiv.swap 1 2).trans (Equiv.swap 1 3)).trans (Equiv.swap 1 4)).trans (Equiv.swap 1 5)

theorem shift5_zero : shift5 emptyIdx = emptyIdx := by decide +kernel

/-- Two nodes and a commit; the nodes get the indices 1 and 2. -/
def built1 : List Step :=
  [.call (.newContext 0 77), .call (.newContext 1 78), .call (.newGraph 0 0), .call (.newTrans 0 0), .call (.op 0 (.insert (nB 0))),
   .call (.op 0 (.insert (nA 1 [1, 2] [1, 1] 5))), .call (.commit 0 0)]

/-- The same, but another transaction of the same context draws the index 1. -/
def built2 : List Step :=
  [.call (.newContext 0 88), .call (.newContext 1 89), .call (.newGraph 0 0), .call (.newTrans 0 0), .call (.newTrans 9 0), .call (.op 9 .allocUntyped),
   .call (.op 0 (.insert (nB 0))), .call (.op 0 (.insert (nA 2 [2, 3] [2, 2] 5))), .call (.commit 0 0)]

/-- Another transaction draws two indices of the second context. -/
def drawn1 : List Step := built1 ++ [.call (.newTrans 8 1), .call (.op 8 (.extend [nB 0, nB 0]))]

/-- The same, but the other transaction draws three indices. -/
def drawn2 : List Step := built2 ++ [.call (.newTrans 8 1), .call (.op 8 (.extend [nB 0, nB 0, nB 0]))]

/-- The graph moves to the second context.  The nodes get the indices 3 and 4. -/
def moved1 : List Step := drawn1 ++ [.call (.switchContext 0 1), .call (.newTrans 1 1), .call (.op 1 (.remove 3))]

/-- The same, but the nodes get the indices 4 and 5. -/
def moved2 : List Step := drawn2 ++ [.call (.switchContext 0 1), .call (.newTrans 1 1), .call (.op 1 (.remove 4))]

theorem nB_alike5 : Node.Renamed shift5 (nB 0) (nB 0) := ⟨rfl, rfl, .cons (by decide +kernel : (0 : Nat) = _) .nil⟩

theorem nA_alike5 : Node.Renamed shift5 (nA 1 [1, 2] [1, 1] 5) (nA 2 [2, 3] [2, 2] 5) := by
  refine ⟨rfl, rfl, .cons (by decide +kernel : (2 : Nat) = _) (.cons (fun w => ?_) (.cons (by decide +kernel : [2, 2] = List.map _ _) .nil))⟩
  have e1 : shift5 1 = 2 := by decide +kernel
  have e2 : shift5 2 = 3 := by decide +kernel
  constructor
  · intro h
    have h : w ∈ [2, 3] := h
    simp only [List.mem_cons, List.not_mem_nil, or_false] at h
    rcases h with rfl | rfl
    · exact ⟨1, by decide, e1, .inl (by decide)⟩
    · exact ⟨2, by decide, e2, .inl (by decide)⟩
  · rintro ⟨u, hu, rfl, -⟩
    have hu : u ∈ [1, 2] := hu
    simp only [List.mem_cons, List.not_mem_nil, or_false] at hu
    rcases hu with rfl | rfl
    · rw [e1]; decide
    · rw [e2]; decide

/-- The two executions, up to the commit. -/
theorem builtTwins : Twins plain plain true AnyCall (fun _ => shift5) (fun g => g = 0) (fun k => k = 0 ∨ k = 1) (run plain true World.init built1)
    (run plain true World.init built2) := by
  have s0 : Twins plain plain true AnyCall (fun _ => shift5) (fun g => g = 0) (fun k => k = 0 ∨ k = 1) World.init World.init := .start
  have s1 := s0.both (a := .newContext 0 77) (b := .newContext 0 88) ⟨rfl, by decide, fun _ _ h => absurd h (by simp [World.init])⟩
    ⟨rfl, by decide, fun _ _ h => absurd h (by simp [World.init])⟩ trivial trivial trivial rfl
  have fresh : ∀ (u v c : Nat) (x : Ctx), u ≠ v → ((World.init.exec plain true (.newContext 0 u)).ctx c = some x) → x.uuid ≠ v := by
    intro u v c x huv h
    by_cases e : c = 0
    · simp only [World.exec, World.addCtx, World.put, e, if_true, Option.some.injEq] at h
      rw [← h]; exact huv
    · simp [World.exec, World.addCtx, World.put, e, World.init] at h
  have s1' := s1.both (a := .newContext 1 78) (b := .newContext 1 89) ⟨rfl, by decide, fun c x h => fresh 77 78 c x (by decide) h⟩
    ⟨rfl, by decide, fun c x h => fresh 88 89 c x (by decide) h⟩ trivial trivial trivial rfl
  have s2 := s1'.both (a := .newGraph 0 0) (b := .newGraph 0 0) rfl rfl trivial trivial rfl ⟨rfl, rfl⟩
  have s3 := s2.both (a := .newTrans 0 0) (b := .newTrans 0 0) rfl rfl trivial trivial (.inl rfl) ⟨rfl, rfl⟩
  have s4 := s3.right (b := .newTrans 9 0) rfl (show ¬ ((9 : Nat) = 0 ∨ (9 : Nat) = 1) by decide)
  have s5 := s4.right (b := .op 9 .allocUntyped) (fun _ _ _ => trivial) (show ¬ ((9 : Nat) = 0 ∨ (9 : Nat) = 1) by decide)
  have s6 := s5.both (a := .op 0 (.insert (nB 0))) (b := .op 0 (.insert (nB 0))) (op_allowed (by decide +kernel)) (op_allowed (by decide +kernel))
    trivial trivial (.inl rfl) (alikeCall_op (by decide +kernel) (by decide +kernel) nB_alike5 (by decide +kernel))
  have s7 := s6.both (a := .op 0 (.insert (nA 1 [1, 2] [1, 1] 5))) (b := .op 0 (.insert (nA 2 [2, 3] [2, 2] 5))) (op_allowed (by decide +kernel))
    (op_allowed (by decide +kernel)) trivial trivial (.inl rfl) (alikeCall_op (by decide +kernel) (by decide +kernel) nA_alike5 (by decide +kernel))
  exact s7.both (a := .commit 0 0) (b := .commit 0 0) (sameCtx_sound (by decide +kernel)) (sameCtx_sound (by decide +kernel)) trivial trivial ⟨.inl rfl, rfl⟩
    ⟨rfl, rfl, Option.isSome_iff_ne_none.1 (by decide +kernel), Option.isSome_iff_ne_none.1 (by decide +kernel),
     Option.isSome_iff_ne_none.1 (by decide +kernel), Option.isSome_iff_ne_none.1 (by decide +kernel)⟩

/-- The counter of a context. -/
def counterIn (w : World) (c : Nat) : Option Nat := (w.ctx c).map Ctx.cnt

theorem movesWell_of {w : World} (hw : WellNamed plain) (hr : Reaches plain true AnyCall w) {g c n : Nat} (hg : (w.graph g).isSome = true)
    (hc : counterIn w c = some n) (hi : internal plain (graphAt w g) = true)
    (hk : ∀ i ∈ ((graphAt w g).iter plain).map Prod.fst, (i : Nat) ≤ n) : MovesWell plain w g c := by
  obtain ⟨c0, e⟩ := graphAt_some hg
  obtain ⟨x, hx, rfl⟩ := Option.map_eq_some_iff.1 hc
  have hreach : Reachable plain true AnyCall (graphAt w g) := ⟨w, g, c0, hr, e⟩
  exact ⟨c0, _, x, e, hx, internal_sound (hreach.inv hw) hi, C32_disjoint fun i hi => Or.inl (hk i hi)⟩

theorem moves_alike {w w2 : World} {g c n n2 : Nat} {τ : Equiv.Perm NodeIndex} {l l2 : List NodeIndex} (hl : ((graphAt w g).iter plain).map Prod.fst = l)
    (hl2 : ((graphAt w2 g).iter plain).map Prod.fst = l2) (hn : l2 = l.map τ) (hd : l.Nodup) (hc : counterIn w c = some n) (hc2 : counterIn w2 c = some n2)
    (hm : ∀ p ∈ List.range l.length, n2 + 1 + p = τ (n + 1 + p)) {x y y2 : NodeIndex} (h : Moves plain w g c x y) (h2 : Moves plain w2 g c (τ x) y2) :
    y2 = τ y := by
  obtain ⟨c0, gr, k, p, e1, e2, e3, rfl⟩ := h
  obtain ⟨c02, gr2, k2, q, f1, f2, f3, rfl⟩ := h2
  simp only [counterIn, e2, f2, Option.map_some, Option.some.injEq] at hc hc2
  subst hc hc2
  have eg : graphAt w g = gr := by simp [graphAt, e1]
  have eg2 : graphAt w2 g = gr2 := by simp [graphAt, f1]
  rw [← eg, hl] at e3
  rw [← eg2, hl2, hn, List.getElem?_map, Option.map_eq_some_iff] at f3
  obtain ⟨z, hz, e⟩ := f3
  obtain rfl := τ.injective e
  obtain ⟨l1, g1⟩ := List.getElem?_eq_some_iff.1 e3
  obtain ⟨l2, g2⟩ := List.getElem?_eq_some_iff.1 hz
  have : p = q := (List.Nodup.getElem_inj_iff hd).1 (g1.trans g2.symm)
  subst this
  exact hm p (List.mem_range.2 l1)

/-- The two executions, up to the move. -/
theorem drawnTwins : Twins plain plain true AnyCall (fun _ => shift5) (fun g => g = 0) (fun k => k = 0 ∨ k = 1) (run plain true World.init drawn1)
    (run plain true World.init drawn2) := by
  have s1 := builtTwins.left (a := .newTrans 8 1) (Option.isNone_iff_eq_none.1 (by decide +kernel)) (show ¬ ((8 : Nat) = 0 ∨ (8 : Nat) = 1) by decide)
  have s2 := s1.right (b := .newTrans 8 1) (Option.isNone_iff_eq_none.1 (by decide +kernel)) (show ¬ ((8 : Nat) = 0 ∨ (8 : Nat) = 1) by decide)
  have s3 := s2.left (a := .op 8 (.extend [nB 0, nB 0])) (op_allowed (by decide +kernel)) (show ¬ ((8 : Nat) = 0 ∨ (8 : Nat) = 1) by decide)
  exact s3.right (b := .op 8 (.extend [nB 0, nB 0, nB 0])) (op_allowed (by decide +kernel)) (show ¬ ((8 : Nat) = 0 ∨ (8 : Nat) = 1) by decide)

/-- The two executions to the end. -/
theorem movedTwins : Twins plain plain true AnyCall (fun _ => shift5) (fun g => g = 0) (fun k => k = 0 ∨ k = 1) (run plain true World.init moved1)
    (run plain true World.init moved2) := by
  have r1 : Reaches plain true AnyCall (run plain true World.init drawn1) := reaches _ (by decide +kernel)
  have r2 : Reaches plain true AnyCall (run plain true World.init drawn2) := reaches _ (by decide +kernel)
  have s5 := drawnTwins.both (a := .switchContext 0 1) (b := .switchContext 0 1) trivial trivial trivial trivial rfl
    ⟨rfl, rfl, movesWell_of (n := 2) plain_named r1 (by decide +kernel) (by decide +kernel) (by decide +kernel) (by decide +kernel),
     movesWell_of (n := 3) plain_named r2 (by decide +kernel) (by decide +kernel) (by decide +kernel) (by decide +kernel),
     fun c0 gr x y y2 _ h h2 => moves_alike (g := 0) (c := 1) (w := run plain true World.init drawn1) (w2 := run plain true World.init drawn2)
       (l := [2, 1]) (l2 := [3, 2]) (n := 2) (n2 := 3) (by decide +kernel) (by decide +kernel) (by decide +kernel) (by decide) (by decide +kernel)
       (by decide +kernel) (by decide +kernel) h h2⟩
  have s6 := s5.both (a := .newTrans 1 1) (b := .newTrans 1 1) (Option.isNone_iff_eq_none.1 (by decide +kernel))
    (Option.isNone_iff_eq_none.1 (by decide +kernel)) trivial trivial (.inr rfl) ⟨rfl, rfl⟩
  exact s6.both (a := .op 1 (.remove 3)) (b := .op 1 (.remove 4)) (op_allowed (by decide +kernel)) (op_allowed (by decide +kernel))
    trivial trivial (.inr rfl) (alikeCall_op (by decide +kernel) (by decide +kernel) (by decide +kernel : (4 : Nat) = shift5 3) (by decide +kernel))

/-- C50, C88: the hypotheses of `C50_program` and `C88_program` are met by two executions in which a graph moves to another context.  The nodes
have the indices 3 and 4 in one of them and 4 and 5 in the other. -/
example : (∀ _c : Nat, shift5 emptyIdx = emptyIdx) ∧ WellNamed plain ∧ (∀ w c, AnyCall w c → SteadyBidirCalls plain w c) ∧
    Twins plain plain true AnyCall (fun _ => shift5) (fun g => g = 0) (fun k => k = 0 ∨ k = 1) (run plain true World.init moved1) (run plain true World.init moved2) ∧
    ((graphAt (run plain true World.init moved1) 0).iter plain).map Prod.fst = [3, 4] ∧
    ((graphAt (run plain true World.init moved2) 0).iter plain).map Prod.fst = [4, 5] ∧
    (graphAt (run plain true World.init moved1) 0).get? 3 = some (nA 4 [3, 4] [4, 4] 5) ∧
    (graphAt (run plain true World.init moved2) 0).get? 4 = some (nA 5 [4, 5] [5, 5] 5) :=
  ⟨fun _ => shift5_zero, plain_named, fun w c _ => plain_noVec.steadyBidirCalls w c, movedTwins, by decide +kernel, by decide +kernel, by decide +kernel,
   by decide +kernel⟩

/-- C88: the hypotheses of `C88_switch_partial` are met by the two graphs before they move. -/
example : let g := graphAt (run plain true World.init drawn1) 0
    let g2 := graphAt (run plain true World.init drawn2) 0
    shift5 emptyIdx = emptyIdx ∧ WellNamed plain ∧ Reachable plain true AnyCall g ∧ Reachable plain true AnyCall g2 ∧ Alike shift5 g.get? g2.get? ∧
    (∀ d, g2.order d = (g.order d).map shift5) ∧ Internal g.get? ∧ ¬ Collision g.get? ((g.iter plain).map Prod.fst) 2 ∧
    ¬ Collision g2.get? ((g2.iter plain).map Prod.fst) 3 ∧ (∀ p, p < (g.iter plain).length → shift5 (2 + 1 + p) = 3 + 1 + p) ∧
    (g.switchContext plain 78 2).toOption.isSome = true ∧ (g2.switchContext plain 89 3).toOption.isSome = true := by
  intro g g2
  have r1 : Reaches plain true AnyCall (run plain true World.init drawn1) := reaches _ (by decide +kernel)
  have r2 : Reaches plain true AnyCall (run plain true World.init drawn2) := reaches _ (by decide +kernel)
  obtain ⟨c, e⟩ := graphAt_some (w := run plain true World.init drawn1) (h := 0) (by decide +kernel)
  obtain ⟨c2, e2⟩ := graphAt_some (w := run plain true World.init drawn2) (h := 0) (by decide +kernel)
  have R1 : Reachable plain true AnyCall g := ⟨_, _, _, r1, e⟩
  have R2 : Reachable plain true AnyCall g2 := ⟨_, _, _, r2, e2⟩
  have hst : ∀ w c, AnyCall w c → SteadyBidirCalls plain w c := fun w c _ => plain_noVec.steadyBidirCalls w c
  refine ⟨shift5_zero, plain_named, R1, R2, ((drawnTwins.inv (fun _ => shift5_zero) plain_named plain_named (.refl _) hst).graph _ _ _ _ _ rfl e e2).2,
    (drawnTwins.orders (fun _ => shift5_zero) plain_named hst).graph _ _ _ _ _ rfl e e2, internal_sound (R1.inv plain_named) (by decide +kernel),
    C32_disjoint fun i hi => Or.inl ?_, C32_disjoint fun i hi => Or.inl ?_, ?_, by decide +kernel, by decide +kernel⟩
  · have : ∀ i ∈ (g.iter plain).map Prod.fst, (i : Nat) ≤ 2 := by decide +kernel
    exact this i hi
  · have : ∀ i ∈ (g2.iter plain).map Prod.fst, (i : Nat) ≤ 3 := by decide +kernel
    exact this i hi
  · have : ∀ p ∈ List.range (g.iter plain).length, shift5 (2 + 1 + p) = 3 + 1 + p := by decide +kernel
    exact fun p hp => this p (List.mem_range.2 hp)

/-- C88 fails for colliding indices: the two graphs differ only in the values of their indices, and both move to a new context.  The set of A has
one link afterwards in the first execution and two links in the second one. -/
theorem C88_switch_fails : ∃ g g2 g' g2', Reachable plain true AnyCall g ∧ Reachable plain true AnyCall g2 ∧ Alike shift5 g.get? g2.get? ∧
    (∀ d, g2.order d = (g.order d).map shift5) ∧ Internal g.get? ∧ g.switchContext plain 78 0 = .ok (g', 2) ∧ g2.switchContext plain 89 0 = .ok (g2', 2) ∧
    g'.get? 1 = some (nA 2 [2] [2, 2] 5) ∧ g2'.get? 1 = some (nA 2 [1, 2] [2, 2] 5) ∧ ∀ τ' : Equiv.Perm NodeIndex, ¬ Alike τ' g'.get? g2'.get? := by
  have r1 : Reaches plain true AnyCall (run plain true World.init built1) := reaches _ (by decide +kernel)
  have r2 : Reaches plain true AnyCall (run plain true World.init built2) := reaches _ (by decide +kernel)
  obtain ⟨c, e⟩ := graphAt_some (w := run plain true World.init built1) (h := 0) (by decide +kernel)
  obtain ⟨c2, e2⟩ := graphAt_some (w := run plain true World.init built2) (h := 0) (by decide +kernel)
  have R1 : Reachable plain true AnyCall (graphAt (run plain true World.init built1) 0) := ⟨_, _, _, r1, e⟩
  have R2 : Reachable plain true AnyCall (graphAt (run plain true World.init built2) 0) := ⟨_, _, _, r2, e2⟩
  have hst : ∀ w c, AnyCall w c → SteadyBidirCalls plain w c := fun w c _ => plain_noVec.steadyBidirCalls w c
  have two : ∀ {g : Graph} {u : Nat}, (g.switchContext plain u 0).toOption.isSome = true → (got (Graph.new 0, 0) (g.switchContext plain u 0)).2 = 2 →
      g.switchContext plain u 0 = .ok ((got (Graph.new 0, 0) (g.switchContext plain u 0)).1, 2) := by
    intro g u h h2
    have := got_ok (d := (Graph.new 0, 0)) h
    rw [this]
    rw [show got (Graph.new 0, 0) (Except.ok (got (Graph.new 0, 0) (g.switchContext plain u 0))) = got (Graph.new 0, 0) (g.switchContext plain u 0) from rfl,
      ← h2]
  have s2 := two (g := graphAt (run plain true World.init built2) 0) (u := 89) (by decide +kernel) (by decide +kernel)
  refine ⟨graphAt (run plain true World.init built1) 0, graphAt (run plain true World.init built2) 0, _, _, R1, R2,
    ((builtTwins.inv (fun _ => shift5_zero) plain_named plain_named (.refl _) hst).graph _ _ _ _ _ rfl e e2).2,
    (builtTwins.orders (fun _ => shift5_zero) plain_named hst).graph _ _ _ _ _ rfl e e2,
    internal_sound (R1.inv plain_named) (by decide +kernel), two (by decide +kernel) (by decide +kernel), s2,
    by decide +kernel, by decide +kernel, fun τ' h => ?_⟩
  have h1 := h.some (x := 1) (n := nA 2 [2] [2, 2] 5) (by decide +kernel)
  obtain ⟨n', h1, h2⟩ := h1
  obtain ⟨_, _, _, _, _, h3, _⟩ := C32_nodes plain_named R2 s2
  obtain ⟨h4, h5, _⟩ := h3 (τ' 1) (by rw [h1]; simp)
  obtain h6 | h6 : τ' 1 = 1 ∨ τ' 1 = 2 := by
    have : ∀ r : Nat, 0 < r → r ≤ 2 → r = 1 ∨ r = 2 := by omega
    exact this (τ' 1) h4 h5
  · rw [h6, show Graph.get? _ 1 = some (nA 2 [1, 2] [2, 2] 5) from by decide +kernel, Option.some.injEq] at h1
    subst h1
    have h7 : LinkVal.Renamed τ' (.set (setOf [2])) (.set (setOf [1, 2])) := by
      have := h2.2.2
      simp only [nA, List.forall₂_cons] at this
      exact this.2.1
    obtain ⟨u, hu, hu1, _⟩ := (h7 1).1 (by decide)
    have hu : u ∈ [2] := hu
    simp only [List.mem_cons, List.not_mem_nil, or_false] at hu
    subst hu
    exact absurd (τ'.injective (hu1.trans h6.symm)) (by decide)
  · rw [h6, show Graph.get? _ 2 = some (nB 0) from by decide +kernel, Option.some.injEq] at h1
    subst h1
    exact absurd h2.1 (by decide)

end TTGraph.Demo
