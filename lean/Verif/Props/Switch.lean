import Verif.Lemmas.Switched
import Verif.Lemmas.Backlinks
import Verif.Props.Bidir

/-!
# C32, C33: `switch_context` and files
-/

set_option autoImplicit false

namespace TTGraph

open Spec

variable [SetImpl] {S : Schema} {dbg : Bool} {R : World → Call → Prop}

/-! ## C32 -/

/-- `switch_context` gives every node its own new index, larger than all indices the new context has issued before; it draws one index per
node, in the order of iteration, and keeps variants, data, kinds of links and lengths of `Vec`s. -/
theorem C32_nodes (hw : WellNamed S) {g g' : Graph} {u cnt cnt' : Nat} (h : Reachable S dbg R g)
    (hs : g.switchContext S u cnt = .ok (g', cnt')) :
    g'.ctxId = u ∧ cnt' = cnt + g.len S ∧ ∃ ρ : NodeIndex → NodeIndex,
      (∀ (p : Nat) (i : NodeIndex), ((g.iter S).map Prod.fst)[p]? = some i → ρ i = cnt + 1 + p) ∧
      (∀ x y, g.get? x ≠ none → g.get? y ≠ none → ρ x = ρ y → x = y) ∧
      (∀ x' : Nat, g'.get? x' ≠ none → cnt < x' ∧ x' ≤ cnt' ∧ ∃ x, g.get? x ≠ none ∧ ρ x = x') ∧
      ∀ x n, g.get? x = some n → ∃ n', g'.get? (ρ x) = some n' ∧ n'.shape = n.shape := by
  obtain ⟨a0, idMap, a, h1, h2, h3, h4, h5, h6, h7, _⟩ := switch_ok hw (h.inv hw) hs
  refine ⟨h6.ctx, by rw [h7, show g.len S = (g.iter S).length from Arena.len_eq S g.nodes], Graph.rename idMap, ?_, ?_, ?_, ?_⟩
  · intro p i hp
    rw [List.getElem?_map, Option.map_eq_some_iff] at hp
    obtain ⟨⟨i', n⟩, hp, rfl⟩ := hp
    exact Graph.rename_some ((h1.map_get i' _).2 ⟨p, n, hp, rfl⟩)
  · intro x y hx hy hxy
    obtain ⟨x', hx'⟩ := Option.ne_none_iff_exists'.1 ((h2 x).2 hx)
    obtain ⟨y', hy'⟩ := Option.ne_none_iff_exists'.1 ((h2 y).2 hy)
    rw [Graph.rename_some hx', Graph.rename_some hy'] at hxy
    subst hxy
    exact h3 _ _ _ hx' hy'
  · intro x' hx'
    obtain ⟨i, n, k1, k2⟩ := (h5.good (h.inv hw) h1).1 x' (fun e => hx' ((LoadOut.none_iff h6 x').2 e))
    exact ⟨(h4 i x' k2).1, (h4 i x' k2).2, i, by rw [k1]; simp, Graph.rename_some k2⟩
  · intro x n hn
    obtain ⟨x', hx'⟩ := Option.ne_none_iff_exists'.1 ((h2 x).2 (by rw [hn]; simp))
    obtain ⟨n', k1, k2, _⟩ := h5.node x n x' hn hx'
    rw [Graph.rename_some hx']
    have := h6.same.1 x'
    rw [k1] at this
    cases hg : g'.get? x' with
    | none => rw [hg] at this; exact absurd this (by simp)
    | some n2 =>
      rw [hg] at this
      simp only [Option.map_some, Option.some.injEq] at this
      exact ⟨n2, rfl, this.trans k2⟩

omit [SetImpl] in
/-- The assumption on colliding indices: new indices that are not indices of the graph do not collide. -/
theorem C32_disjoint {g : Graph} {cnt : Nat} {order : List NodeIndex} (hg : ∀ i : Nat, i ∈ order → i ≤ cnt ∨ cnt + order.length < i) :
    ¬ Collision g.get? order cnt := by
  rintro ⟨p, q, a, b, h1, h2, h3, h4, _⟩
  have hq := (List.getElem?_eq_some_iff.1 h2).1
  have := hg b (List.mem_of_getElem? h2)
  subst h4
  omega

/-- `switch_context` of a graph with internal links in which every link has its opposite: an isomorphism, if no old index collides with a new
one.  The nodes get the next indices of the context, in the order of iteration.

Full statement of C32: the same without the last condition.  That is false, see below. -/
theorem C32_iso_partial (hw : WellNamed S) {g g' : Graph} {u cnt cnt' : Nat} (h : Reachable S dbg R g) (hI : Internal g.get?)
    (ha : Answered S g.get?) (hc : ¬ Collision g.get? ((g.iter S).map Prod.fst) cnt) (hs : g.switchContext S u cnt = .ok (g', cnt')) :
    ∃ ρ, (∀ (p : Nat) (i : NodeIndex), ((g.iter S).map Prod.fst)[p]? = some i → ρ i = cnt + 1 + p) ∧ Isomorphic ρ g.get? g'.get? := by
  obtain ⟨a0, idMap, a, h1, h2, h3, h4, h5, h6, h7, _⟩ := switch_ok hw (h.inv hw) hs
  have hiso := h5.isomorphic (h.inv hw) h1 h2 h3 (by rw [← h7]; exact h4) hI hc
  have hg := h5.good (h.inv hw) h1
  refine ⟨_, fun p i hp => ?_, hiso.same ((hiso.answered hI hg.2.1 ha).same hg.2.2.1 h6.completion)⟩
  rw [List.getElem?_map, Option.map_eq_some_iff] at hp
  obtain ⟨⟨i', n⟩, hp, rfl⟩ := hp
  exact Graph.rename_some ((h1.map_get i' _).2 ⟨p, n, hp, rfl⟩)

/-- Such a `switch_context` does not panic, if the links satisfy their annotations. -/
theorem C32_returns_partial (hw : WellNamed S) {g : Graph} (u cnt : Nat) (h : Reachable S dbg R g) (hI : Internal g.get?)
    (ha : Answered S g.get?) (ht : WellTyped S g.get?) (hc : ¬ Collision g.get? ((g.iter S).map Prod.fst) cnt) :
    ∃ g' cnt' ρ, g.switchContext S u cnt = .ok (g', cnt') ∧ (∀ (p : Nat) (i : NodeIndex), ((g.iter S).map Prod.fst)[p]? = some i → ρ i = cnt + 1 + p) ∧
      Isomorphic ρ g.get? g'.get? := by
  have inv := h.inv hw
  obtain ⟨a0, idMap, a, _, h1, h0, h2, h3, h4, h5⟩ := Graph.switchNodes_ok hw.variants inv cnt
  have hiso := h5.isomorphic inv h1 h2 h3 h4 hI hc
  have hg := h5.good inv h1
  have hans := hiso.answered hI hg.2.1 ha
  obtain ⟨g', k1, k2⟩ := Graph.switchContext_answered hw inv u cnt h1 h0 h5 hans (hiso.wellTyped hI hg.2.1 ht)
  refine ⟨g', _, _, k1, fun p i hp => ?_, hiso.same (hans.same hg.2.2.1 k2.completion)⟩
  rw [List.getElem?_map, Option.map_eq_some_iff] at hp
  obtain ⟨⟨i', n⟩, hp, rfl⟩ := hp
  exact Graph.rename_some ((h1.map_get i' _).2 ⟨p, n, hp, rfl⟩)

/-- The condition on colliding indices is necessary: without `bidirectional!` lines, links are lost whenever indices collide. -/
theorem C32_collision_fails (hw : WellNamed S) (hb : S.bidirs = []) {g g' : Graph} {u cnt cnt' : Nat} (h : Reachable S dbg R g)
    (hI : Internal g.get?) (hc : Collision g.get? ((g.iter S).map Prod.fst) cnt) (hs : g.switchContext S u cnt = .ok (g', cnt'))
    (ρ : NodeIndex → NodeIndex) (hρ : ∀ (p : Nat) (i : NodeIndex), ((g.iter S).map Prod.fst)[p]? = some i → ρ i = cnt + 1 + p) :
    ¬ Isomorphic ρ g.get? g'.get? := by
  intro hiso
  have inv := h.inv hw
  obtain ⟨a0, idMap, a, h1, h2, h3, h4, h5, h6, h7, _⟩ := switch_ok hw inv hs
  have hg := h5.good inv h1
  have hans : Answered S a.get? := fun x m y n _ _ ⟨m', ⟨l, hl, _⟩, _⟩ => absurd hl (by simp [hb])
  have hsame := (hans.same hg.2.2.1 h6.completion).symm
  have hagree : ∀ x, g.get? x ≠ none ∨ x = emptyIdx → ρ x = Graph.rename idMap x := by
    rintro x (hx | rfl)
    · obtain ⟨x', hx'⟩ := Option.ne_none_iff_exists'.1 ((h2 x).2 hx)
      obtain ⟨p, n, k1, k2⟩ := (h1.map_get x x').1 hx'
      rw [Graph.rename_some hx', hρ p x (by rw [List.getElem?_map, k1]; rfl), k2]
      rfl
    · rw [hiso.empty]
      cases he : idMap.get? emptyIdx with
      | none => simp [Graph.rename, he]
      | some w => exact absurd inv.noEmpty ((h2 emptyIdx).1 (by rw [he]; simp))
  refine h5.not_isomorphic inv h1 h2 h3 (by rw [← h7]; exact h4) hI hc ?_
  have hi := hiso.same hsame
  refine ⟨by rw [← hagree _ (Or.inr rfl)]; exact hi.empty, ?_, ?_, ?_⟩
  · intro x y hx hy hxy
    rw [← hagree x (Or.inl hx), ← hagree y (Or.inl hy)] at hxy
    exact hi.inj x y hx hy hxy
  · intro x n hn
    obtain ⟨n', k1, k2⟩ := hi.node x n hn
    rw [← hagree x (Or.inl (by rw [hn]; simp))]
    refine ⟨n', k1, Node.renamed_of_holds k2.shape fun t w => ?_⟩
    rw [k2.holds]
    have hag : ∀ y, n.Holds t y → ρ y = Graph.rename idMap y := fun y hy => hagree y ((hI x t y ⟨n, hn, hy⟩).symm)
    constructor
    · rintro ⟨y, e1, e2, e3⟩; exact ⟨y, e1, by rw [← hag y e1]; exact e2, e3⟩
    · rintro ⟨y, e1, e2, e3⟩; exact ⟨y, e1, by rw [hag y e1]; exact e2, e3⟩
  · intro x' hx'
    obtain ⟨x, hx, e⟩ := hi.onto x' hx'
    exact ⟨x, hx, by rw [← hagree x (Or.inl hx)]; exact e⟩

/-- A graph of a program whose closures keep variants and whose transactions are sound is moved by an isomorphism to a context that has issued
all indices of the graph, in particular to its own context.  `switch_context` does not panic if the links satisfy their annotations. -/
theorem C32_same_context_partial (hw : WellNamed S) (hst : ∀ w c, R w c → SteadyBidirCalls S w c) (hone : OneOpposite S) (hK : ∀ w c, R w c → KeepVariants w c)
    (hR : ∀ w c, R w c → SoundCalls w c) {g : Graph} (u cnt : Nat) (h : Reachable S dbg R g) (hcnt : ∀ i : Nat, g.get? i ≠ none → i ≤ cnt)
    (ht : WellTyped S g.get?) : ∃ g' cnt' ρ, g.switchContext S u cnt = .ok (g', cnt') ∧
      (∀ (p : Nat) (i : NodeIndex), ((g.iter S).map Prod.fst)[p]? = some i → ρ i = cnt + 1 + p) ∧ Isomorphic ρ g.get? g'.get? := by
  have hI := fun g (hg : Reachable S dbg R g) => C12_internal_partial hw hR hg
  refine C32_returns_partial hw u cnt h (hI g h) ((symmetric_closed hw hst hone hK (fun w c h => (hR w c h).noCatch) hI).reachable h).answered ht (C32_disjoint fun i hi => Or.inl ?_)
  obtain ⟨⟨i', n⟩, hm, rfl⟩ := List.mem_map.1 hi
  exact hcnt i' (by rw [show g.get? i' = some n from (Arena.mem_entries (h.inv hw).arena).1 hm]; simp)

/-! ## C33 -/

/-- What `deserialize_graph` makes of a serialized graph, if it returns: the same context id, the same nodes with the same indices, the same
variants, data, kinds of links and lengths of `Vec`s, consistent back-links, and a context whose next index is larger than the indices of all
nodes. -/
theorem C33_nodes (hw : WellNamed S) {g g' : Graph} {cnt : Nat} (h : Reachable S dbg R g)
    (hd : Graph.deserializeGraph S (g.serialize S) = .ok (cnt, g')) :
    g'.ctxId = g.ctxId ∧ SameButLinks g.get? g'.get? ∧ Graph.checkBacklinks S true g' = .ok () ∧ ∀ i : Nat, g'.get? i ≠ none → i < cnt + 1 := by
  have inv := h.inv hw
  have hE : ∀ i n, (i, n) ∈ g.iter S ↔ g.get? i = some n := fun i n => Arena.mem_entries inv.arena
  have hin : ∀ e ∈ (g.serialize S).nodes, e.1 ≠ emptyIdx ∧ S.WT e.2 := by
    rintro ⟨i, n⟩ he
    have hn := (hE i n).1 he
    refine ⟨?_, inv.wt i n hn⟩
    rintro rfl
    rw [inv.noEmpty] at hn
    exact absurd hn (by simp)
  obtain ⟨h1, h2, a, h3, h4, h5⟩ := deserialize_ok hw hin hd
  have hag : a.get? = g.get? := by
    funext i
    refine Option.ext fun n => ?_
    rw [h3.get]
    exact hE i n
  refine ⟨h5.ctx, by rw [← hag]; exact h5.same.1, ?_, ?_⟩
  · exact (Graph.checkBacklinks_ok h5.inv true).2 fun y _ x s hr => h5.inv.exact x s y (Or.inr trivial) hr
  · intro i hi
    have : a.get? i ≠ none := fun e => hi ((LoadOut.none_iff h5 i).2 e)
    obtain ⟨n, hn⟩ := Option.ne_none_iff_exists'.1 this
    rw [h2]
    exact Nat.lt_succ_of_le ((Graph.le_maxIndex _ 0).1 _ ((h3.get i n).1 hn))

/-- A graph with internal links in which every link has its opposite can be written and read back: `deserialize_graph` returns a graph with
the same nodes, up to the order of sets, and the next index is larger than every index in use.

Full statement of C33: the same for all reachable graphs.  That is false, see below. -/
theorem C33_roundtrip_partial (hw : WellNamed S) {g : Graph} (h : Reachable S dbg R g) (hI : Internal g.get?) (ha : Answered S g.get?) :
    ∃ cnt g', Graph.deserializeGraph S (g.serialize S) = .ok (cnt, g') ∧ g'.ctxId = g.ctxId ∧ View.Same g.get? g'.get? ∧
      Graph.checkBacklinks S true g' = .ok () ∧ ∀ i : Nat, g'.get? i ≠ none ∨ View.Linked g'.get? i → i < cnt + 1 := by
  have inv := h.inv hw
  have hE : ∀ i n, (i, n) ∈ g.iter S ↔ g.get? i = some n := fun i n => Arena.mem_entries inv.arena
  have hin : ∀ e ∈ (g.serialize S).nodes, e.1 ≠ emptyIdx ∧ S.WT e.2 := by
    rintro ⟨i, n⟩ he
    have hn := (hE i n).1 he
    refine ⟨?_, inv.wt i n hn⟩
    rintro rfl
    rw [inv.noEmpty] at hn
    exact absurd hn (by simp)
  have hag : ∀ {a : Arena}, Arena.FromIter S (g.serialize S).nodes a → a.get? = g.get? := by
    intro a h3
    funext i
    refine Option.ext fun n => ?_
    rw [h3.get]
    exact hE i n
  obtain ⟨a, g', h3, h4, h5⟩ := Graph.deserialize_answered hw hin (Arena.entries_nodup hw.variants inv.arena) fun a h3 => by
    rw [hag h3]; exact ha
  have hsame : View.Same g.get? g'.get? := by
    rw [← hag h3]
    exact Answered.same (by rw [hag h3]; exact inv.wt) (by rw [hag h3]; exact ha) h5.completion
  obtain ⟨c1, c2, c3, c4⟩ := C33_nodes hw h h4
  refine ⟨_, g', h4, c1, hsame, c3, ?_⟩
  rintro i (hi | ⟨x, s, hh⟩)
  · exact c4 i hi
  · have := (View.same_iff.1 hsame).2 x s i
    rcases hI x s i (this.1 hh) with rfl | hne
    · exact Nat.succ_pos _
    · exact c4 i fun e => hne ((hsame.none_iff i).1 e)

/-- In particular the graphs of programs whose closures keep variants and whose transactions are sound can be written and read back. -/
theorem C33_programs_partial (hw : WellNamed S) (hst : ∀ w c, R w c → SteadyBidirCalls S w c) (hone : OneOpposite S) (hK : ∀ w c, R w c → KeepVariants w c)
    (hR : ∀ w c, R w c → SoundCalls w c) {g : Graph} (h : Reachable S dbg R g) :
    ∃ cnt g', Graph.deserializeGraph S (g.serialize S) = .ok (cnt, g') ∧ g'.ctxId = g.ctxId ∧ View.Same g.get? g'.get? ∧
      Graph.checkBacklinks S true g' = .ok () ∧ ∀ i : Nat, g'.get? i ≠ none ∨ View.Linked g'.get? i → i < cnt + 1 :=
  have hI := fun g (hg : Reachable S dbg R g) => C12_internal_partial hw hR hg
  C33_roundtrip_partial hw h (hI g h) ((symmetric_closed hw hst hone hK (fun w c h => (hR w c h).noCatch) hI).reachable h).answered

end TTGraph

namespace TTGraph
namespace Demo
open Spec

theorem pair4_reachable : Reachable pair true SoundKeep (graphAt (run pair true World.init pair4) 0) :=
  reachable_of (reaches_soundKeep pair_named pair4 (by decide +kernel)) 0 (by decide +kernel)

/-- C32: the hypotheses of the theorems are met by a graph of four nodes, for another context (new indices 1 to 4 are given to the nodes 1, 3,
2, 4 in this order) and for its own. -/
example : let g := graphAt (run pair true World.init pair4) 0
    Reachable pair true SoundKeep g ∧ Internal g.get? ∧ Answered pair g.get? ∧ WellTyped pair g.get? ∧
    ¬ Collision g.get? ((g.iter pair).map Prod.fst) 7 ∧ ¬ Collision g.get? ((g.iter pair).map Prod.fst) 4 ∧
    (g.switchContext pair 78 4).toOption.isSome = true ∧ (g.iter pair).map Prod.fst = [1, 3, 2, 4] := by
  intro g
  have hI := fun g (hg : Reachable pair true SoundKeep g) => C12_internal_partial pair_named (fun _ _ h => h.1) hg
  have he : (g.iter pair).map Prod.fst = [1, 3, 2, 4] := by decide +kernel
  refine ⟨pair4_reachable, hI _ pair4_reachable,
    ((symmetric_closed pair_named (fun w c _ => pair_noVec.steadyBidirCalls w c) pair_one (fun _ _ h => h.2) (fun _ _ h => h.1.noCatch) hI).reachable pair4_reachable).answered,
    fun _ _ _ _ _ _ a ha => absurd ha (by simp [pair]), C32_disjoint ?_, C32_disjoint ?_, by decide +kernel, he⟩
  · rw [he]; decide
  · rw [he]; decide

/-- B is inserted first and A second, and A links to both in its set.  Iteration yields A first. -/
def collide3 : List Step :=
  [.call (.newContext 0 77), .call (.newGraph 0 0), .call (.newTrans 0 0), .call (.op 0 (.insert (nB 0))),
   .call (.op 0 (.insert (nA 1 [1, 2] [2, 1] 5))), .call (.commit 0 0), .call (.newContext 1 78)]

/-- C32 fails: a graph with two nodes is moved to a new context.  The set of A had links to both nodes and has only one link afterwards: A's
new index is 1, then all links to 1, the old index of B, are moved to 2. -/
theorem C32_fails : ∃ g g', Reachable plain true SoundCalls g ∧ Internal g.get? ∧ Answered plain g.get? ∧ WellTyped plain g.get? ∧
    g.switchContext plain 78 0 = .ok (g', 2) ∧ g.get? 1 = some (nB 0) ∧ g.get? 2 = some (nA 1 [1, 2] [2, 1] 5) ∧
    g'.get? 1 = some (nA 2 [2] [1, 2] 5) ∧ g'.get? 2 = some (nB 0) ∧ ¬ ∃ ρ, Isomorphic ρ g.get? g'.get? := by
  let g := graphAt (run plain true World.init collide3) 0
  have hr : Reachable plain true SoundCalls g :=
    reachable_of (reaches_sound (us := []) plain_named collide3 .init (fun _ _ h => absurd h (by simp [World.init])) (by decide +kernel)) 0
      (by decide +kernel)
  have e : g.switchContext plain 78 0 = .ok ((got (Graph.new 0, 0) (g.switchContext plain 78 0)).1, 2) := by
    have := got_ok (d := (Graph.new 0, 0)) (e := g.switchContext plain 78 0) (by decide +kernel)
    rw [this]
    have h2 : (got (Graph.new 0, 0) (g.switchContext plain 78 0)).2 = 2 := by decide +kernel
    rw [show got (Graph.new 0, 0) (Except.ok (got (Graph.new 0, 0) (g.switchContext plain 78 0))) = got (Graph.new 0, 0) (g.switchContext plain 78 0) from rfl,
      ← h2]
  refine ⟨g, _, hr, C12_internal_partial plain_named (fun _ _ h => h) hr, fun _ _ _ _ _ _ ⟨_, ⟨l, hl, _⟩, _⟩ => absurd hl (by simp [plain]),
    fun _ _ _ _ _ _ a ha => absurd ha (by simp [plain]), e, by decide +kernel, by decide +kernel, by decide +kernel, by decide +kernel, ?_⟩
  rintro ⟨ρ, h⟩
  obtain ⟨n', h1, h2⟩ := h.node 2 (nA 1 [1, 2] [2, 1] 5) (by decide +kernel)
  obtain ⟨_, _, _, _, _, h3, _⟩ := C32_nodes plain_named hr e
  obtain ⟨h4, h5, _⟩ := h3 (ρ 2) (by rw [h1]; simp)
  obtain h6 | h6 : ρ 2 = 1 ∨ ρ 2 = 2 := by
    have : ∀ r : Nat, 0 < r → r ≤ 2 → r = 1 ∨ r = 2 := by omega
    exact this (ρ 2) h4 h5
  · rw [h6, show Graph.get? _ 1 = some (nA 2 [2] [1, 2] 5) from by decide +kernel, Option.some.injEq] at h1
    subst h1
    have h7 : LinkVal.Renamed ρ (.set (setOf [1, 2])) (.set (setOf [2])) := by
      have := h2.2.2
      simp only [nA, List.forall₂_cons] at this
      exact this.2.1
    have : ρ 2 ∈ (setOf [2]).elems := (h7 (ρ 2)).2 ⟨2, by decide, rfl, Or.inl (by rw [h6]; decide)⟩
    rw [h6] at this
    exact absurd this (by decide)
  · rw [h6, show Graph.get? _ 2 = some (nB 0) from by decide +kernel, Option.some.injEq] at h1
    subst h1
    exact absurd h2.1 (by decide)

/-- C32: the hypotheses of `C32_collision_fails` are met. -/
example : let g := graphAt (run plain true World.init collide3) 0
    plain.bidirs = [] ∧ Reachable plain true AnyCall g ∧ (g.switchContext plain 78 0).toOption.isSome = true ∧
    Collision g.get? ((g.iter plain).map Prod.fst) 0 :=
  ⟨rfl, reachable_of (reaches collide3 (by decide +kernel)) 0 (by decide +kernel), by decide +kernel,
    0, 1, 2, 1, by decide +kernel, by decide +kernel, by decide, by decide, 2, ⟨1, 1, 0⟩,
    ⟨nA 1 [1, 2] [2, 1] 5, by decide +kernel, rfl, .set (setOf [1, 2]), rfl, rfl, by decide⟩,
    ⟨nA 1 [1, 2] [2, 1] 5, by decide +kernel, rfl, .set (setOf [1, 2]), rfl, rfl, by decide⟩⟩

/-- C33: the graph of four nodes is written and read back. -/
example : let g := graphAt (run pair true World.init pair4) 0
    Reachable pair true SoundKeep g ∧ g.get? 4 = some (pB [3] 1) ∧ ∃ cnt g', Graph.deserializeGraph pair (g.serialize pair) = .ok (cnt, g') ∧
      cnt = 4 ∧ g'.get? 4 = some (pB [3] 1) :=
  ⟨pair4_reachable, by decide +kernel, _, _, got_ok (d := (0, Graph.new 0)) (by decide +kernel), by decide +kernel, by decide +kernel⟩

/-- `Internal` by evaluation. -/
def internal (S : Schema) (g : Graph) : Bool :=
  (g.nodes.entries S).all fun e => e.2.iterSources.all fun p => p.1 == emptyIdx || (g.get? p.1).isSome

theorem internal_sound {S : Schema} {e0 : Prop} {g : Graph} (h : g.Inv S e0) (hk : internal S g = true) : Internal g.get? := by
  rintro x s y ⟨n, hn, hh⟩
  simp only [internal, List.all_eq_true, Bool.or_eq_true, beq_iff_eq, Option.isSome_iff_ne_none] at hk
  exact hk (x, n) ((Arena.mem_entries h.arena).2 hn) (y, s) (Node.mem_iterSources.2 hh)

/-- C33 fails: 2 links to 1 and 1 does not link back, because it was inserted later.  After writing and reading the graph, it does. -/
theorem C33_fails : ∃ g cnt g', Reachable pair true KeepVariants g ∧ Graph.deserializeGraph pair (g.serialize pair) = .ok (cnt, g') ∧
    Internal g.get? ∧ g.get? 1 = some (pB [] 0) ∧ g'.get? 1 = some (pB [2] 0) := by
  have hr := reachable_of (reaches_run (S := pair) (dbg := true) (us := []) keepStep_ok early5 .init (fun _ _ h => absurd h (by simp [World.init]))
    (by decide +kernel)) 0 (by decide +kernel)
  exact ⟨_, _, _, hr, got_ok (d := (0, Graph.new 0)) (by decide +kernel), internal_sound (hr.inv pair_named) (by decide +kernel),
    by decide +kernel, by decide +kernel⟩

/-- A node with a link to an index that no node has. -/
def outside3 : List Step :=
  [.call (.newContext 0 77), .call (.newGraph 0 0), .call (.newTrans 0 0), .call (.op 0 (.insert (nB 3))), .call (.op 0 .allocUntyped), .call (.op 0 .allocUntyped),
   .call (.commit 0 0)]

/-- C33 fails: the graph has a link to an index without a node.  That index is larger than those of all nodes, and the new context will issue
it to a new node. -/
theorem C33_external_fails : ∃ g cnt g', Reachable plain false KeepVariants g ∧ Graph.deserializeGraph plain (g.serialize plain) = .ok (cnt, g') ∧
    g'.get? 1 = some (nB 3) ∧ cnt = 1 :=
  ⟨_, _, _, reachable_of (reaches_run (us := []) keepStep_ok outside3 .init (fun _ _ h => absurd h (by simp [World.init])) (by decide +kernel)) 0
    (by decide +kernel), got_ok (d := (0, Graph.new 0)) (by decide +kernel), by decide +kernel, by decide +kernel⟩

end Demo
end TTGraph
