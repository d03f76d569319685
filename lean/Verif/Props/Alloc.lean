import Verif.Lemmas.Protocol
import Verif.Demo.Traced
import Verif.Demo.Decls

/-!
# C14, C15: allocating an index and filling it later
-/

set_option autoImplicit false

namespace TTGraph
open Spec
variable [SetImpl] {S : Schema} {dbg : Bool} {R : World → Call → Prop}

/-! ## C14: errors in the use of `alloc` and `fill_back` are detected -/

/-- In every program (in which graphs are merged only when debug assertions are on, see below), for every index and every node, the calls
made so far on the transaction decide what `fill_back` does: it panics if the index was not handed out by `alloc` or was withdrawn, if it
has been filled already, or if the variant is not the one that was announced; otherwise the node is pending under that index, which is no
longer unfilled, and nothing else changes.

Full statement of C14: the same of all programs.  It is false, see `C14_release_merge_fails`; what is missing is `merge` in release
builds. -/
theorem C14_fill_back_partial (hw : WellNamed S) (hR : ∀ w k g, R w (.merge k g) → dbg = true) {w : World} {tr : Nat → List Event}
    (h : Traced S dbg R w tr) {k c : Nat} {t : Trans} (hk : w.trans k = some (c, t)) (i : NodeIndex) (n : Node) :
    match slotAfter (tr k) i with
    | .unknown => t.fillBack i n = .error .fillNonexisting
    | .untyped => t.fillBack i n = .error .fillNonexisting
    | .reserved d => if n.disc = d
        then ∃ t', t.fillBack i n = .ok t' ∧
          t'.pending = { t.pending with new := upd t.pending.new i (some n), unfilled := fun j => t.pending.unfilled j ∧ j ≠ i }
        else t.fillBack i n = .error .fillType
    | .filled => t.fillBack i n = .error .fillOccupied ∨ t.fillBack i n = .error .fillType := by
  have hs := h.slots hw hR k c t hk i
  obtain ⟨_, _, _, hready⟩ := (h.reaches.inv hw).trans k c t hk
  cases hsl : slotAfter (tr k) i with
  | unknown =>
    rw [hsl] at hs
    simp only [Trans.fillBack, Arena.fillBack, hs.1]
  | untyped =>
    rw [hsl] at hs
    simp only [Trans.fillBack, Arena.fillBack, hs.1]
  | reserved d =>
    rw [hsl] at hs
    simp only
    split
    · rename_i e
      rcases Arena.fillBack_cases t.inc i n with ⟨h1, _⟩ | ⟨d', h1, h2, _⟩ | ⟨_, h2, _⟩ | ⟨h1, h2, a, e1, h3, h4⟩
      · rw [hs.1] at h1; exact absurd h1 (by simp)
      · rw [hs.1, Option.some.injEq] at h1
        exact absurd (e.trans h1) h2
      · exact absurd (hready.allocs i hs.2) h2
      · refine ⟨{ t with inc := a, allocs := t.allocs.swapRemove i }, by simp only [Trans.fillBack, e1], ?_⟩
        simp only [Trans.pending, OrderSet.mem_swapRemove, Pending.mk.injEq, and_true]
        exact upd_ext (Arena.eq_store h3 h4 h1)
    · rename_i e
      simp only [Trans.fillBack, Arena.fillBack, hs.1]
      rw [if_pos e]
  | filled =>
    rw [hsl] at hs
    simp only [Trans.fillBack]
    rcases Arena.fillBack_cases t.inc i n with ⟨h1, _⟩ | ⟨d', _, _, h3⟩ | ⟨_, _, h3⟩ | ⟨_, h2, _⟩
    · exact absurd (Arena.get?_of_disp_none h1) hs
    · rw [h3]; exact Or.inr rfl
    · rw [h3]; exact Or.inl rfl
    · exact absurd h2 hs

/-- With debug assertions on, a transaction with an index that was handed out by `alloc` or `alloc_untyped` and neither filled nor withdrawn
cannot be committed to any graph of its context. -/
theorem C14_unfilled (hw : WellNamed S) {w : World} {tr : Nat → List Event} (h : Traced S true R w tr)
    {k c hh : Nat} {t : Trans} {g : Graph} (hk : w.trans k = some (c, t)) (hg : w.graph hh = some (c, g)) {i : NodeIndex}
    (hi : slotAfter (tr k) i = .untyped ∨ ∃ d, slotAfter (tr k) i = .reserved d) : g.commit S true t = .error .unfilledAlloc := by
  have hs := h.slots hw (fun _ _ _ _ => rfl) k c t hk i
  have hm : i ∈ t.allocs := by
    rcases hi with hi | ⟨d, hi⟩ <;> rw [hi] at hs <;> exact hs.2
  have hctx : t.ctxId = g.ctxId := by
    have hM : Meets S true R g t := ⟨w, hh, k, c, h.reaches, hg, hk⟩
    exact (hM.disjoint hw).2.1
  have he : t.allocs.isEmpty = false := by
    rw [← Bool.not_eq_true]
    intro he
    unfold OrderSet.isEmpty at he
    rw [List.isEmpty_iff] at he
    have hm' : i ∈ t.allocs.elems := hm
    rw [he] at hm'
    exact absurd hm' (by simp)
  simp [Graph.commit, Graph.doCommit_eq, hctx, he]

/-- Conversely an index in any other state does not keep the transaction from being committed: if all indices are filled, withdrawn or
unknown, the commit does not fail with this panic. -/
theorem C14_filled_partial (hw : WellNamed S) (hR : ∀ w k g, R w (.merge k g) → dbg = true) {w : World} {tr : Nat → List Event}
    (h : Traced S dbg R w tr) {k c : Nat} {t : Trans} (hk : w.trans k = some (c, t))
    (hi : ∀ i, slotAfter (tr k) i = .unknown ∨ slotAfter (tr k) i = .filled) (i : NodeIndex) : ¬ t.pending.unfilled i := by
  have hs := h.slots hw hR k c t hk i
  obtain ⟨_, _, _, hready⟩ := (h.reaches.inv hw).trans k c t hk
  intro hm
  rcases hi i with hi | hi
  · rw [hi] at hs; exact hs.2 hm
  · rw [hi] at hs; exact hs (hready.allocs i hm)

/-! ## C15: `fill_back_untyped` -/

/-- What holds of C15: if closures keep the variant of nodes, `fill_back_untyped` panics on an index that holds a pending node of the same
variant; and on an index that the caller got from `alloc_untyped` and has not used yet, it makes the node pending under that index.
Missing: a panic on an index that is occupied by a node of another variant, and on one that is occupied in the graph. -/
theorem C15_partial (hw : WellNamed S) (hR : ∀ w k g, R w (.merge k g) → dbg = true) (hK : ∀ w c, R w c → KeepVariants w c)
    {w : World} {tr : Nat → List Event} (h : Traced S dbg R w tr) {k c : Nat} {t : Trans} (hk : w.trans k = some (c, t)) (i : NodeIndex) (n : Node) :
    (∀ m, t.pending.new i = some m → m.disc = n.disc → t.fillBackUntyped i n = .error .fillOccupied) ∧
    (slotAfter (tr k) i = .untyped → ∃ t', t.fillBackUntyped i n = .ok t' ∧
      t'.pending = { t.pending with new := upd t.pending.new i (some n), unfilled := fun j => t.pending.unfilled j ∧ j ≠ i }) := by
  obtain ⟨x, hx, _, hready⟩ := (h.reaches.inv hw).trans k c t hk
  constructor
  · intro m hm hd
    have hty : t.Typed := (typed_closed hw hK).building ⟨w, k, c, x, h.reaches, hk, hx, rfl⟩
    have := Arena.Typed.get? hty.1 hm
    rcases Arena.fillBackUntyped_cases t.inc i n with ⟨_, e⟩ | ⟨h1, _⟩
    · simp only [Trans.fillBackUntyped, e]
    · rw [← hd, this] at h1
      exact absurd h1 (by simp)
  · intro hs
    have hs' := h.slots hw hR k c t hk i
    rw [hs] at hs'
    rcases Arena.fillBackUntyped_cases t.inc i n with ⟨h1, _⟩ | ⟨_, e⟩
    · exact absurd (hready.good.inv.cont_none_of_get? (hready.allocs i hs'.2) _) h1
    · refine ⟨{ t with inc := t.inc.store i n, allocs := t.allocs.swapRemove i }, by simp only [Trans.fillBackUntyped, e], ?_⟩
      simp only [Trans.pending, OrderSet.mem_swapRemove, Pending.mk.injEq, and_true]
      exact upd_ext (Arena.store_get? _ _ _)

end TTGraph

namespace TTGraph.Demo
open Spec

/-- Index 1 is reserved for `B`, 2 was handed out untyped, 3 is a node, 4 was allocated and withdrawn, 5 was reserved and filled. -/
def allocProg : List Step :=
  [.call (.newContext 0 77), .call (.newGraph 0 0), .call (.newTrans 0 0), .call (.op 0 (.alloc 2)), .call (.op 0 .allocUntyped),
   .call (.op 0 (.insert (nB 1))), .call (.op 0 (.alloc 1)), .call (.op 0 (.remove 4)), .call (.op 0 (.alloc 1)),
   .call (.op 0 (.fillBack 5 (nA 3 [1] [] 4)))]

/-- The states of the indices, and what `fill_back` and the commit do. -/
example :
    let w := run plain true World.init allocProg
    let tr := traceOf plain true World.init (fun _ => []) allocProg
    (Traced plain true AnyCall w tr ∧ hasBoth w 0 0 = true) ∧
    (slotAfter (tr 0) 1 = .reserved 2 ∧ slotAfter (tr 0) 2 = .untyped ∧ slotAfter (tr 0) 3 = .filled ∧ slotAfter (tr 0) 4 = .unknown ∧
      slotAfter (tr 0) 5 = .filled) ∧
    ((transAt w 0).fillBack 1 (nB 0)).toOption.isSome = true ∧ ((transAt w 0).fillBackUntyped 2 (nB 0)).toOption.isSome = true ∧
    ((graphAt w 0).commit plain true (transAt w 0)).toOption.isNone = true :=
  ⟨⟨traced allocProg (by decide +kernel), by decide +kernel⟩, by decide +kernel⟩

/-- The same program with every index filled or withdrawn can be committed. -/
def allocProg2 : List Step := allocProg ++ [.call (.op 0 (.fillBack 1 (nB 5))), .call (.op 0 (.fillBackUntyped 2 (nB 1)))]

example :
    let w := run plain true World.init allocProg2
    let tr := traceOf plain true World.init (fun _ => []) allocProg2
    Traced plain true AnyCall w tr ∧ (∀ i ∈ [0, 1, 2, 3, 4, 5, 6], slotAfter (tr 0) i = .unknown ∨ slotAfter (tr 0) i = .filled) ∧
    ((graphAt w 0).commit plain true (transAt w 0)).toOption.isSome = true :=
  ⟨traced allocProg2 (by decide +kernel), by decide +kernel⟩

/-- Without debug assertions, a commit leaves the type of an unfilled index behind in the graph. -/
def leftover : List Step :=
  [.call (.newContext 0 77), .call (.newGraph 0 0), .call (.newTrans 0 0), .call (.op 0 (.alloc 2)), .call (.commit 0 0),
   .call (.newTrans 1 0), .call (.merge 1 0)]

/-- Why `C14_fill_back_partial` excludes `merge` in release builds: a graph with such a leftover index is merged into another transaction; there
`fill_back` accepts the index, which this transaction never handed out. -/
theorem C14_release_merge_fails :
    ∃ w tr t, Traced plain false AnyCall w tr ∧ w.trans 1 = some (0, t) ∧ slotAfter (tr 1) 1 = .unknown ∧ ∃ t', t.fillBack 1 (nB 0) = .ok t' := by
  refine ⟨run plain false World.init leftover, traceOf plain false World.init (fun _ => []) leftover, transAt (run plain false World.init leftover) 1,
    traced leftover (by decide +kernel), ?_, by decide +kernel, got (Trans.new 0) ((transAt (run plain false World.init leftover) 1).fillBack 1 (nB 0)),
    got_ok (by decide +kernel)⟩
  obtain ⟨c, hc⟩ := transAt_eq (w := run plain false World.init leftover) (k := 1) (by decide +kernel)
  have e : ((run plain false World.init leftover).trans 1).map Prod.fst = some 0 := by decide +kernel
  rw [hc] at e ⊢
  simp only [Option.map_some, Option.some.injEq] at e
  rw [e]

/-- A node of variant `B` is pending under index 1, and a node of variant `B` is in the graph under index 1. -/
def occupied : List Step := [.call (.newContext 0 77), .call (.newGraph 0 0), .call (.newTrans 0 0), .call (.op 0 (.insert (nB 0)))]
def occupied2 : List Step := occupied ++ [.call (.commit 0 0), .call (.newTrans 1 0)]

/-- C15 fails: `fill_back_untyped` accepts an index that is occupied by a pending node of another variant.  After the commit the index names
two nodes: the graph has length 2, and iterating lists index 1 twice. -/
theorem C15_fails :
    ∃ g t, Meets plain true AnyCall g t ∧ t.pending.new 1 = some (nB 0) ∧ ∃ t' g', t.fillBackUntyped 1 (nA 0 [] [] 5) = .ok t' ∧
      g.commit plain true t' = .ok g' ∧ g'.len plain = 2 ∧ (g'.iter plain).map Prod.fst = [1, 1] := by
  let w := run plain true World.init occupied
  let t' := got (Trans.new 0) ((transAt w 0).fillBackUntyped 1 (nA 0 [] [] 5))
  refine ⟨graphAt w 0, transAt w 0, meets_of (reaches occupied (by decide +kernel)) 0 0 (by decide +kernel), by decide +kernel, t',
    got (Graph.new 0) ((graphAt w 0).commit plain true t'), got_ok (by decide +kernel), got_ok (by decide +kernel), by decide +kernel, by decide +kernel⟩

/-- C15 fails also for an index that is occupied in the graph: after the commit `get` returns the new node and the old one is still
listed by the iterator. -/
theorem C15_graph_fails :
    ∃ g t, Meets plain true AnyCall g t ∧ g.get? 1 = some (nB 0) ∧ ∃ t' g', t.fillBackUntyped 1 (nA 0 [] [] 5) = .ok t' ∧
      g.commit plain true t' = .ok g' ∧ g'.get? 1 = some (nA 0 [] [] 5) ∧ (g'.iter plain).map Prod.fst = [1, 1] := by
  let w := run plain true World.init occupied2
  let t' := got (Trans.new 0) ((transAt w 1).fillBackUntyped 1 (nA 0 [] [] 5))
  refine ⟨graphAt w 0, transAt w 1, meets_of (reaches occupied2 (by decide +kernel)) 0 1 (by decide +kernel), by decide +kernel, t',
    got (Graph.new 0) ((graphAt w 0).commit plain true t'), got_ok (by decide +kernel), got_ok (by decide +kernel), by decide +kernel, by decide +kernel⟩

end TTGraph.Demo
