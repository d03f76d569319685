import Mathlib.Logic.Equiv.Basic
import Verif.Lemmas.Twins
import Verif.Lemmas.Steady
import Verif.Lemmas.Performable
import Verif.Lemmas.History
import Verif.Demo.Traced
import Verif.Demo.Decls

/-!
# C50: the values of indices do not matter

Indices are only compared with each other and with `NodeIndex::empty()`; nothing depends on their values.  So what a program does does not
depend on which indices the context happens to hand out, say because other threads draw from the same context.
-/

set_option autoImplicit false

namespace TTGraph
open Spec

/-- Every method has the same effect up to the correspondence, if the indices it returns correspond. -/
theorem C50_op [SetImpl] {S : Schema} {dbg : Bool} {R : World → Call → Prop} {σ : Equiv.Perm NodeIndex} (hw : WellNamed S)
    {t t' t2 t2' : Trans} {cnt cnt' cnt2 cnt2' : Nat} {o o2 : TOp} {l : List NodeIndex} (h : Building S dbg R t cnt) (h2 : Building S dbg R t2 cnt2)
    (ho : o.Allowed S t) (ho2 : o2.Allowed S t2) (hop : AlikeOp σ o o2) (hp : AlikePending σ t.pending t2.pending)
    (hr : o.run t cnt = .ok (t', cnt', l)) (hr2 : o2.run t2 cnt2 = .ok (t2', cnt2', l.map σ)) : AlikePending σ t'.pending t2'.pending :=
  effect_alike hop hp (Trans.effect_run (h.ready hw).1 (h.ready hw).2 ho hr) (Trans.effect_run (h2.ready hw).1 (h2.ready hw).2 ho2 hr2)

/-- Corresponding commits to corresponding graphs, if both return, give corresponding graphs.  This includes redirects with repeated
sources. -/
theorem C50_commit [SetImpl] {S : Schema} {dbg : Bool} {R : World → Call → Prop} {σ : Equiv.Perm NodeIndex} (hσ : σ emptyIdx = emptyIdx)
    (hw : WellNamed S) {g g' g2 g2' : Graph} {t t2 : Trans} (hst : SteadyBidir S t g.get?) (hst2 : SteadyBidir S t2 g2.get?)
    (h : Meets S dbg R g t) (h2 : Meets S dbg R g2 t2)
    (hg : Alike σ g.get? g2.get?) (hp : AlikePending σ t.pending t2.pending) (hc : g.commit S dbg t = .ok g')
    (hc2 : g2.commit S dbg t2 = .ok g2') : Alike σ g'.get? g2'.get? :=
  Graph.commit_alike hσ hw hw (SameTables.refl S) hst hst2 (h.inv hw) (h2.inv hw) (h.ready hw).good (h2.ready hw).good (h.disjoint hw).1 (h2.disjoint hw).1
    (h.ready hw).noFrom (h2.ready hw).noFrom hg hp hc hc2

/-- If one of them returns and the other transaction makes sense for its graph, the other one returns too. -/
theorem C50_returns [SetImpl] {S : Schema} {dbg : Bool} {R : World → Call → Prop} {σ : Equiv.Perm NodeIndex} (hσ : σ emptyIdx = emptyIdx)
    (hw : WellNamed S) (hd : DeclaredOnce S) (ho : OneOpposite S)
    {g g' g2 : Graph} {t t2 : Trans} (hst : SteadyBidir S t g.get?) (hst2 : SteadyBidir S t2 g2.get?)
    (hva : SteadyAnnos S t g.get?) (hva2 : SteadyAnnos S t2 g2.get?) (h : Meets S dbg R g t)
    (h2 : Meets S dbg R g2 t2) (hg : Alike σ g.get? g2.get?) (hp : AlikePending σ t.pending t2.pending) (hvalid : Valid S g2.get? t2.pending)
    (hc : g.commit S dbg t = .ok g') : ∃ g2', g2.commit S dbg t2 = .ok g2' ∧ Alike σ g'.get? g2'.get? := by
  obtain ⟨g6, r6, hperf, _⟩ := hvalid.perform hw h2
  obtain ⟨g2', hc2⟩ := Graph.commit_alike_returns hσ hw hw (SameTables.refl S) hd ho hst hst2 hva hva2 (h.inv hw)
    (h2.inv hw) (h.ready hw).good (h2.ready hw).good (h.disjoint hw).1 (h2.disjoint hw).1 (h.ready hw).noFrom
    (h2.ready hw).noFrom hg hp (h2.disjoint hw).2.1 hc hperf
  exact ⟨g2', hc2, C50_commit hσ hw hst hst2 h h2 hg hp hc hc2⟩

/-- The whole program: at every moment, whatever else happens in the two executions, corresponding graphs hold corresponding nodes and
corresponding transactions have corresponding pending operations. -/
theorem C50_program [SetImpl] {S : Schema} {dbg : Bool} {σ : Nat → Equiv.Perm NodeIndex} {G T : Nat → Prop} (hσ : ∀ c, σ c emptyIdx = emptyIdx)
    (hw : WellNamed S) {R : World → Call → Prop} (hst : ∀ w c, R w c → SteadyBidirCalls S w c) {w w2 : World}
    (h : Twins S S dbg R σ G T w w2) :
    (∀ k c c2 g g2, G k → w.graph k = some (c, g) → w2.graph k = some (c2, g2) → c2 = c ∧ Alike (σ c) g.get? g2.get?) ∧
    ∀ k c c2 t t2, T k → w.trans k = some (c, t) → w2.trans k = some (c2, t2) → c2 = c ∧ AlikePending (σ c) t.pending t2.pending :=
  ⟨(h.inv hσ hw hw (SameTables.refl S) hst).graph, (h.inv hσ hw hw (SameTables.refl S) hst).trans⟩

end TTGraph

namespace TTGraph.Demo
open Spec

/-- 1 ↦ 2 ↦ 3 ↦ 1. -/
def shift : Equiv.Perm NodeIndex := (Equiv.swap 1 2).trans (Equiv.swap 1 3)

theorem shift_zero : shift emptyIdx = emptyIdx := by decide +kernel

/-- The indices that an operation returns. -/
def handed (w : World) (k : Nat) (o : TOp) : Option (List NodeIndex) :=
  match w.trans k with
  | some (c, t) => match w.ctx c with
    | some x => (o.run t x.cnt).toOption.map fun r => r.2.2
    | none => none
  | none => none

theorem handed_of {w : World} {k : Nat} {o : TOp} {c : Nat} {l : List NodeIndex} (h : Hands w k o c l) : handed w k o = some l := by
  obtain ⟨t, x, t', cnt, h1, h2, h3⟩ := h
  simp [handed, h1, h2, h3, Except.toOption]

theorem alikeCall_op {S S2 : Schema} {σ : Equiv.Perm NodeIndex} {w w2 : World} {k : Nat} {o o2 : TOp} (h1 : hasTrans w k = true) (h2 : hasTrans w2 k = true) (ho : AlikeOp σ o o2)
    (hh : handed w2 k o2 = (handed w k o).map (List.map σ)) : AlikeCall S S2 (fun _ => σ) w w2 (.op k o) (.op k o2) := by
  refine ⟨rfl, ?_, ?_, fun c t _ => ⟨ho, fun l l2 hl hl2 => ?_⟩⟩
  · intro e; simp [hasTrans, e] at h1
  · intro e; simp [hasTrans, e] at h2
  · rw [handed_of hl, handed_of hl2] at hh
    exact Option.some.inj hh

theorem op_allowed {S : Schema} {w : World} {k : Nat} {o : TOp} (h : stepOk S [] w (.call (.op k o)) = true) : (Call.op k o).Allowed S w := by
  intro c t ht
  simp only [stepOk, ht] at h
  exact opOk_sound h

/-- Two nodes and a commit; the new nodes get the indices 1 and 2. -/
def first : List Step :=
  [.call (.newContext 0 77), .call (.newGraph 0 0), .call (.newTrans 0 0), .call (.op 0 (.insert (nB 0))), .call (.op 0 (.insert (nA 1 [] [1, 1] 5))),
   .call (.commit 0 0), .call (.newTrans 1 0), .call (.op 1 (.redirectLinks 1 2))]

/-- The same, but another transaction of the same context draws the index 1. -/
def second : List Step :=
  [.call (.newContext 0 88), .call (.newGraph 0 0), .call (.newTrans 0 0), .call (.newTrans 9 0), .call (.op 9 .allocUntyped),
   .call (.op 0 (.insert (nB 0))), .call (.op 0 (.insert (nA 2 [] [2, 2] 5))), .call (.commit 0 0), .call (.newTrans 1 0), .call (.op 1 (.redirectLinks 2 3))]

theorem nB_alike : Node.Renamed shift (nB 0) (nB 0) := ⟨rfl, rfl, .cons (by decide +kernel : (0 : Nat) = _) .nil⟩

theorem nA_alike : Node.Renamed shift (nA 1 [] [1, 1] 5) (nA 2 [] [2, 2] 5) :=
  ⟨rfl, rfl, .cons (by decide +kernel : (2 : Nat) = _) (.cons (fun w => by simp [setOf]) (.cons (by decide +kernel : [2, 2] = List.map _ _) .nil))⟩

/-- The two executions, up to a point where a graph with two linked nodes has been built and a transaction is pending. -/
theorem shifted : Twins plain plain true AnyCall (fun _ => shift) (fun g => g = 0) (fun k => k = 0 ∨ k = 1) (run plain true World.init first)
    (run plain true World.init second) := by
  have s0 : Twins plain plain true AnyCall (fun _ => shift) (fun g => g = 0) (fun k => k = 0 ∨ k = 1) World.init World.init := .start
  have s1 := s0.both (a := .newContext 0 77) (b := .newContext 0 88) ⟨rfl, by decide, fun _ _ h => absurd h (by simp [World.init])⟩
    ⟨rfl, by decide, fun _ _ h => absurd h (by simp [World.init])⟩ trivial trivial trivial rfl
  have s2 := s1.both (a := .newGraph 0 0) (b := .newGraph 0 0) rfl rfl trivial trivial rfl ⟨rfl, rfl⟩
  have s3 := s2.both (a := .newTrans 0 0) (b := .newTrans 0 0) rfl rfl trivial trivial (.inl rfl) ⟨rfl, rfl⟩
  have s4 := s3.right (b := .newTrans 9 0) rfl (show ¬ ((9 : Nat) = 0 ∨ (9 : Nat) = 1) by decide)
  have s5 := s4.right (b := .op 9 .allocUntyped) (fun _ _ _ => trivial) (show ¬ ((9 : Nat) = 0 ∨ (9 : Nat) = 1) by decide)
  have s6 := s5.both (a := .op 0 (.insert (nB 0))) (b := .op 0 (.insert (nB 0))) (op_allowed (by decide +kernel)) (op_allowed (by decide +kernel))
    trivial trivial (.inl rfl) (alikeCall_op (by decide +kernel) (by decide +kernel) nB_alike (by decide +kernel))
  have s7 := s6.both (a := .op 0 (.insert (nA 1 [] [1, 1] 5))) (b := .op 0 (.insert (nA 2 [] [2, 2] 5))) (op_allowed (by decide +kernel))
    (op_allowed (by decide +kernel)) trivial trivial (.inl rfl) (alikeCall_op (by decide +kernel) (by decide +kernel) nA_alike (by decide +kernel))
  have s8 := s7.both (a := .commit 0 0) (b := .commit 0 0) (sameCtx_sound (by decide +kernel)) (sameCtx_sound (by decide +kernel)) trivial trivial ⟨.inl rfl, rfl⟩
    ⟨rfl, rfl, Option.isSome_iff_ne_none.1 (by decide +kernel), Option.isSome_iff_ne_none.1 (by decide +kernel),
     Option.isSome_iff_ne_none.1 (by decide +kernel), Option.isSome_iff_ne_none.1 (by decide +kernel)⟩
  have s9 := s8.both (a := .newTrans 1 0) (b := .newTrans 1 0) (Option.isNone_iff_eq_none.1 (by decide +kernel))
    (Option.isNone_iff_eq_none.1 (by decide +kernel)) trivial trivial (.inr rfl) ⟨rfl, rfl⟩
  exact s9.both (a := .op 1 (.redirectLinks 1 2)) (b := .op 1 (.redirectLinks 2 3)) (op_allowed (by decide +kernel)) (op_allowed (by decide +kernel))
    trivial trivial (.inr rfl) (alikeCall_op (by decide +kernel) (by decide +kernel) ⟨by decide +kernel, by decide +kernel⟩ (by decide +kernel))

theorem transAt_some {w : World} {k : Nat} (hk : hasTrans w k = true) : ∃ c, w.trans k = some (c, transAt w k) := by
  unfold hasTrans at hk
  split at hk
  · rename_i c t e
    exact ⟨c, by simp [transAt, e]⟩
  · exact absurd hk (by simp)

/-- C50: the hypotheses of `C50_program` and `C50_commit` hold for them, and both commits return. -/
example : let w := run plain true World.init first
    let w2 := run plain true World.init second
    (∀ _c : Nat, shift emptyIdx = emptyIdx) ∧ WellNamed plain ∧ (∀ w c, AnyCall w c → SteadyBidirCalls plain w c) ∧
    Meets plain true AnyCall (graphAt w 0) (transAt w 1) ∧ Meets plain true AnyCall (graphAt w2 0) (transAt w2 1) ∧
    Alike shift (graphAt w 0).get? (graphAt w2 0).get? ∧ AlikePending shift (transAt w 1).pending (transAt w2 1).pending ∧
    ((graphAt w 0).commit plain true (transAt w 1)).toOption.isSome = true ∧
    ((graphAt w2 0).commit plain true (transAt w2 1)).toOption.isSome = true ∧
    (graphAt w 0).get? 2 = some (nA 1 [] [1, 1] 5) ∧ (graphAt w2 0).get? 3 = some (nA 2 [] [2, 2] 5) := by
  intro w w2
  obtain ⟨hg, ht⟩ := C50_program (fun _ => shift_zero) plain_named (fun w c _ => plain_noVec.steadyBidirCalls w c) shifted
  refine ⟨fun _ => shift_zero, plain_named, fun w c _ => plain_noVec.steadyBidirCalls w c, meets_of (reaches first (by decide +kernel)) 0 1 (by decide +kernel),
    meets_of (reaches second (by decide +kernel)) 0 1 (by decide +kernel), ?_, ?_, by decide +kernel, by decide +kernel, by decide +kernel,
    by decide +kernel⟩
  · obtain ⟨c, e⟩ := graphAt_some (w := w) (h := 0) (by decide +kernel)
    obtain ⟨c2, e2⟩ := graphAt_some (w := w2) (h := 0) (by decide +kernel)
    exact (hg 0 c c2 _ _ rfl e e2).2
  · obtain ⟨c, e⟩ := transAt_some (w := w) (k := 1) (by decide +kernel)
    obtain ⟨c2, e2⟩ := transAt_some (w := w2) (k := 1) (by decide +kernel)
    exact (ht 1 c c2 _ _ (.inr rfl) e e2).2

/-- C50: and those of `C50_op`, for a further insertion into the pending transaction. -/
example : let t := transAt (run plain true World.init first) 1
    let t2 := transAt (run plain true World.init second) 1
    Building plain true AnyCall t 2 ∧ Building plain true AnyCall t2 3 ∧ (TOp.remove 2).Allowed plain t ∧ (TOp.remove 3).Allowed plain t2 ∧
    AlikeOp shift (.remove 2) (.remove 3) ∧ AlikePending shift t.pending t2.pending ∧
    (∃ t', (TOp.remove 2).run t 2 = .ok (t', 2, [])) ∧ ∃ t', (TOp.remove 3).run t2 3 = .ok (t', 3, [].map shift) := by
  intro t t2
  obtain ⟨hg, ht⟩ := C50_program (fun _ => shift_zero) plain_named (fun w c _ => plain_noVec.steadyBidirCalls w c) shifted
  refine ⟨building_of (reaches first (by decide +kernel)) 1 (by decide +kernel), building_of (reaches second (by decide +kernel)) 1 (by decide +kernel),
    trivial, trivial, (by decide +kernel : (3 : Nat) = shift 2), ?_, ⟨_, rfl⟩, ⟨_, rfl⟩⟩
  obtain ⟨c, e⟩ := transAt_some (w := run plain true World.init first) (k := 1) (by decide +kernel)
  obtain ⟨c2, e2⟩ := transAt_some (w := run plain true World.init second) (k := 1) (by decide +kernel)
  exact (ht 1 c c2 _ _ (.inr rfl) e e2).2

/-- C50: the transaction of the second execution makes sense for its graph, and the declarations are as `C50_returns` asks. -/
example : let w := run plain true World.init second
    Valid plain (graphAt w 0).get? (transAt w 1).pending ∧ DeclaredOnce plain ∧ OneOpposite plain ∧
    ∀ t v, SteadyAnnos plain t v := by
  intro w
  have hmu : (transAt w 1).pending.muts ++ (transAt w 1).pending.upds = [] := rfl
  have hre : (transAt w 1).pending.redir = [(2, 3)] := by decide +kernel
  have hra : (transAt w 1).pending.redirAll = [] := by decide +kernel
  refine ⟨⟨?_, ?_, ?_, ?_, ?_, ?_, ?_⟩, ?_, ?_, ?_⟩
  · intro i f hf
    rw [hmu] at hf
    exact absurd hf (by simp)
  · intro i hi
    exact absurd hi (show i ∉ ([] : List NodeIndex) by simp)
  · intro i f hf
    rw [hmu] at hf
    exact absurd hf (by simp)
  · intro old new ho
    rw [hre] at ho
    obtain ⟨rfl, -⟩ : old = 2 ∧ new = 3 := by simpa using ho
    exact Or.inl (by decide +kernel)
  · intro old new ho
    rw [hra] at ho
    exact absurd ho (by simp)
  · rw [hre]
    rintro ⟨a, b, hab, hc⟩
    obtain ⟨rfl, rfl⟩ : a = 2 ∧ b = 3 := by simpa using hab
    cases hc with
    | step h _ => exact absurd h (by simp)
  · rw [hra]
    rintro ⟨a, b, hab, _⟩
    exact absurd hab (by simp)
  · exact declaredOnce_sound plain_named (by decide +kernel)
  · exact oneOpposite_sound plain_named (by decide)
  · exact fun t v x m y => Or.inr fun d a ha => absurd ha (by simp [plain])

end TTGraph.Demo
