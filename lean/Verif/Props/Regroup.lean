import Verif.Lemmas.Regroup
import Verif.Lemmas.Insert
import Verif.Props.Bidir

/-!
# mutate or update, in any order: C76
-/

set_option autoImplicit false

namespace TTGraph
open Spec
variable [SetImpl] {S : Schema} {dbg : Bool} {R R' : World → Call → Prop}

/-- It does not matter whether a closure was given to `mutate` or to `update`, nor in which order closures for different nodes were given: if the
closures of each node come in the same order, one commit returns exactly if the other does, and the nodes are the same. -/
theorem C76_regrouped (hw : WellNamed S) (hd : DeclaredOnce S) (ho : OneOpposite S) {g : Graph} {t t' : Trans}
    (h : Meets S dbg R g t) (h' : Meets S dbg R' g t') (hst : SteadyBidir S t g.get?) (hst' : SteadyBidir S t' g.get?)
    (hva : SteadyAnnos S t g.get?) (hva' : SteadyAnnos S t' g.get?)
    (hp : Regrouped t.pending t'.pending) :
    (∀ g1, g.commit S dbg t = .ok g1 → ∃ g2, g.commit S dbg t' = .ok g2 ∧ View.Same g1.get? g2.get?) ∧
    ∀ g2, g.commit S dbg t' = .ok g2 → ∃ g1, g.commit S dbg t = .ok g1 ∧ View.Same g1.get? g2.get? := by
  have hp' : Regrouped t'.pending t.pending :=
    ⟨hp.new.symm, hp.unfilled.symm, hp.removed.symm, hp.redirAll.symm, hp.redir.symm, fun x => (hp.closures x).symm⟩
  have hal : ∀ {t t' : Trans}, Regrouped t.pending t'.pending → t.allocs.isEmpty = true → t'.allocs.isEmpty = true := by
    intro t t' hp he
    rw [OrderSet.isEmpty_iff] at he ⊢
    exact fun x hx => he x ((iff_of_eq (congrFun hp.unfilled x)).1 hx)
  have hctx : t'.ctxId = t.ctxId := (h'.disjoint hw).2.1.trans (h.disjoint hw).2.1.symm
  refine ⟨fun g1 hc => ?_, fun g2 hc => ?_⟩
  · exact commit_of_same hw hd ho hst hst' hva hva' (h.inv hw) (h.ready hw) (h'.ready hw) (h.disjoint hw).1 (h'.disjoint hw).1 hctx (hal hp)
      (fun g6 r6 hperf => Graph.perform_regrouped hw.variants (h.inv hw) (h.ready hw).good (h'.ready hw).good (h.disjoint hw).1 (h'.disjoint hw).1
        (h.ready hw).noFrom hp hperf) hc
  · obtain ⟨g1, hc1, hs⟩ := commit_of_same hw hd ho hst' hst hva' hva (h'.inv hw) (h'.ready hw) (h.ready hw) (h'.disjoint hw).1 (h.disjoint hw).1 hctx.symm
      (hal hp') (fun g6 r6 hperf => Graph.perform_regrouped hw.variants (h.inv hw) (h'.ready hw).good (h.ready hw).good (h'.disjoint hw).1 (h.disjoint hw).1
        (h'.ready hw).noFrom hp' hperf) hc
    exact ⟨g1, hc1, hs.symm⟩

omit [SetImpl] in
/-- For a node that is not new, with no `update` pending, `mutate` and `update` make such a pair of transactions. -/
theorem C76_calls {t t1 t2 : Trans} {i : NodeIndex} {f : Closure} (hi : t.pending.new i = none)
    (hu : ∀ f', (i, f') ∉ t.pending.upds) (h1 : t.mutate i f = .ok t1) (h2 : t.update i f = .ok t2) : Regrouped t1.pending t2.pending := by
  have hc : ¬ t.inc.contains i = true := by
    rw [Arena.contains_iff]
    rintro ⟨n, hn⟩
    rw [show t.inc.get? i = none from hi] at hn
    exact absurd hn (by simp)
  simp only [Trans.mutate, Trans.update, if_neg hc, Except.ok.injEq] at h1 h2
  subst h1 h2
  refine ⟨rfl, rfl, rfl, rfl, rfl, fun x => ?_⟩
  simp only [closuresAt, Trans.pending, List.filter_append, List.map_append, List.append_assoc]
  by_cases hx : i = x
  · subst hx
    have : t.upds.filter (fun e => decide (e.1 = i)) = [] := by
      rw [List.filter_eq_nil_iff]
      rintro ⟨j, f'⟩ hj
      simp only [decide_eq_true_eq]
      rintro rfl
      exact hu f' hj
    rw [this]
    simp
  · simp [hx]

omit [SetImpl] in
theorem applied_identity {l : List (NodeIndex × Closure)} {v v' : View} (h : Applied l v v') (hid : ∀ i f n, (i, f) ∈ l → v i = some n → f n = .ok n) :
    ∀ x, v' x = v x := by
  induction h with
  | nil h => exact h
  | @cons i f l v v1 v' n n' h1 h2 h3 _ ih =>
    rw [hid i f n List.mem_cons_self h1, Except.ok.injEq] at h2
    subst h2
    have hv : ∀ x, v1 x = v x := by
      intro x
      rw [h3 x]
      split
      · rename_i e
        rw [← e, h1]
      · rfl
    intro x
    rw [ih (fun i f n hm hn => hid i f n (List.mem_cons_of_mem _ hm) (by rw [← hv]; exact hn)), hv]

/-- Closures that change nothing change nothing. -/
theorem C76_identity (hw : WellNamed S) {g g' : Graph} {t : Trans} (hst : SteadyBidir S t g.get?) (h : Meets S dbg R g t) (hc : g.commit S dbg t = .ok g')
    (hnew : ∀ i, t.pending.new i = none) (hrem : ∀ i, ¬ t.pending.removed i) (hr : t.pending.redir = []) (hra : t.pending.redirAll = [])
    (hid : ∀ i f n, (i, f) ∈ t.pending.muts ++ t.pending.upds → S.WT n → f n = .ok n) : View.Same g.get? g'.get? := by
  obtain ⟨v6, ⟨v1, v2, v3, v4, v5, a1, a2, a3, a4, a5, a6⟩, hcomp⟩ := C03_order hw hst h hc
  rw [show t.redir = [] from hr] at a1
  rw [show t.redirAll = [] from hra] at a5
  rw [List.eq_nil_iff_forall_not_mem.2 hrem] at a6
  have s1 := redirected_nil a1
  have e2 : v2 = v1 := funext fun x => a2.1 x (hnew x)
  have hwt : ∀ i n, v2 i = some n → S.WT n := by
    intro i n hn
    rw [e2] at hn
    obtain ⟨n0, h0, hs⟩ := s1.symm.some hn
    exact Schema.wt_of_shape (Node.Renamed.shape hs).symm ((h.inv hw).wt _ _ h0)
  have e4 : ∀ x, v4 x = v2 x := applied_identity (applied_append a3 a4) (fun i f n hm hn => hid i f n hm (hwt i n hn))
  have s6 : View.Same g.get? v6 := by
    rw [show v4 = v1 from (funext e4).trans e2] at a5
    exact (s1.trans (redirected_nil a5)).trans (removed_nil a6)
  refine s6.trans (View.same_iff.2 ⟨sameButLinks_iff.1 hcomp.1, fun x s y => ?_⟩)
  rw [hcomp.2]
  constructor
  · rintro (⟨h1, _⟩ | ⟨_, _, m, d, ha, _⟩)
    · exact h1
    · exact absurd ((s6.link _ _ _).1 ha.2.1) ha.2.2
  · exact fun h1 => Or.inl ⟨h1, fun ⟨m, d, hr, _⟩ => hr.2.2 ((s6.link _ _ _).2 hr.2.1)⟩

end TTGraph

namespace TTGraph
namespace Demo
open Spec

/-- `pair4` with two transactions: the first one mutates 1 and then 2 and updates 3, the second one mutates 2 and 3 and updates 1. -/
def group4 : List Step :=
  pair4 ++ [.call (.newTrans 2 0), .edit 1 1 (pA 4 [4]), .edit 1 2 (pB [] 3), .swap 1 3 (pA 0 [2]),
    .edit 2 2 (pB [] 3), .edit 2 3 (pA 0 [2]), .swap 2 1 (pA 4 [4])]

/-- C76: all hypotheses hold for these two transactions. -/
example : let w := run pair true World.init group4
    let g := graphAt w 0
    let t := transAt w 1
    let t' := transAt w 2
    Meets pair true SoundKeep g t ∧ Meets pair true SoundKeep g t' ∧ SteadyAnnos pair t g.get? ∧ SteadyAnnos pair t' g.get? ∧
    Regrouped t.pending t'.pending ∧ ∃ g1 g2, g.commit pair true t = .ok g1 ∧ g.commit pair true t' = .ok g2 ∧
      [1, 2, 3, 4].map g1.get? = [some (pA 4 [4]), some (pB [] 3), some (pA 0 [2]), some (pB [1] 1)] ∧
      [1, 2, 3, 4].map g2.get? = [1, 2, 3, 4].map g1.get? := by
  refine ⟨meets_of (reaches_soundKeep pair_named group4 (by decide +kernel)) 0 1 (by decide +kernel),
    meets_of (reaches_soundKeep pair_named group4 (by decide +kernel)) 0 2 (by decide +kernel), fun _ _ _ => Or.inr fun _ _ h => (nomatch h),
    fun _ _ _ => Or.inr fun _ _ h => (nomatch h), ⟨?_, ?_, ?_, by decide +kernel, by decide +kernel, fun x => ?_⟩, _, _,
    got_ok (d := Graph.new 0) (by decide +kernel), got_ok (d := Graph.new 0) (by decide +kernel), by decide +kernel, by decide +kernel⟩
  · rfl
  · rfl
  · rfl
  · show ((([(2, keep (pB [] 3)), (3, keep (pA 0 [2]))] : List (NodeIndex × Closure)) ++ [(1, keep (pA 4 [4]))]).filter _).map _ =
      ((([(1, keep (pA 4 [4])), (2, keep (pB [] 3))] : List (NodeIndex × Closure)) ++ [(3, keep (pA 0 [2]))]).filter _).map _
    by_cases h1 : (1 : NodeIndex) = x
    · subst h1; rfl
    · by_cases h2 : (2 : NodeIndex) = x
      · subst h2; rfl
      · by_cases h3 : (3 : NodeIndex) = x
        · subst h3; rfl
        · simp [h1, h2, h3]

/-- C76: `mutate` and `update` of node 1 in the transaction of `pair4`. -/
example : let t := transAt (run pair true World.init pair4) 1
    ∃ t1 t2, t.mutate 1 (keep (pA 4 [4])) = .ok t1 ∧ t.update 1 (keep (pA 4 [4])) = .ok t2 ∧ t1.upds.length = 0 ∧ t2.upds.length = 1 ∧
      Regrouped t1.pending t2.pending :=
  ⟨_, _, rfl, rfl, rfl, rfl, C76_calls (t := transAt (run pair true World.init pair4) 1) (i := 1) (f := keep (pA 4 [4])) (by decide +kernel) (fun _ => List.not_mem_nil) rfl rfl⟩

/-- C76: all hypotheses of `C76_identity` hold for a transaction that mutates node 1 with a closure that does nothing. -/
example : let w := (run pair true World.init pair4).exec pair true (.op 1 (.mutate 1 .ok))
    let g := graphAt w 0
    let t := transAt w 1
    ∃ g', Meets pair true AnyCall g t ∧ g.commit pair true t = .ok g' ∧ (∀ i, t.pending.new i = none) ∧ (∀ i, ¬ t.pending.removed i) ∧
      t.pending.redir = [] ∧ t.pending.redirAll = [] ∧ (∀ i f n, (i, f) ∈ t.pending.muts ++ t.pending.upds → pair.WT n → f n = .ok n) ∧
      t.muts.length = 1 ∧ View.Same g.get? g'.get? := by
  intro w g t
  have hm : Meets pair true AnyCall g t := by
    have ha : (Call.op 1 (.mutate 1 .ok)).Allowed pair (run pair true World.init pair4) := by
      intro c t' _ n n' hn he
      rw [Except.ok.injEq] at he
      exact he ▸ hn
    exact meets_of (.step (reaches pair4 (by decide +kernel)) ha trivial) 0 1 (by decide +kernel)
  have hnew : ∀ i, t.pending.new i = none := by
    intro i
    by_contra hi
    obtain ⟨n, hn⟩ := Option.ne_none_iff_exists'.1 hi
    have := (Arena.mem_entries (i := i) (hm.ready pair_named).good.inv).2 hn
    rw [show t.inc.entries pair = [] from by decide +kernel] at this
    exact absurd this (by simp)
  have hrem : ∀ i, ¬ t.pending.removed i :=
    fun i hi => absurd (show i ∈ t.dec.elems from hi) (by rw [show t.dec.elems = [] from by decide +kernel]; simp)
  have hid : ∀ i f n, (i, f) ∈ t.pending.muts ++ t.pending.upds → pair.WT n → f n = .ok n := by
    intro i f n hf _
    have : (i, f) ∈ ([(1, .ok)] : List (NodeIndex × Closure)) := hf
    simp only [List.mem_singleton, Prod.mk.injEq] at this
    rw [this.2]
  obtain ⟨g', hc⟩ : ∃ g', g.commit pair true t = .ok g' := ⟨_, got_ok (d := Graph.new 0) (by decide +kernel)⟩
  exact ⟨g', hm, hc, hnew, hrem, rfl, rfl, hid, rfl, C76_identity pair_named (pair_noVec.steadyBidir _ _) hm hc hnew hrem rfl rfl hid⟩

/-- C76 needs that the order of the closures of one node is the same: an `update` comes after a `mutate` that was called later. -/
theorem C76_order_differ : let w := run pair true World.init (pair4 ++ [.call (.newTrans 2 0), .swap 1 1 (pA 0 []), .edit 1 1 (pA 2 []),
      .swap 2 1 (pA 0 []), .swap 2 1 (pA 2 [])])
    let g := graphAt w 0
    Meets pair true SoundKeep g (transAt w 1) ∧ Meets pair true SoundKeep g (transAt w 2) ∧
    ∃ g1 g2, g.commit pair true (transAt w 1) = .ok g1 ∧ g.commit pair true (transAt w 2) = .ok g2 ∧
      g1.get? 1 = some (pA 0 []) ∧ g2.get? 1 = some (pA 2 []) :=
  ⟨meets_of (reaches_soundKeep pair_named _ (by decide +kernel)) 0 1 (by decide +kernel),
    meets_of (reaches_soundKeep pair_named _ (by decide +kernel)) 0 2 (by decide +kernel), _, _,
    got_ok (d := Graph.new 0) (by decide +kernel), got_ok (d := Graph.new 0) (by decide +kernel), by decide +kernel, by decide +kernel⟩

end Demo
end TTGraph
