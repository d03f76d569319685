import Verif.Lemmas.Detour
import Verif.Props.Switch

/-!
# Putting one graph into another: C32, C34, C93
-/

set_option autoImplicit false

namespace TTGraph
open Spec
variable [SetImpl] {S : Schema} {dbg : Bool} {R : World → Call → Prop}

/-- A graph can be merged into another one of the same context: if both are complete in themselves and the transaction has nothing else to do, then
neither the merge nor the commit panics, the graph holds exactly the nodes of both, as they were, and it is complete in itself again. -/
theorem C34_returns (hw : WellNamed S) {w : World} (h : Reaches S dbg R w) {gh gh2 k c : Nat} {g g2 : Graph} {t : Trans}
    (hg : w.graph gh = some (c, g)) (hg2 : w.graph gh2 = some (c, g2)) (hne : gh ≠ gh2) (ht : w.trans k = some (c, t))
    (h1 : t.pending.redir = []) (h2 : t.pending.muts = []) (h3 : t.pending.upds = []) (h4 : t.pending.redirAll = [])
    (h5 : ∀ i, ¬ t.pending.removed i) (h6 : ∀ i, t.pending.new i = none) (h7 : ∀ i, ¬ t.pending.unfilled i)
    (hv : Whole S g.get?) (hv2 : Whole S g2.get?) :
    ∃ t' g', t.merge g2 = .ok t' ∧ g.commit S dbg t' = .ok g' ∧ Whole S g'.get? ∧
      ∀ i, (∀ n, g.get? i = some n ∨ g2.get? i = some n → ∃ n', g'.get? i = some n' ∧ Node.Same n n') ∧
        (g.get? i = none → g2.get? i = none → g'.get? i = none) := by
  obtain ⟨t', hm, hp, _⟩ := C34_pending hw (⟨w, gh2, k, c, h, hg2, ht⟩ : Meets S dbg R g2 t)
  have hmt := C34_meets h hg hg2 hne ht hm
  have hnew : t.pending.new = fun _ => none := funext h6
  have hp' : t'.pending = { new := g2.get?, unfilled := fun _ => False, removed := fun _ => False, redir := [], redirAll := [], muts := [], upds := [] } := by
    have e1 : t.pending.unfilled = fun _ => False := funext fun i => eq_false (h7 i)
    have e2 : t.pending.removed = fun _ => False := funext fun i => eq_false (h5 i)
    have e3 : union g2.get? t.pending.new = g2.get? := by
      rw [hnew]
      funext i
      simp only [union]
      cases g2.get? i <;> rfl
    rw [hp]
    simp only [e1, e2, e3, h1, h2, h3, h4]
  have hi : g.Inv S False := by obtain ⟨_, _, _, hi⟩ := (h.inv hw).graph _ _ _ hg; exact hi
  have hi2 : g2.Inv S False := by obtain ⟨_, _, _, hi⟩ := (h.inv hw).graph _ _ _ hg2; exact hi
  have hdis : ∀ i, g2.get? i ≠ none → g.get? i = none := by
    intro i hi
    by_contra hne'
    have hd := (h.inv hw).disj (.inl gh) (.inl gh2) c i ⟨g, hg, fun e => hne' (Arena.get?_of_disp_none e)⟩
      ⟨g2, hg2, fun e => hi (Arena.get?_of_disp_none e)⟩
    exact hne (Sum.inl.inj hd)
  have hx : ∀ x m y, View.Link g.get? x m y → g2.get? y = none := by
    rintro x m y ⟨n, hn, s, r⟩
    rcases hv.internal x _ y ⟨n, hn, r⟩ with rfl | hy
    · exact hi2.noEmpty
    · by_contra hy2
      exact hy (hdis y hy2)
  have hx2 : ∀ x m y, View.Link g2.get? x m y → g.get? y = none := by
    rintro x m y ⟨n, hn, s, r⟩
    rcases hv2.internal x _ y ⟨n, hn, r⟩ with rfl | hy
    · exact hi.noEmpty
    · exact hdis y hy
  obtain ⟨hst, g', hc⟩ := commit_whole hw hmt hp' hv hv2 (fun x n hn => hi2.wt x n hn) hx hx2 hdis
  have hu := hv.union hv2 hi.noEmpty hi2.noEmpty hdis
  obtain ⟨_, hsame⟩ := C34_commit hw h hg hg2 hne ht hm h1 h2 h3 h4 h5 hc
  have e : union t.pending.new g.get? = g.get? := by rw [hnew]; rfl
  rw [e] at hsame
  exact ⟨t', g', hm, hc, (hsame hst hu.symmetric).whole hu, C34_intact hw h hg hg2 hne ht hm h1 h2 h3 h4 h5 h6 hst hc hv.symmetric hv2.symmetric hx hx2⟩

/-- The documented way to put a graph of another context into a graph: switch the context, merge, commit.  It does not panic, and afterwards the
graph holds its own nodes as they were and a copy of each node of the other graph, with the links among them. -/
theorem C93_moved_partial (hw : WellNamed S) {w : World} (h : Reaches S dbg R w) {gh gh2 k c c2 : Nat} {g g2 : Graph} {x : Ctx}
    (hg : w.graph gh = some (c, g)) (hg2 : w.graph gh2 = some (c2, g2)) (hne : gh ≠ gh2) (hx : w.ctx c = some x) (hk : w.trans k = none)
    (hv : Whole S g.get?) (hv2 : Whole S g2.get?) (hcol : ¬ Collision g2.get? ((g2.iter S).map Prod.fst) x.cnt) :
    ∃ g' ρ, (runCalls S dbg w [.switchContext gh2 c, .newTrans k c, .merge k gh2, .commit gh k]).graph gh = some (c, g') ∧
      Joined ρ g.get? g2.get? g'.get? ∧ Whole S g'.get? := by
  have h' : Reaches S dbg AnyCall w := h.mono fun _ _ _ => trivial
  have hi : g.Inv S False := by obtain ⟨_, _, _, hi⟩ := (h.inv hw).graph _ _ _ hg; exact hi
  obtain ⟨g3, cnt', ρ, hs, _, hiso⟩ := C32_returns_partial hw x.uuid x.cnt (⟨w, gh2, c2, h, hg2⟩ : Reachable S dbg R g2) hv2.internal
    hv2.symmetric.answered hv2.typed hcol
  have e1 : (w.exec S dbg (.switchContext gh2 c)).graph gh2 = some (c, g3) ∧ (w.exec S dbg (.switchContext gh2 c)).graph gh = some (c, g) ∧
      (∃ x', (w.exec S dbg (.switchContext gh2 c)).ctx c = some x') ∧ (w.exec S dbg (.switchContext gh2 c)).trans k = none := by
    obtain ⟨a0, idMap, a, k0, _⟩ := Graph.switchNodes_ok hw.variants (by obtain ⟨_, _, _, hi⟩ := (h.inv hw).graph _ _ _ hg2; exact hi : g2.Inv S False) x.cnt
    simp only [World.exec, hg2, hx, k0, hs]
    simp [World.issue, World.setGraph, World.put, hne, hg, hk]
  generalize hw1 : w.exec S dbg (.switchContext gh2 c) = w1 at e1
  obtain ⟨q1, q2, ⟨x', q3⟩, q4⟩ := e1
  have r1 : Reaches S dbg AnyCall w1 := hw1 ▸ h'.step (c := .switchContext gh2 c) trivial trivial
  have e2 : (w1.exec S dbg (.newTrans k c)).graph gh2 = some (c, g3) ∧ (w1.exec S dbg (.newTrans k c)).graph gh = some (c, g) ∧
      (w1.exec S dbg (.newTrans k c)).trans k = some (c, Trans.new x'.uuid) := by
    simp [World.exec, q3, World.setTrans, World.put, q1, q2]
  generalize hw2 : w1.exec S dbg (.newTrans k c) = w2 at e2
  obtain ⟨p1, p2, p3⟩ := e2
  have r2 : Reaches S dbg AnyCall w2 := hw2 ▸ r1.step (c := .newTrans k c) q4 trivial
  have hi3 : g3.Inv S False := by obtain ⟨_, _, _, hi⟩ := (r2.inv hw).graph _ _ _ p1; exact hi
  have hv3 := hiso.whole hi3.noEmpty hv2
  obtain ⟨t', g', hm, hc, hW, hall⟩ := C34_returns hw r2 p2 p1 hne p3 rfl rfl rfl rfl (fun i hi => absurd hi (List.not_mem_nil)) (fun i => rfl)
    (by intro i; simp [Trans.pending, Trans.new]) hv hv3
  have e3 : (w2.exec S dbg (.merge k gh2)).graph gh = some (c, g) ∧ (w2.exec S dbg (.merge k gh2)).trans k = some (c, t') := by
    simp [World.exec, p3, p1, hm, World.setGraph, World.setTrans, World.put, hne, p2]
  have e4 : ((w2.exec S dbg (.merge k gh2)).exec S dbg (.commit gh k)).graph gh = some (c, g') := by
    generalize w2.exec S dbg (.merge k gh2) = w3 at e3
    simp [World.exec, e3.1, e3.2, hc, World.setGraph, World.put]
  have hdis : ∀ i, g3.get? i ≠ none → g.get? i = none := by
    intro i hi
    by_contra hne'
    have hd := (r2.inv hw).disj (.inl gh) (.inl gh2) c i ⟨g, p2, fun e => hne' (Arena.get?_of_disp_none e)⟩
      ⟨g3, p1, fun e => hi (Arena.get?_of_disp_none e)⟩
    exact hne (Sum.inl.inj hd)
  refine ⟨g', ρ, ?_, ?_, hW⟩
  · simp only [runCalls, List.foldl_cons, List.foldl_nil, hw1, hw2]
    exact e4
  · refine ⟨hiso.empty, hiso.inj, fun y hy => ?_, fun y n hn => (hall y).1 n (.inl hn), fun y n hn => ?_, fun y' hy' => ?_⟩
    · obtain ⟨n, hn⟩ := Option.ne_none_iff_exists'.1 hy
      obtain ⟨n', hn', _⟩ := hiso.node y n hn
      exact hdis _ (by rw [hn']; simp)
    · obtain ⟨n1, hn1, hr⟩ := hiso.node y n hn
      obtain ⟨n', hn', hs'⟩ := (hall (ρ y)).1 n1 (.inr hn1)
      refine ⟨n', hn', Node.renamed_of_holds (hs'.shape.trans hr.shape) fun s z => ?_⟩
      rw [(Node.same_iff.1 hs').2, hr.holds]
    · by_cases h8 : g.get? y' = none
      · refine .inr (hiso.onto y' fun h9 => hy' ((hall y').2 h8 h9))
      · exact .inl h8

/-- The graphs of programs with sound transactions and closures that keep variants are complete in themselves if no `bidirectional!` line names a
`Vec` and the links satisfy their annotations: so they can be moved, if the context of the target has issued all the indices of the other graph. -/
theorem C93_programs_partial (hw : WellNamed S) (hvec : NoVec S) (hone : OneOpposite S) (hK : ∀ w c, R w c → KeepVariants w c)
    (hR : ∀ w c, R w c → SoundCalls w c) {w : World} (h : Reaches S dbg R w) {gh gh2 k c c2 : Nat} {g g2 : Graph} {x : Ctx}
    (hg : w.graph gh = some (c, g)) (hg2 : w.graph gh2 = some (c2, g2)) (hne : gh ≠ gh2) (hx : w.ctx c = some x) (hk : w.trans k = none)
    (ht : WellTyped S g.get?) (ht2 : WellTyped S g2.get?) (hcnt : ∀ i : Nat, g2.get? i ≠ none → i ≤ x.cnt) :
    ∃ g' ρ, (runCalls S dbg w [.switchContext gh2 c, .newTrans k c, .merge k gh2, .commit gh k]).graph gh = some (c, g') ∧
      Joined ρ g.get? g2.get? g'.get? ∧ Whole S g'.get? := by
  have hI := fun g (hg : Reachable S dbg R g) => C12_internal_partial hw hR hg
  have hs := fun g (hg : Reachable S dbg R g) =>
    (symmetric_closed hw (fun w c _ => hvec.steadyBidirCalls w c) hone hK (fun w c h => (hR w c h).noCatch) hI).reachable hg
  have r : Reachable S dbg R g := ⟨w, gh, c, h, hg⟩
  have r2 : Reachable S dbg R g2 := ⟨w, gh2, c2, h, hg2⟩
  refine C93_moved_partial hw h hg hg2 hne hx hk ⟨hI g r, hs g r, ht, fun _ m _ m' ho hv => absurd hv (hvec m m' ho)⟩
    ⟨hI g2 r2, hs g2 r2, ht2, fun _ m _ m' ho hv => absurd hv (hvec m m' ho)⟩ (C32_disjoint fun i hi => Or.inl ?_)
  obtain ⟨⟨i', n⟩, hm, rfl⟩ := List.mem_map.1 hi
  exact hcnt i' (by rw [show g2.get? i' = some n from (Arena.mem_entries (r2.inv hw).arena).1 hm]; simp)

/-- A graph that is complete in itself can always be moved to another context without a loss, by a detour: if its context has issued more indices
than the new one, the graph is switched to its own context twice before it is switched to the new one. -/
theorem C32_detour (hw : WellNamed S) {w : World} (h : Reaches S dbg R w) {gh2 c c2 : Nat} {g2 : Graph} {x x2 : Ctx}
    (hg2 : w.graph gh2 = some (c2, g2)) (hx : w.ctx c = some x) (hx2 : w.ctx c2 = some x2) (hv2 : Whole S g2.get?) :
    ∃ g' ρ, (runCalls S dbg w ((if x2.cnt ≤ x.cnt then [] else [.switchContext gh2 c2, .switchContext gh2 c2]) ++ [.switchContext gh2 c])).graph gh2 =
        some (c, g') ∧ Isomorphic ρ g2.get? g'.get? ∧ Whole S g'.get? := by
  have below : ∀ {w : World} {R : World → Call → Prop} {g2 : Graph} {x2 : Ctx}, Reaches S dbg R w → w.graph gh2 = some (c2, g2) → w.ctx c2 = some x2 →
      ∀ i : Nat, i ∈ (g2.iter S).map Prod.fst → i ≤ x2.cnt := by
    intro w R g2 x2 h hg2 hx2 i hi
    obtain ⟨⟨i', n⟩, hm, rfl⟩ := List.mem_map.1 hi
    have hr : Reachable S dbg R g2 := ⟨w, gh2, c2, h, hg2⟩
    have hn : g2.get? i' = some n := (Arena.mem_entries (hr.inv hw).arena).1 hm
    obtain ⟨x3, h1, _, h3⟩ := (h.inv hw).bound (.inl gh2) c2 i' ⟨g2, hg2, fun e => by
      rw [show g2.get? i' = none from Arena.get?_of_disp_none e] at hn
      exact absurd hn (by simp)⟩
    rw [hx2, Option.some.injEq] at h1
    exact h1 ▸ h3
  by_cases hle : x2.cnt ≤ x.cnt
  · rw [if_pos hle]
    obtain ⟨g3, σ, a1, _, _, _, _, a6, _, a8⟩ := World.switch_step hw h hg2 hx hv2 (C32_disjoint fun i hi => .inl (Nat.le_trans (below h hg2 hx2 i hi) hle))
    exact ⟨g3, σ, a1, a6, a8⟩
  · rw [if_neg hle]
    have hc : c ≠ c2 := by
      rintro rfl
      rw [hx, Option.some.injEq] at hx2
      exact hle (by rw [hx2]; exact Nat.le_refl _)
    have h' : Reaches S dbg AnyCall w := h.mono fun _ _ _ => trivial
    obtain ⟨g3, σ, a1, _, a3, a4, _, a6, a7, a8⟩ := World.switch_step hw h' hg2 hx2 hv2 (C32_disjoint fun i hi => .inl (below h hg2 hx2 i hi))
    have r1 : Reaches S dbg AnyCall (w.exec S dbg (.switchContext gh2 c2)) := h'.step (c := .switchContext gh2 c2) trivial trivial
    obtain ⟨g4, τ, b1, _, _, b4, _, b6, b7, b8⟩ := World.switch_step hw r1 a1 a3 a8 (C32_disjoint fun i hi => .inl (below r1 a1 a3 i hi))
    have r2 := r1.step (c := .switchContext gh2 c2) trivial trivial
    have k3 : Reachable S dbg AnyCall g3 := ⟨_, gh2, c2, r1, a1⟩
    have k4 : Reachable S dbg AnyCall g4 := ⟨_, gh2, c2, r2, b1⟩
    have l3 : (g3.iter S).length ≤ (g2.iter S).length := Graph.iter_length_le hw (k3.inv hw) a7
    have hi4 := k4.inv hw
    have l4 : (g4.iter S).length ≤ (g3.iter S).length := Graph.iter_length_le hw hi4 b7
    obtain ⟨g5, ρ, e1, _, _, _, _, e6, _, e8⟩ := World.switch_step hw r2 b1 ((b4 c hc).trans ((a4 c hc).trans hx)) b8 (C32_disjoint fun i hi => .inr (by
        obtain ⟨⟨i', n⟩, hm, rfl⟩ := List.mem_map.1 hi
        have := (b7 i' (by rw [show g4.get? i' = some n from (Arena.mem_entries hi4.arena).1 hm]; simp)).1
        rw [List.length_map]
        exact Nat.lt_trans (by simp only at this ⊢; omega : _ < x2.cnt + (g2.iter S).length) this))
    exact ⟨g5, _, e1, (a6.comp b6).comp e6, e8⟩

/-- The condition on indices can always be met by a detour: if the context of the other graph has issued more indices than the context of the
target, the graph is switched to its own context twice before it is switched to the other one. -/
theorem C93_detour (hw : WellNamed S) {w : World} (h : Reaches S dbg R w) {gh gh2 k c c2 : Nat} {g g2 : Graph} {x x2 : Ctx}
    (hg : w.graph gh = some (c, g)) (hg2 : w.graph gh2 = some (c2, g2)) (hne : gh ≠ gh2) (hx : w.ctx c = some x) (hx2 : w.ctx c2 = some x2)
    (hk : w.trans k = none) (hv : Whole S g.get?) (hv2 : Whole S g2.get?) :
    ∃ g' ρ, (runCalls S dbg w ((if x2.cnt ≤ x.cnt then [] else [.switchContext gh2 c2, .switchContext gh2 c2]) ++
        [.switchContext gh2 c, .newTrans k c, .merge k gh2, .commit gh k])).graph gh = some (c, g') ∧
      Joined ρ g.get? g2.get? g'.get? ∧ Whole S g'.get? := by
  have below : ∀ {w : World} {R : World → Call → Prop} {g2 : Graph} {x2 : Ctx}, Reaches S dbg R w → w.graph gh2 = some (c2, g2) → w.ctx c2 = some x2 →
      ∀ i : Nat, i ∈ (g2.iter S).map Prod.fst → i ≤ x2.cnt := by
    intro w R g2 x2 h hg2 hx2 i hi
    obtain ⟨⟨i', n⟩, hm, rfl⟩ := List.mem_map.1 hi
    have hr : Reachable S dbg R g2 := ⟨w, gh2, c2, h, hg2⟩
    have hn : g2.get? i' = some n := (Arena.mem_entries (hr.inv hw).arena).1 hm
    obtain ⟨x3, h1, _, h3⟩ := (h.inv hw).bound (.inl gh2) c2 i' ⟨g2, hg2, fun e => by
      rw [show g2.get? i' = none from Arena.get?_of_disp_none e] at hn
      exact absurd hn (by simp)⟩
    rw [hx2, Option.some.injEq] at h1
    exact h1 ▸ h3
  by_cases hle : x2.cnt ≤ x.cnt
  · rw [if_pos hle]
    exact C93_moved_partial hw h hg hg2 hne hx hk hv hv2 (C32_disjoint fun i hi => .inl (Nat.le_trans (below h hg2 hx2 i hi) hle))
  · rw [if_neg hle]
    have hc : c ≠ c2 := by
      rintro rfl
      rw [hx, Option.some.injEq] at hx2
      exact hle (by rw [hx2]; exact Nat.le_refl _)
    have h' : Reaches S dbg AnyCall w := h.mono fun _ _ _ => trivial
    obtain ⟨g3, σ, a1, a2, a3, a4, a5, a6, a7, a8⟩ := World.switch_step hw h' hg2 hx2 hv2 (C32_disjoint fun i hi => .inl (below h hg2 hx2 i hi))
    have r1 : Reaches S dbg AnyCall (w.exec S dbg (.switchContext gh2 c2)) := h'.step (c := .switchContext gh2 c2) trivial trivial
    obtain ⟨g4, τ, b1, b2, b3, b4, b5, b6, b7, b8⟩ := World.switch_step hw r1 a1 a3 a8 (C32_disjoint fun i hi => .inl (below r1 a1 a3 i hi))
    have r2 := r1.step (c := .switchContext gh2 c2) trivial trivial
    have k3 : Reachable S dbg AnyCall g3 := ⟨_, gh2, c2, r1, a1⟩
    have k4 : Reachable S dbg AnyCall g4 := ⟨_, gh2, c2, r2, b1⟩
    have l3 : (g3.iter S).length ≤ (g2.iter S).length := Graph.iter_length_le hw (k3.inv hw) a7
    have hi4 := k4.inv hw
    have l4 : (g4.iter S).length ≤ (g3.iter S).length := Graph.iter_length_le hw hi4 b7
    obtain ⟨g', ρ, e1, e2, e3⟩ := C93_moved_partial hw r2 ((b2 gh hne).trans ((a2 gh hne).trans hg)) b1 hne ((b4 c hc).trans ((a4 c hc).trans hx))
      (by rw [b5, a5]; exact hk) hv b8 (C32_disjoint fun i hi => .inr (by
        obtain ⟨⟨i', n⟩, hm, rfl⟩ := List.mem_map.1 hi
        have := (b7 i' (by rw [show g4.get? i' = some n from (Arena.mem_entries hi4.arena).1 hm]; simp)).1
        rw [List.length_map]
        exact Nat.lt_trans (by simp only at this ⊢; omega : _ < x2.cnt + (g2.iter S).length) this))
    exact ⟨g', _, e1, Joined.comp (a6.comp b6) e2, e3⟩

end TTGraph

namespace TTGraph
namespace Demo
open Spec

/-- A graph of four linked nodes, and a graph of another context with two linked nodes. -/
def move93 : List Step :=
  pair4 ++ [.call (.newContext 1 78), .call (.newGraph 1 1), .call (.newTrans 2 1), .call (.op 2 (.insert (pA 2 []))), .call (.op 2 (.insert (pB [] 0))),
    .call (.commit 1 2)]

/-- C93, C34: the hypotheses are met; the graph with two nodes is moved into the graph with four. -/
example : ∃ w g g2 x, Reaches pair true SoundKeep w ∧ w.graph 0 = some (0, g) ∧ w.graph 1 = some (1, g2) ∧ w.ctx 0 = some x ∧ w.trans 9 = none ∧
    (∀ i : Nat, g2.get? i ≠ none → i ≤ x.cnt) ∧ g.get? 4 = some (pB [3] 1) ∧ g2.get? 1 = some (pA 2 []) ∧ g2.get? 2 = some (pB [1] 0) ∧
    ∃ g' ρ, (runCalls pair true w [.switchContext 1 0, .newTrans 9 0, .merge 9 1, .commit 0 9]).graph 0 = some (0, g') ∧
      Joined ρ g.get? g2.get? g'.get? ∧ Whole pair g'.get? := by
  have h := reaches_soundKeep (dbg := true) pair_named move93 (by decide +kernel)
  have hI : (graphAt (run pair true World.init move93) 1).Inv pair False := (reachable_of h 1 (by decide +kernel)).inv pair_named
  have hc : ∀ i : Nat, (graphAt (run pair true World.init move93) 1).get? i ≠ none → i ≤ 4 := by
    intro i hi
    obtain ⟨n, hn⟩ := Option.ne_none_iff_exists'.1 hi
    have h1 := List.mem_map_of_mem (f := Prod.fst) ((Arena.mem_entries hI.arena).2 hn)
    have h2 : ((graphAt (run pair true World.init move93) 1).nodes.entries pair).map Prod.fst = [1, 2] := by decide +kernel
    rw [h2] at h1
    rcases List.mem_cons.1 h1 with h1 | h1
    · exact le_of_eq_of_le h1 (by decide)
    · exact le_of_eq_of_le (List.mem_singleton.1 h1) (by decide)
  exact ⟨_, _, _, _, h, rfl, rfl, rfl, rfl, hc, by decide +kernel, by decide +kernel, by decide +kernel,
    C93_programs_partial pair_named pair_noVec pair_one (fun _ _ h => h.2) (fun _ _ h => h.1) h (gh := 0) (gh2 := 1) rfl rfl (by decide) rfl rfl
      (fun _ _ _ _ _ _ a ha => absurd ha (by simp [pair])) (fun _ _ _ _ _ _ a ha => absurd ha (by simp [pair])) hc⟩

/-- C34: the hypotheses of `C34_returns` are met by the two graphs of `merge4`. -/
example : ∃ w g g2 t, Reaches pair true SoundKeep w ∧ w.graph 0 = some (0, g) ∧ w.graph 1 = some (0, g2) ∧ w.trans 2 = some (0, t) ∧
    Whole pair g.get? ∧ Whole pair g2.get? ∧ g.get? 2 = some (pB [1] 0) ∧ g2.get? 4 = some (pB [3] 0) ∧
    ∃ t' g', t.merge g2 = .ok t' ∧ g.commit pair true t' = .ok g' ∧ Whole pair g'.get? := by
  have h := reaches_soundKeep (dbg := true) pair_named merge4 (by decide +kernel)
  have hI := fun g (hg : Reachable pair true SoundKeep g) => C12_internal_partial pair_named (fun _ _ h => h.1) hg
  have hwh : ∀ g, Reachable pair true SoundKeep g → Whole pair g.get? := fun g hg =>
    ⟨hI g hg, (symmetric_closed pair_named (fun w c _ => pair_noVec.steadyBidirCalls w c) pair_one (fun _ _ h => h.2) (fun _ _ h => h.1.noCatch) hI).reachable hg,
      fun _ _ _ _ _ _ a ha => absurd ha (by simp [pair]), fun _ m _ m' ho hv => absurd hv (pair_noVec m m' ho)⟩
  have h0 := hwh _ (reachable_of h 0 (by decide +kernel))
  have h1 := hwh _ (reachable_of h 1 (by decide +kernel))
  obtain ⟨t', g', k1, k2, k3, _⟩ := C34_returns pair_named h (gh := 0) (gh2 := 1) (k := 2) (c := 0) (g := graphAt (run pair true World.init merge4) 0)
    (g2 := graphAt (run pair true World.init merge4) 1) (t := transAt (run pair true World.init merge4) 2) rfl rfl (by decide) rfl rfl rfl rfl rfl
    (fun i hi => absurd hi (List.not_mem_nil)) (fun i => rfl) (fun i hi => absurd hi (List.not_mem_nil)) h0 h1
  exact ⟨_, _, _, _, h, rfl, rfl, rfl, h0, h1, by decide +kernel, by decide +kernel, t', g', k1, k2, k3⟩

/-- The graph of `collide3`, and an empty graph of another context. -/
def collide93 : List Step := collide3 ++ [.call (.newGraph 1 1)]

/-- C93 fails without the condition on indices: a graph of two nodes is moved into an empty graph of a new context, and a link is lost. -/
theorem C93_fails : ∃ w g g2 g', Reaches plain true SoundCalls w ∧ w.graph 1 = some (1, g) ∧ w.graph 0 = some (0, g2) ∧ w.trans 9 = none ∧
    Whole plain g.get? ∧ Whole plain g2.get? ∧
    (runCalls plain true w [.switchContext 0 1, .newTrans 9 1, .merge 9 0, .commit 1 9]).graph 1 = some (1, g') ∧
    g2.get? 2 = some (nA 1 [1, 2] [2, 1] 5) ∧ g'.get? 1 = some (nA 2 [2] [1, 2] 5) ∧ ¬ ∃ ρ, Joined ρ g.get? g2.get? g'.get? := by
  have h : Reaches plain true SoundCalls (run plain true World.init collide93) :=
    reaches_sound (us := []) plain_named collide93 .init (fun _ _ h => absurd h (by simp [World.init])) (by decide +kernel)
  have hwh : ∀ g, Reachable plain true SoundCalls g → Whole plain g.get? := fun g hg =>
    ⟨C12_internal_partial plain_named (fun _ _ h => h) hg, fun _ _ _ _ _ _ _ ⟨l, hl, _⟩ => absurd hl (by simp [plain]),
      fun _ _ _ _ _ _ a ha => absurd ha (by simp [plain]), fun _ _ _ _ ⟨l, hl, _⟩ => absurd hl (by simp [plain])⟩
  let g' := graphAt (run plain true World.init (collide93 ++
    [.call (.switchContext 0 1), .call (.newTrans 9 1), .call (.merge 9 0), .call (.commit 1 9)])) 1
  have hI : g'.Inv plain False := (reachable_of (reaches (dbg := true) (S := plain) (collide93 ++
    [.call (.switchContext 0 1), .call (.newTrans 9 1), .call (.merge 9 0), .call (.commit 1 9)]) (by decide +kernel)) 1 (by decide +kernel)).inv plain_named
  have hc : (g'.nodes.entries plain).map Prod.fst = [1, 2] := by decide +kernel
  refine ⟨_, graphAt (run plain true World.init collide93) 1, graphAt (run plain true World.init collide93) 0, g', h, rfl, rfl, rfl,
    hwh _ (reachable_of h 1 (by decide +kernel)), hwh _ (reachable_of h 0 (by decide +kernel)), rfl, by decide +kernel, by decide +kernel, ?_⟩
  rintro ⟨ρ, hj⟩
  obtain ⟨n', h1, h2⟩ := hj.moved 2 (nA 1 [1, 2] [2, 1] 5) (by decide +kernel)
  have h3 := List.mem_map_of_mem (f := Prod.fst) ((Arena.mem_entries hI.arena).2 h1)
  rw [hc] at h3
  rcases List.mem_cons.1 h3 with h6 | h6
  · replace h6 : ρ 2 = 1 := h6
    rw [h6, show Graph.get? g' 1 = some (nA 2 [2] [1, 2] 5) from by decide +kernel, Option.some.injEq] at h1
    subst h1
    have h7 : LinkVal.Renamed ρ (.set (setOf [1, 2])) (.set (setOf [2])) := by
      have := h2.2.2
      simp only [nA, List.forall₂_cons] at this
      exact this.2.1
    have : ρ 2 ∈ (setOf [2]).elems := (h7 (ρ 2)).2 ⟨2, by decide, rfl, Or.inl (by rw [h6]; decide)⟩
    rw [h6] at this
    exact absurd this (by decide)
  · replace h6 : ρ 2 = 2 := List.mem_singleton.1 h6
    rw [h6, show Graph.get? g' 2 = some (nB 0) from by decide +kernel, Option.some.injEq] at h1
    subst h1
    exact absurd h2.1 (by decide)

/-- C32: with the detour, the graph of `C32_fails` is moved to the new context without a loss. -/
example : ∃ w g2 x x2, Reaches plain true SoundCalls w ∧ w.graph 0 = some (0, g2) ∧ w.ctx 1 = some x ∧ w.ctx 0 = some x2 ∧ Whole plain g2.get? ∧
    ¬ x2.cnt ≤ x.cnt ∧ g2.get? 2 = some (nA 1 [1, 2] [2, 1] 5) ∧
    ∃ g' ρ, (runCalls plain true w [.switchContext 0 0, .switchContext 0 0, .switchContext 0 1]).graph 0 = some (1, g') ∧ Isomorphic ρ g2.get? g'.get? := by
  have h : Reaches plain true SoundCalls (run plain true World.init collide3) :=
    reaches_sound (us := []) plain_named collide3 .init (fun _ _ h => absurd h (by simp [World.init])) (by decide +kernel)
  have hg := reachable_of h 0 (by decide +kernel)
  have h0 : Whole plain (graphAt (run plain true World.init collide3) 0).get? :=
    ⟨C12_internal_partial plain_named (fun _ _ h => h) hg, fun _ _ _ _ _ _ _ ⟨l, hl, _⟩ => absurd hl (by simp [plain]),
      fun _ _ _ _ _ _ a ha => absurd ha (by simp [plain]), fun _ _ _ _ ⟨l, hl, _⟩ => absurd hl (by simp [plain])⟩
  obtain ⟨g', ρ, k1, k2, _⟩ := C32_detour plain_named h (gh2 := 0) (c := 1) (c2 := 0) (x := ⟨78, 0⟩) (x2 := ⟨77, 2⟩) rfl rfl rfl h0
  exact ⟨_, _, _, _, h, rfl, rfl, rfl, h0, by decide +kernel, by decide +kernel, g', ρ, k1, k2⟩

/-- C93: with the detour, the graph of `C93_fails` is moved without a loss: its nodes get the indices 3 and 4, then 5 and 6, then 1 and 2. -/
example : ∃ w g g2 x x2, Reaches plain true SoundCalls w ∧ w.graph 1 = some (1, g) ∧ w.graph 0 = some (0, g2) ∧ w.ctx 1 = some x ∧ w.ctx 0 = some x2 ∧
    w.trans 9 = none ∧ Whole plain g.get? ∧ Whole plain g2.get? ∧ ¬ x2.cnt ≤ x.cnt ∧
    ∃ g' ρ, (runCalls plain true w [.switchContext 0 0, .switchContext 0 0, .switchContext 0 1, .newTrans 9 1, .merge 9 0, .commit 1 9]).graph 1 = some (1, g') ∧
      Joined ρ g.get? g2.get? g'.get? ∧ g'.get? 1 = some (nA 2 [1, 2] [1, 2] 5) := by
  have h : Reaches plain true SoundCalls (run plain true World.init collide93) :=
    reaches_sound (us := []) plain_named collide93 .init (fun _ _ h => absurd h (by simp [World.init])) (by decide +kernel)
  have hwh : ∀ g, Reachable plain true SoundCalls g → Whole plain g.get? := fun g hg =>
    ⟨C12_internal_partial plain_named (fun _ _ h => h) hg, fun _ _ _ _ _ _ _ ⟨l, hl, _⟩ => absurd hl (by simp [plain]),
      fun _ _ _ _ _ _ a ha => absurd ha (by simp [plain]), fun _ _ _ _ ⟨l, hl, _⟩ => absurd hl (by simp [plain])⟩
  have h1 := hwh _ (reachable_of h 1 (by decide +kernel))
  have h0 := hwh _ (reachable_of h 0 (by decide +kernel))
  obtain ⟨g', ρ, k1, k2, _⟩ := C93_detour plain_named h (gh := 1) (gh2 := 0) (k := 9) (c := 1) (c2 := 0) (x := ⟨78, 0⟩) (x2 := ⟨77, 2⟩) rfl rfl (by decide) rfl rfl rfl h1 h0
  refine ⟨_, _, _, _, _, h, rfl, rfl, rfl, rfl, rfl, h1, h0, by decide +kernel, g', ρ, k1, k2, ?_⟩
  have e : g' = graphAt (runCalls plain true (run plain true World.init collide93)
      [.switchContext 0 0, .switchContext 0 0, .switchContext 0 1, .newTrans 9 1, .merge 9 0, .commit 1 9]) 1 := by
    simp only [graphAt]
    rw [show (runCalls plain true (run plain true World.init collide93)
      [.switchContext 0 0, .switchContext 0 0, .switchContext 0 1, .newTrans 9 1, .merge 9 0, .commit 1 9]).graph 1 = some (1, g') from k1]
    rfl
  rw [e]
  decide +kernel

end Demo
end TTGraph
