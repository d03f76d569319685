import Verif.Lemmas.Reorder
import Verif.Lemmas.Performable
import Verif.Spec.Net
import Verif.Props.Valid
import Verif.Props.Bidir

/-!
# Only the net effect of a transaction counts: C85
-/

set_option autoImplicit false

namespace TTGraph
open Spec
variable [SetImpl] {S : Schema} {dbg dbg' : Bool} {R R' : World → Call → Prop}

/-- Two transactions, built in any way, that are committed to graphs with the same nodes and whose operations have the same net effect: the graphs
have the same nodes afterwards. -/
theorem C85_same (hw : WellNamed S) {g h g' h' : Graph} {t t' : Trans} (hm : Meets S dbg R g t) (hm' : Meets S dbg' R' h t')
    (hst : SteadyBidir S t g.get?) (hst' : SteadyBidir S t' h.get?) (hs : View.Same g.get? h.get?) (hn : SameNet t t' g.get? h.get?)
    (hc : g.commit S dbg t = .ok g') (hc' : h.commit S dbg' t' = .ok h') : View.Same g'.get? h'.get? := by
  obtain ⟨v6, o⟩ := Graph.commit_ok hw (hm.inv hw) (hm.ready hw).good (hm.disjoint hw).1 (hm.ready hw).noFrom hc
  obtain ⟨v6', o'⟩ := Graph.commit_ok hw (hm'.inv hw) (hm'.ready hw).good (hm'.disjoint hw).1 (hm'.ready hw).noFrom hc'
  exact completion_same (o.completion hst) (o'.completion hst') hs (hn _ _ o.performed o'.performed)

/-- If one of them is committed and the operations of the other one make sense, the other one is committed as well.  This needs that a field has one
opposite on each variant, and that it is declared once. -/
theorem C85_returns (hw : WellNamed S) (hd : DeclaredOnce S) (ho : OneOpposite S) {g h g' : Graph} {t t' : Trans} (hm : Meets S dbg R g t)
    (hm' : Meets S dbg R' h t') (hst : SteadyBidir S t g.get?) (hst' : SteadyBidir S t' h.get?) (hva : SteadyAnnos S t g.get?)
    (hva' : SteadyAnnos S t' h.get?) (hs : View.Same g.get? h.get?) (hn : SameNet t t' g.get? h.get?)
    (hfill : dbg = true → ∀ i, ¬ t'.pending.unfilled i) (hvalid : Valid S h.get? t'.pending) (hc : g.commit S dbg t = .ok g') :
    ∃ h', h.commit S dbg t' = .ok h' ∧ View.Same g'.get? h'.get? := by
  obtain ⟨h6, r6', hp', out'⟩ := hvalid.perform hw hm'
  obtain ⟨_, hctx, _⟩ := hm'.disjoint hw
  refine commit_of_net hw hd ho hst hst' hva hva' (hm.inv hw) (hm'.inv hw) (hm.ready hw) (hm'.ready hw) (hm.disjoint hw).1 (hm'.disjoint hw).1 hs
    (fun _ => hctx) (Trans.allocs_empty hfill) hp' (fun g6 r6 hp => ?_) hc
  exact hn _ _ (Graph.perform_out hw.variants (hm.inv hw) (hm.ready hw).good (hm.disjoint hw).1 (hm.ready hw).noFrom hp).performed out'.performed

/-- A transaction without net effect is committed, whatever the declarations, and changes nothing. -/
theorem C85_nothing (hw : WellNamed S) {g : Graph} {t : Trans} (hm : Meets S dbg R g t) (hst : SteadyBidir S t g.get?) (hva : SteadyAnnos S t g.get?)
    (hn : NoNet t g.get?) (hfill : dbg = true → ∀ i, ¬ t.pending.unfilled i) (hvalid : Valid S g.get? t.pending) :
    ∃ g', g.commit S dbg t = .ok g' ∧ View.Same g.get? g'.get? := by
  have noAdd : ∀ v6, Performed t g.get? v6 → ∀ x m y, ¬ AddedLink g.get? v6 x m y :=
    fun v6 hp x m y ha => ha.2.2 (((hn v6 hp).link x m y).1 ha.2.1)
  have noRem : ∀ v6, Performed t g.get? v6 → ∀ x m y, ¬ RemovedLink g.get? v6 x m y :=
    fun v6 hp x m y ha => ha.2.2 (((hn v6 hp).link x m y).2 ha.2.1)
  obtain ⟨g', hc⟩ : ∃ g', g.commit S dbg t = .ok g' := by
    refine C13_commit_succeeds hw hst hm hfill hvalid fun v6 hp => ⟨?_, ?_, ⟨?_, ?_⟩, fun x m y n hch hy => ?_⟩
    · rintro ⟨_, _, _, _, _, ⟨_, _, ha, _⟩, _⟩
      exact noAdd v6 hp _ _ _ ha
    · rintro ⟨_, _, _, _, ha, _⟩
      exact noAdd v6 hp _ _ _ ha
    · rintro ⟨_, _, _, _, _, ha, _⟩
      exact noRem v6 hp _ _ _ ha
    · rintro ⟨_, _, _, _, ha, _⟩
      exact noAdd v6 hp _ _ _ ha
    · rcases hva x m y with hk | hk
      · exact absurd (((hn v6 hp).link x m y).1 hch.1) (hch.2 hk)
      · exact (Schema.checkLinkType_iff hw).1 (Schema.checkLinkType_of_accept hw (hk n.disc))
  refine ⟨g', hc, ?_⟩
  obtain ⟨v6, o⟩ := Graph.commit_ok hw (hm.inv hw) (hm.ready hw).good (hm.disjoint hw).1 (hm.ready hw).noFrom hc
  have hp := o.performed
  have hcomp := o.completion hst
  refine (hn v6 hp).trans (View.same_iff.2 ⟨sameButLinks_iff.1 hcomp.1, fun x s y => ?_⟩)
  rw [hcomp.2]
  constructor
  · rintro (⟨h1, _⟩ | ⟨_, _, m, d, ha, _⟩)
    · exact h1
    · exact absurd ha (noAdd v6 hp _ _ _)
  · exact fun h1 => Or.inl ⟨h1, fun ⟨m, d, hr, _⟩ => noRem v6 hp _ _ _ hr⟩

end TTGraph

namespace TTGraph
namespace Demo
open Spec

theorem const_respects (n : Node) : Closure.Respects (const n) := fun _ _ _ => Or.inr ⟨_, _, rfl, rfl, Node.Same.refl _⟩

theorem const_harmless {S : Schema} {known : NodeIndex → Prop} {n : Node} (hn : S.WT n) (hk : ∀ e ∈ n.iterSources, known e.1) : Harmless S known (const n) :=
  fun _ _ _ => ⟨n, rfl, hn, fun _ _ hy => hk _ (Node.mem_iterSources.2 hy)⟩

theorem same_of_iter [SetImpl] {S : Schema} {e0 e0' : Prop} {g h : Graph} (hg : g.Inv S e0) (hh : h.Inv S e0') (hp : (g.iter S).Perm (h.iter S)) :
    View.Same g.get? h.get? := by
  refine View.same_of_eq fun x => Option.ext fun n => ?_
  have h1 : (x, n) ∈ g.iter S ↔ g.get? x = some n := Arena.mem_entries hg.arena
  have h2 : (x, n) ∈ h.iter S ↔ h.get? x = some n := Arena.mem_entries hh.arena
  rw [← h1, ← h2, hp.mem_iff]

/-- The net effects of two concrete transactions are compared by performing them. -/
theorem sameNet_of [SetImpl] {S : Schema} {dbg : Bool} {R R' : World → Call → Prop} (hw : WellNamed S) {g h : Graph} {t t' : Trans} (hm : Meets S dbg R g t) (hm' : Meets S dbg R' h t')
    (hr : (t.redir.map Prod.fst).Nodup) (hra : (t.redirAll.map Prod.fst).Nodup) (hc : ∀ p ∈ t.muts ++ t.upds, p.2.Respects)
    (hr' : (t'.redir.map Prod.fst).Nodup) (hra' : (t'.redirAll.map Prod.fst).Nodup) (hc' : ∀ p ∈ t'.muts ++ t'.upds, p.2.Respects)
    {g6 h6 : Graph} {r6 r6' : Lcr} (h1 : Graph.perform S g t = .ok (g6, r6)) (h2 : Graph.perform S h t' = .ok (h6, r6'))
    (he : (g6.iter S).Perm (h6.iter S)) : SameNet t t' g.get? h.get? := by
  intro v6 v6' a b
  have o1 := Graph.perform_out hw.variants (hm.inv hw) (hm.ready hw).good (hm.disjoint hw).1 (hm.ready hw).noFrom h1
  have o2 := Graph.perform_out hw.variants (hm'.inv hw) (hm'.ready hw).good (hm'.disjoint hw).1 (hm'.ready hw).noFrom h2
  exact ((performed_same rfl hr hra hc (.refl _) a o1.performed).trans (same_of_iter o1.inv o2.inv he)).trans
    (performed_same rfl hr' hra' hc' (.refl _) o2.performed b)

theorem noNet_of [SetImpl] {S : Schema} {dbg : Bool} {R : World → Call → Prop} (hw : WellNamed S) {g : Graph} {t : Trans} (hm : Meets S dbg R g t)
    (hr : (t.redir.map Prod.fst).Nodup) (hra : (t.redirAll.map Prod.fst).Nodup) (hc : ∀ p ∈ t.muts ++ t.upds, p.2.Respects)
    {g6 : Graph} {r6 : Lcr} (h1 : Graph.perform S g t = .ok (g6, r6)) (he : (g.iter S).Perm (g6.iter S)) : NoNet t g.get? := by
  intro v6 a
  have o1 := Graph.perform_out hw.variants (hm.inv hw) (hm.ready hw).good (hm.disjoint hw).1 (hm.ready hw).noFrom h1
  exact (same_of_iter (hm.inv hw) o1.inv he).trans (performed_same rfl hr hra hc (.refl _) o1.performed a)

/-- `pair4` with three transactions: the first one redirects the links to 2 to 4, the second one changes the node 1, which has the only link to 2,
the third one changes 1 and changes it back. -/
def net4 : List Step :=
  pair4 ++ [.call (.newTrans 2 0), .call (.newTrans 3 0), .call (.op 1 (.redirectLinks 2 4)), .mutate 2 1 (pA 4 [4]), .mutate 3 1 (pA 4 [4]), .update 3 1 (pA 2 [4])]

def netW : World := run pair true World.init net4

theorem net4_reaches : Reaches pair true AnyCall netW := reaches net4 (by decide +kernel)

theorem netW_meets (k : Nat) (h : hasBoth netW 0 k = true := by decide +kernel) : Meets pair true AnyCall (graphAt netW 0) (transAt netW k) :=
  meets_of net4_reaches 0 k h

theorem net_same : SameNet (transAt netW 1) (transAt netW 2) (graphAt netW 0).get? (graphAt netW 0).get? := by
  refine sameNet_of pair_named (netW_meets 1) (netW_meets 2) (by decide +kernel) (by decide +kernel) ?_ (by decide +kernel) (by decide +kernel) ?_
    (got_ok (d := (Graph.new 0, Lcr.new)) (by decide +kernel)) (got_ok (d := (Graph.new 0, Lcr.new)) (by decide +kernel)) (by decide +kernel)
  · intro p hp
    exact absurd (show p ∈ ([] : List (NodeIndex × Closure)) from hp) (by simp)
  · intro p hp
    have : p ∈ [((1 : NodeIndex), const (pA 4 [4]))] := hp
    rw [List.mem_singleton.1 this]
    exact const_respects _

/-- C85: a redirection and the corresponding change of one node have the same net effect, so the commits give the same nodes. -/
example : let g := graphAt netW 0
    ∃ g1 g2, g.commit pair true (transAt netW 1) = .ok g1 ∧ g.commit pair true (transAt netW 2) = .ok g2 ∧ View.Same g1.get? g2.get? ∧
      [1, 2, 4].map g1.get? = [some (pA 4 [4]), some (pB [] 0), some (pB [3, 1] 1)] := by
  have hc1 : (graphAt netW 0).commit pair true (transAt netW 1) = .ok _ := got_ok (d := Graph.new 0) (by decide +kernel)
  have hc2 : (graphAt netW 0).commit pair true (transAt netW 2) = .ok _ := got_ok (d := Graph.new 0) (by decide +kernel)
  exact ⟨_, _, hc1, hc2, C85_same pair_named (netW_meets 1) (netW_meets 2) (pair_noVec.steadyBidir _ _) (pair_noVec.steadyBidir _ _) (.refl _) net_same
    hc1 hc2, by decide +kernel⟩

theorem pair_steadyAnnos (t : Trans) (v : View) : SteadyAnnos pair t v := fun _ _ _ => Or.inr fun _ _ h => (nomatch h)

/-- Transactions that only have constant closures. -/
theorem valid_ofConst {S : Schema} {g : Graph} {t : Trans} {l : List (NodeIndex × Node)} (hl : t.muts ++ t.upds = l.map fun e => (e.1, const e.2))
    (hr : t.redir = []) (hra : t.redirAll = []) (hd : t.dec.elems = [])
    (h : ∀ e ∈ l, g.get? e.1 ≠ none ∧ S.WT e.2 ∧ ∀ s ∈ e.2.iterSources, g.get? s.1 ≠ none) : Valid S g.get? t.pending := by
  have key : ∀ i f, (i, f) ∈ t.pending.muts ++ t.pending.upds → ∃ n, (i, n) ∈ l ∧ f = const n := by
    intro i f hf
    rw [show t.pending.muts ++ t.pending.upds = _ from hl] at hf
    obtain ⟨⟨j, n⟩, hn, e⟩ := List.mem_map.1 hf
    simp only [Prod.mk.injEq] at e
    obtain ⟨rfl, rfl⟩ := e
    exact ⟨n, hn, rfl⟩
  refine ⟨fun i f hf => ?_, fun i hi => ?_, fun i f hf => ?_, fun a b hab => ?_, fun a b hab => ?_, ?_, ?_⟩
  · obtain ⟨n, hn, _⟩ := key i f hf
    exact Or.inl (h _ hn).1
  · exact absurd (show i ∈ t.dec.elems from hi) (by rw [hd]; simp)
  · obtain ⟨n, hn, rfl⟩ := key i f hf
    exact const_harmless (h _ hn).2.1 fun e he => Or.inl ((h _ hn).2.2 e he)
  · exact absurd (show (a, b) ∈ t.redir from hab) (by rw [hr]; simp)
  · exact absurd (show (a, b) ∈ t.redirAll from hab) (by rw [hra]; simp)
  · rintro ⟨a, b, hab, _⟩
    exact absurd (show (a, b) ∈ t.redir from hab) (by rw [hr]; simp)
  · rintro ⟨a, b, hab, _⟩
    exact absurd (show (a, b) ∈ t.redirAll from hab) (by rw [hra]; simp)

theorem net_valid2 : Valid pair (graphAt netW 0).get? (transAt netW 2).pending := by
  refine valid_ofConst (l := [(1, pA 4 [4])]) rfl (by decide +kernel) (by decide +kernel) (by decide +kernel) fun e he => ?_
  rw [List.mem_singleton.1 he]
  exact ⟨by decide +kernel, wt_sound (by decide +kernel), by decide +kernel⟩

theorem net_valid3 : Valid pair (graphAt netW 0).get? (transAt netW 3).pending := by
  refine valid_ofConst (l := [(1, pA 4 [4]), (1, pA 2 [4])]) rfl (by decide +kernel) (by decide +kernel) (by decide +kernel) fun e he => ?_
  rcases List.mem_cons.1 he with rfl | he
  · exact ⟨by decide +kernel, wt_sound (by decide +kernel), by decide +kernel⟩
  · rw [List.mem_singleton.1 he]
    exact ⟨by decide +kernel, wt_sound (by decide +kernel), by decide +kernel⟩

theorem net_filled (k : Nat) (h : (transAt netW k).allocs.elems = [] := by decide +kernel) : true = true → ∀ i, ¬ (transAt netW k).pending.unfilled i :=
  fun _ i hi => absurd (show i ∈ (transAt netW k).allocs.elems from hi) (by rw [h]; simp)

/-- C85: all hypotheses of `C85_returns` hold for these transactions. -/
example : let g := graphAt netW 0
    ∃ g1 g2, g.commit pair true (transAt netW 1) = .ok g1 ∧ g.commit pair true (transAt netW 2) = .ok g2 ∧ View.Same g1.get? g2.get? := by
  have hc1 : (graphAt netW 0).commit pair true (transAt netW 1) = .ok _ := got_ok (d := Graph.new 0) (by decide +kernel)
  obtain ⟨g2, hc2, hs⟩ := C85_returns pair_named pair_once pair_one (netW_meets 1) (netW_meets 2) (pair_noVec.steadyBidir _ _) (pair_noVec.steadyBidir _ _)
    (pair_steadyAnnos _ _) (pair_steadyAnnos _ _) (.refl _) net_same (net_filled 2) net_valid2 hc1
  exact ⟨_, g2, hc1, hc2, hs⟩

/-- C85: the third transaction changes nothing, although each of its two closures does. -/
example : let g := graphAt netW 0
    (transAt netW 3).muts.length = 1 ∧ (transAt netW 3).upds.length = 1 ∧ ∃ g', g.commit pair true (transAt netW 3) = .ok g' ∧ View.Same g.get? g'.get? := by
  refine ⟨rfl, rfl, C85_nothing pair_named (netW_meets 3) (pair_noVec.steadyBidir _ _) (pair_steadyAnnos _ _) ?_ (net_filled 3) net_valid3⟩
  refine noNet_of pair_named (netW_meets 3) (by decide +kernel) (by decide +kernel) ?_ (got_ok (d := (Graph.new 0, Lcr.new)) (by decide +kernel)) (by decide +kernel)
  intro p hp
  have : p ∈ [((1 : NodeIndex), const (pA 4 [4])), (1, const (pA 2 [4]))] := hp
  simp only [List.mem_cons, List.not_mem_nil, or_false] at this
  rcases this with rfl | rfl <;> exact const_respects _

/-- `A { p: NodeIndex, q: NodeIndex }` (1: 10, 11), `B { y: Set, z: Set }` (2: 20, 21), `C {}` (3), with `A.p <-> B.y`, `A.p <-> B.z`, `A.q <-> B.y`. -/
def forked : Schema :=
  { variants := [(1, ⟨[lnk 10 .direct, lnk 11 .direct], []⟩), (2, ⟨[lnk 20 .set, lnk 21 .set], []⟩), (3, ⟨[], []⟩)],
    bidirs := [⟨1, 10, 2, 20⟩, ⟨1, 10, 2, 21⟩, ⟨1, 11, 2, 20⟩] }

theorem forked_named : WellNamed forked := wellNamed_sound (by decide)
theorem forked_noVec : NoVec forked := noVec_sound forked_named (by decide)

/-- Nodes of variant A of `forked`. -/
def fA (p q : NodeIndex) : Node := ⟨1, [.direct p, .direct q], []⟩

/-- 1 is linked with 3 in `p`.  Two transactions link both fields of 1 with 2: the first one sets `q` and redirects the link to 3, the second one sets both. -/
def fork3 : List Step :=
  [.call (.newContext 0 77), .call (.newGraph 0 0), .call (.newTrans 0 0), .call (.op 0 (.insert (fA 3 0))), .call (.op 0 (.insert (sB [] []))),
   .call (.op 0 (.insert ⟨3, [], []⟩)), .call (.commit 0 0), .call (.newTrans 1 0), .call (.newTrans 2 0), .mutate 1 1 (fA 3 2),
   .call (.op 1 (.redirectAllLinks 3 2)), .mutate 2 1 (fA 2 2)]

def forkW : World := run forked true World.init fork3

theorem fork3_reaches : Reaches forked true AnyCall forkW := reaches fork3 (by decide +kernel)

/-- Why `C85_returns` needs `OneOpposite`: the two transactions have the same net effect on the same graph, but the order in which the links are added
decides whether the commit panics.  If `q` comes first, its opposite is also one of `p`; if `p` comes first, there are two candidates and neither of
them is there. -/
theorem C85_order_differ : let g := graphAt forkW 0
    Meets forked true AnyCall g (transAt forkW 1) ∧ Meets forked true AnyCall g (transAt forkW 2) ∧
    SameNet (transAt forkW 1) (transAt forkW 2) g.get? g.get? ∧ Valid forked g.get? (transAt forkW 2).pending ∧
    (∃ g', g.commit forked true (transAt forkW 1) = .ok g' ∧ g'.get? 1 = some (fA 2 2) ∧ g'.get? 2 = some (sB [1] [])) ∧
    g.commit forked true (transAt forkW 2) = .error .multiChoice := by
  have hm1 : Meets forked true AnyCall (graphAt forkW 0) (transAt forkW 1) := meets_of fork3_reaches 0 1 (by decide +kernel)
  have hm2 : Meets forked true AnyCall (graphAt forkW 0) (transAt forkW 2) := meets_of fork3_reaches 0 2 (by decide +kernel)
  refine ⟨hm1, hm2, ?_, ?_, ⟨_, got_ok (d := Graph.new 0) (by decide +kernel), by decide +kernel, by decide +kernel⟩, panic_of (by decide +kernel)⟩
  · refine sameNet_of forked_named hm1 hm2 (by decide +kernel) (by decide +kernel) ?_ (by decide +kernel) (by decide +kernel) ?_
      (got_ok (d := (Graph.new 0, Lcr.new)) (by decide +kernel)) (got_ok (d := (Graph.new 0, Lcr.new)) (by decide +kernel)) (by decide +kernel)
    · intro p hp
      have : p ∈ [((1 : NodeIndex), const (fA 3 2))] := hp
      rw [List.mem_singleton.1 this]
      exact const_respects _
    · intro p hp
      have : p ∈ [((1 : NodeIndex), const (fA 2 2))] := hp
      rw [List.mem_singleton.1 this]
      exact const_respects _
  · refine valid_ofConst (l := [(1, fA 2 2)]) rfl (by decide +kernel) (by decide +kernel) (by decide +kernel) fun e he => ?_
    rw [List.mem_singleton.1 he]
    exact ⟨by decide +kernel, wt_sound (by decide +kernel), by decide +kernel⟩

end Demo
end TTGraph
