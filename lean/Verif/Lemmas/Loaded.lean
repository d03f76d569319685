import Verif.Lemmas.World
import Verif.Lemmas.Symmetric
import Verif.Lemmas.Unique
import Verif.Lemmas.Types
import Verif.Spec.Switch

/-!
# Loading a graph in which every link has its opposite
-/

set_option autoImplicit false

namespace TTGraph

open Spec

variable {S : Schema}

theorem added_none {v : View} {x y : NodeIndex} {m : Mirror} : AddedLink (fun _ => none) v x m y ↔ y ≠ emptyIdx ∧ v.Link x m y := by
  constructor
  · rintro ⟨h1, h2, _⟩; exact ⟨h1, h2⟩
  · rintro ⟨h1, h2⟩
    exact ⟨h1, h2, fun ⟨n, hn, _⟩ => absurd hn (by simp)⟩

theorem not_removed_none {v : View} {x y : NodeIndex} {m : Mirror} : ¬ RemovedLink (fun _ => none) v x m y :=
  fun ⟨_, ⟨_, hn, _⟩, _⟩ => absurd hn (by simp)

/-- In a graph with all opposites, a demanded opposite is there. -/
theorem Spec.Answered.demanded {v : View} (ha : Answered S v) {y x : NodeIndex} {m' : Mirror} (hd : Demanded S (fun _ => none) v y m' x) : v.Link y m' x := by
  obtain ⟨m, d, h1, ⟨_, n, hn, hnd⟩, h3, h4, h5⟩ := hd
  obtain ⟨m'', k1, k2, k3⟩ := ha x m y n h1.2.1 hn ⟨m', h3, by rw [h4, hnd]⟩
  rw [h5 m'' k1 (by rw [k2, hnd])] at k3
  exact k3

/-- Completion does nothing. -/
theorem Spec.Answered.same {v v7 : View} (hwt : ∀ x n, v x = some n → S.WT n) (ha : Answered S v)
    (hc : Completion S (fun _ => none) v v7) : View.Same v v7 := by
  refine View.same_iff.2 ⟨sameButLinks_iff.1 hc.1, fun x s y => ?_⟩
  rw [hc.2]
  constructor
  · rintro (⟨h, _⟩ | ⟨h0, h0', m, d, h1, h2, h3⟩)
    · exact h
    · obtain ⟨k, hk⟩ := View.link_iff.1 (ha.demanded ⟨m, d, h1, h2, h3⟩)
      have hk0 : k = 0 := View.slot_zero (s := ⟨s.mirror.disc, s.mirror.pos, k⟩) hwt hk h0'
      subst hk0
      obtain ⟨sd, sp, ss⟩ := s
      simp only at h0
      subst h0
      exact hk
  · intro h
    exact Or.inl ⟨h, fun ⟨_, _, hr, _⟩ => not_removed_none hr⟩

theorem Spec.Answered.not_conflict {v : View} (hwt : ∀ x n, v x = some n → S.WT n) (ha : Answered S v) : ¬ Spec.Conflict S (fun _ => none) v := by
  rintro ⟨y, m', x, i, hk, hd, hne, hs | hs⟩
  · exact hne (Graph.direct_unique hwt hk hs.1 (ha.demanded hd))
  · exact hne (Graph.direct_unique hwt hk (ha.demanded hs) (ha.demanded hd))

theorem Spec.Answered.not_unanswered {v : View} (ha : Answered S v) : ¬ Graph.Unanswered S (fun _ => none) v := by
  rintro ⟨x, m, y, d, h1, ⟨_, n, hn, hnd⟩, ⟨m1, h3, h4⟩, h5⟩
  obtain ⟨m'', k1, k2, k3⟩ := ha x m y n h1.2.1 hn ⟨m1, h3, by rw [h4, hnd]⟩
  exact h5 m'' k1 (by rw [k2, hnd]) ⟨k3, fun ⟨_, _, hr, _⟩ => not_removed_none hr⟩

namespace Graph
variable [SetImpl]

/-- Loading a graph in which every link has an opposite returns, whatever the kinds of the fields. -/
theorem load_answered (hw : WellNamed S) {a : Arena} (ha : a.Inv S) (h0 : a.get? emptyIdx = none)
    (hwt : ∀ x n, a.get? x = some n → S.WT n) (hans : Answered S a.get?) (c : Nat) :
    applyBidirectional S (mergeNodes S (Graph.new c) a Lcr.new).1 (mergeNodes S (Graph.new c) a Lcr.new).2 =
      .ok (mergeNodes S (Graph.new c) a Lcr.new).1 := by
  obtain ⟨m1, _, m3, _⟩ := merge_new_ok hw.variants ha h0 hwt c
  obtain ⟨r1, r2⟩ := merge_new_lcr ha c
  generalize (mergeNodes S (Graph.new c) a Lcr.new).1 = g at *
  generalize (mergeNodes S (Graph.new c) a Lcr.new).2 = r at *
  have hrem : r.removes.elems = [] := List.eq_nil_iff_forall_not_mem.2 fun q hq => r1 q.1 q.2.2 q.2.1 hq
  have hstep : ∀ c ∈ r.adds.elems, bdAdd S g c = .ok g := by
    rintro ⟨x, y, l⟩ hc
    have hl := ((r2 x l y).1 hc).2.1
    rw [← m3] at hl hans
    cases hx : g.nodes.get? x with
    | none => simp only [bdAdd, hx]
    | some nx =>
      cases hy : g.nodes.get? y with
      | none => simp only [bdAdd, hx, hy]
      | some ny =>
        have hx0 : x ≠ emptyIdx := by rintro rfl; have := m1.noEmpty; rw [show g.get? emptyIdx = some nx from hx] at this; exact absurd this (by simp)
        cases hb : S.opposites l ny.disc with
        | nil => simp only [bdAdd, hx, hy, hb]
        | cons m rest =>
          have hm := (Schema.mem_opposites_iff hw).1 (by rw [hb]; simp : m ∈ S.opposites l ny.disc)
          obtain ⟨m', h1, h2, n', h3, h4⟩ := hans x l y ny hl hy ⟨m, hm⟩
          rw [show g.get? y = some ny from hy, Option.some.injEq] at h3
          subst h3
          have hf : (m :: rest).any (fun m => ny.containsLink m x) = true := by
            rw [List.any_eq_true]
            exact ⟨m', by rw [← hb]; exact (Schema.mem_opposites_iff hw).2 ⟨h1, h2⟩, (Node.containsLink_iff hx0).2 h4⟩
          simp only [bdAdd, hx, hy, hb, if_pos hf]
  simp only [applyBidirectional, hrem, foldE]
  have key : ∀ l : List Change, (∀ c ∈ l, bdAdd S g c = .ok g) → foldE (bdAdd S) g l = .ok g := by
    intro l
    induction l with
    | nil => intro _; rfl
    | cons q l ih =>
      intro h
      simp only [foldE, h q (by simp)]
      exact ih fun c hc => h c (by simp [hc])
  exact key _ hstep

omit [SetImpl] in
/-- If moreover the links satisfy their annotations, the link type check of `switch_context` passes. -/
theorem load_typed (hw : WellNamed S) {a : Arena} (ha : a.Inv S) (h0 : a.get? emptyIdx = none)
    (hwt : ∀ x n, a.get? x = some n → S.WT n) (ht : WellTyped S a.get?) (c : Nat) :
    checkLinkType S (mergeNodes S (Graph.new c) a Lcr.new).1 (mergeNodes S (Graph.new c) a Lcr.new).2 = .ok () := by
  obtain ⟨_, _, m3, _⟩ := merge_new_ok hw.variants ha h0 hwt c
  obtain ⟨_, r2⟩ := merge_new_lcr ha c
  refine checkLinkType_ok.2 ?_
  rintro ⟨x, y, m⟩ hc n hn
  rw [m3] at hn
  exact Schema.checkLinkType_of_accept hw (ht x m y n ((r2 x m y).1 hc).2.1 hn)

/-- `switch_context` returns if the arena that its first two loops build has opposites for all links and satisfies the annotations. -/
theorem switchContext_answered (hw : WellNamed S) {e0 : Prop} {g : Graph} (h : g.Inv S e0) (newId cnt : Nat) {a0 a : Arena}
    {idMap : OrderMap NodeIndex NodeIndex} {nc Pr : NodeIndex → Source → NodeIndex → Prop}
    (hin : SwitchIn S (g.iter S) cnt (a0, idMap, cnt + (g.iter S).length)) (hs : switchNodes S g cnt = .ok (a, idMap, cnt + (g.iter S).length))
    (hm : Moved S g idMap a0 nc Pr a) (hans : Answered S a.get?) (ht : WellTyped S a.get?) :
    ∃ g', switchContext S g newId cnt = .ok (g', cnt + (g.iter S).length) ∧ LoadOut S newId a g' := by
  obtain ⟨_, h0, hwt, _⟩ := hm.good h hin
  have h1 := load_answered hw hm.inv h0 hwt hans newId
  have h2 := load_typed hw hm.inv h0 hwt ht newId
  refine ⟨_, ?_, load_ok hw hm.inv h0 hwt h1⟩
  simp only [switchContext, hs, h1, h2]

/-- `deserialize_graph` returns if the indices are distinct and all links have opposites. -/
theorem deserialize_answered (hw : WellNamed S) {input : GraphSerializer} (hin : ∀ e ∈ input.nodes, e.1 ≠ emptyIdx ∧ S.WT e.2)
    (hnd : (input.nodes.map Prod.fst).Nodup) (hans : ∀ a, Arena.FromIter S input.nodes a → Answered S a.get?) :
    ∃ a g, Arena.FromIter S input.nodes a ∧ deserializeGraph S input = .ok (maxIndex input.nodes, g) ∧ LoadOut S input.ctxId a g := by
  rcases Arena.newFromIter_cases S input.nodes with ⟨_, a, h1, h2⟩ | ⟨k, _⟩
  · have hai := h2.inv fun e he => (hin e he).2.disc
    have h0 : a.get? emptyIdx = none := by
      cases hx : a.get? emptyIdx with
      | none => rfl
      | some n => exact absurd rfl (hin _ ((h2.get _ _).1 hx)).1
    have hwt : ∀ x n, a.get? x = some n → S.WT n := fun x n hn => (hin _ ((h2.get _ _).1 hn)).2
    have h3 := load_answered hw hai h0 hwt (hans a h2) input.ctxId
    refine ⟨a, _, h2, ?_, load_ok hw hai h0 hwt h3⟩
    simp only [deserializeGraph, doDeserialize, h1, h3]
  · exact absurd hnd k

end Graph

/-! ### Isomorphic graphs -/

theorem Spec.Isomorphic.link {ρ : NodeIndex → NodeIndex} {v v' : View} (h : Isomorphic ρ v v') {x' y' : NodeIndex} {m : Mirror}
    (hl : v'.Link x' m y') : ∃ x y, v x ≠ none ∧ ρ x = x' ∧ v.Link x m y ∧ ρ y = y' ∧ (y' = emptyIdx → y = emptyIdx) := by
  obtain ⟨n', hn', k, hk⟩ := hl
  obtain ⟨x, hx, rfl⟩ := h.onto x' (by rw [hn']; simp)
  obtain ⟨n, hn⟩ := Option.ne_none_iff_exists'.1 hx
  obtain ⟨n2, h1, h2⟩ := h.node x n hn
  rw [hn', Option.some.injEq] at h1
  subst h1
  obtain ⟨u, h3, h4, h5⟩ := (h2.holds _ _).1 hk
  exact ⟨x, u, hx, rfl, ⟨n, hn, k, h3⟩, h4, fun e => h5.resolve_left (fun c => c e)⟩

theorem Spec.Isomorphic.link' {ρ : NodeIndex → NodeIndex} {v v' : View} (h : Isomorphic ρ v v') {x y : NodeIndex} {m : Mirror}
    (hl : v.Link x m y) (h0 : ρ y ≠ emptyIdx) : v'.Link (ρ x) m (ρ y) := by
  obtain ⟨n, hn, k, hk⟩ := hl
  obtain ⟨n2, h1, h2⟩ := h.node x n hn
  exact ⟨n2, h1, k, (h2.holds _ _).2 ⟨y, hk, rfl, Or.inl h0⟩⟩

theorem Spec.Isomorphic.disc {ρ : NodeIndex → NodeIndex} {v v' : View} (h : Isomorphic ρ v v') {x : NodeIndex} {n n' : Node}
    (hn : v x = some n) (hn' : v' (ρ x) = some n') : n'.disc = n.disc := by
  obtain ⟨n2, h1, h2⟩ := h.node x n hn
  rw [hn', Option.some.injEq] at h1
  subst h1
  exact h2.1

/-- In an isomorphic graph of a graph with internal links, a link to a node is the image of a link to a node. -/
theorem Spec.Isomorphic.target {ρ : NodeIndex → NodeIndex} {v v' : View} (h : Isomorphic ρ v v') (hI : Internal v) (h0 : v' emptyIdx = none) {x' y' : NodeIndex} {m : Mirror}
    {n' : Node} (hl : v'.Link x' m y') (hn' : v' y' = some n') :
    ∃ x y n, v x ≠ none ∧ ρ x = x' ∧ v.Link x m y ∧ ρ y = y' ∧ v y = some n ∧ n'.disc = n.disc := by
  obtain ⟨x, y, h1, h2, h3, h4, h5⟩ := h.link hl
  have hy0 : y' ≠ emptyIdx := by rintro rfl; rw [h0] at hn'; exact absurd hn' (by simp)
  obtain ⟨k, hk⟩ := View.link_iff.1 h3
  have hy : y ≠ emptyIdx := by
    rintro rfl
    exact hy0 (by rw [← h4, h.empty])
  obtain ⟨n, hn⟩ := Option.ne_none_iff_exists'.1 ((hI _ _ _ hk).resolve_left hy)
  exact ⟨x, y, n, h1, h2, h3, h4, hn, h.disc hn (by rw [h4]; exact hn')⟩

theorem Spec.Isomorphic.answered {ρ : NodeIndex → NodeIndex} {v v' : View} (h : Isomorphic ρ v v') (hI : Internal v)
    (h0 : v' emptyIdx = none) (ha : Answered S v) : Answered S v' := by
  intro x' m y' n' hl hn' ⟨m1, h1, h2⟩
  obtain ⟨x, y, n, k1, k2, k3, k4, k5, k6⟩ := h.target hI h0 hl hn'
  obtain ⟨m', e1, e2, e3⟩ := ha x m y n k3 k5 ⟨m1, h1, by rw [h2, k6]⟩
  have hx0 : ρ x ≠ emptyIdx := by
    obtain ⟨nx, hnx⟩ := Option.ne_none_iff_exists'.1 k1
    obtain ⟨nx', hnx', _⟩ := h.node x nx hnx
    intro e
    rw [e, h0] at hnx'
    exact absurd hnx' (by simp)
  have := h.link' e3 hx0
  rw [k4, k2] at this
  exact ⟨m', e1, by rw [e2, k6], this⟩

theorem Spec.Isomorphic.wellTyped {ρ : NodeIndex → NodeIndex} {v v' : View} (h : Isomorphic ρ v v') (hI : Internal v)
    (h0 : v' emptyIdx = none) (ht : WellTyped S v) : WellTyped S v' := by
  intro x' m y' n' hl hn'
  obtain ⟨x, y, n, k1, k2, k3, k4, k5, k6⟩ := h.target hI h0 hl hn'
  rw [k6]
  exact ht x m y n k3 k5

theorem Spec.Isomorphic.same {ρ : NodeIndex → NodeIndex} {v v' v'' : View} (h : Isomorphic ρ v v') (hs : View.Same v' v'') : Isomorphic ρ v v'' where
  empty := h.empty
  inj := h.inj
  node x n hn := by
    obtain ⟨n1, h1, h2⟩ := h.node x n hn
    obtain ⟨n2, h3, h4⟩ := hs.some h1
    refine ⟨n2, h3, Node.renamed_of_holds (h4.shape.trans h2.shape) fun t w => ?_⟩
    have : n2.Holds t w ↔ n1.Holds t w := by
      rw [Node.Renamed.holds h4]
      constructor
      · rintro ⟨u, e1, e2, _⟩
        have e2 : u = w := e2
        rw [← e2]; exact e1
      · intro e
        refine ⟨w, e, rfl, ?_⟩
        by_cases hw : w = emptyIdx
        · exact Or.inr hw
        · exact Or.inl hw
    rw [this, h2.holds]
  onto x' hx := by
    refine h.onto x' fun e => hx ((hs.none_iff x').2 e)

theorem Spec.Symmetric.answered {S : Schema} {v : View} (h : Symmetric S v) : Answered S v :=
  fun x m y n hl hn ⟨m', h1, h2⟩ => ⟨m', h1, h2, h x m y n m' hl hn h1 h2⟩

end TTGraph
