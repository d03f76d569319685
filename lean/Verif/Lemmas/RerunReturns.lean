import Verif.Lemmas.Rerun
import Verif.Lemmas.Schedule

/-!
# Calls that return in one run return in the other
-/

set_option autoImplicit false

namespace TTGraph
open Spec

section
variable [SetImpl] {S : Schema} {dbg : Bool}

omit [SetImpl] in
theorem Spec.SameOp.symm {o o2 : TOp} (h : SameOp o o2) : SameOp o2 o := by
  cases o <;> cases o2 <;> first | exact h.elim | skip
  · exact Node.Same.symm h
  · exact (show List.Forall₂ Node.Same _ _ from h).flip.imp fun _ _ h => Node.Same.symm h
  · exact Eq.symm h
  · trivial
  · exact ⟨h.1.symm, Node.Same.symm h.2⟩
  · exact ⟨h.1.symm, Node.Same.symm h.2⟩
  · exact Eq.symm h
  · exact ⟨h.1.symm, SameClosure.symm h.2⟩
  · exact ⟨h.1.symm, SameClosure.symm h.2⟩
  · exact ⟨h.1.symm, h.2.symm⟩
  · exact ⟨h.1.symm, h.2.symm⟩

/-- The dispatchers of the graphs and transactions are the same. -/
structure SameDisp (w w2 : World) : Prop where
  graph : ∀ k c g c2 g2, w.graph k = some (c, g) → w2.graph k = some (c2, g2) → ∀ i, g2.nodes.disp.get? i = g.nodes.disp.get? i
  trans : ∀ k c t c2 t2, w.trans k = some (c, t) → w2.trans k = some (c2, t2) → ∀ i, t2.inc.disp.get? i = t.inc.disp.get? i

omit [SetImpl] in
theorem put_disp {α : Type} {f f2 : Nat → Option (Nat × α)} {P : α → α → Prop} (h : ∀ k c g c2 g2, f k = some (c, g) → f2 k = some (c2, g2) → P g g2)
    (j : Nat) {v v2 : Option (Nat × α)} (hv : ∀ c g c2 g2, v = some (c, g) → v2 = some (c2, g2) → P g g2) (k c : Nat) (g : α) (c2 : Nat) (g2 : α)
    (e : World.put f j v k = some (c, g)) (e2 : World.put f2 j v2 k = some (c2, g2)) : P g g2 := by
  by_cases ek : k = j
  · simp only [World.put, ek, if_true] at e e2
    exact hv _ _ _ _ e e2
  · simp only [World.put, ek, if_false] at e e2
    exact h _ _ _ _ _ e e2

omit [SetImpl] in
/-- If every index that is known is a node, the containers determine the dispatcher. -/
theorem Graph.Full.disp {e0 e0' : Prop} {g g2 : Graph} (h : g.Full) (h2 : g2.Full) (hi : g.Inv S e0) (hi2 : g2.Inv S e0')
    (hk : ∀ d, (g2.nodes.cont d).keys = (g.nodes.cont d).keys) (i : NodeIndex) : g2.nodes.disp.get? i = g.nodes.disp.get? i := by
  have key : ∀ {g : Graph} {e0 : Prop}, g.Full → g.Inv S e0 → ∀ d, g.nodes.disp.get? i = some d ↔ i ∈ (g.nodes.cont d).keys := by
    intro g e0 h hi d
    refine ⟨fun e => ?_, fun e => hi.arena.homes d i e⟩
    have := h i (by rw [e]; simp)
    rw [Graph.get?, Arena.get?_of_disp e] at this
    by_contra hn
    exact this (OrderMap.get?_eq_none.2 hn)
  apply Option.ext
  intro d
  rw [key h2 hi2, key h hi, hk]

theorem switch_full (hw : WellNamed S) {e0 : Prop} {g g' : Graph} {u cnt cnt' : Nat} (h : g.Inv S e0) (he : g.switchContext S u cnt = .ok (g', cnt')) : g'.Full := by
  obtain ⟨a0, idMap, a, h1, h2, h3, h4, h5, h6, h7, _⟩ := switch_ok hw h he
  intro j hj
  rw [h6.disp, h5.disp] at hj
  obtain ⟨hj1, hj2⟩ := (h1.disp j).1 hj
  rw [Ne, LoadOut.none_iff h6, h5.absent]
  simp only at hj2
  obtain ⟨p, hp⟩ : ∃ p : Nat, j = Graph.newIndex cnt p := Nat.exists_eq_add_of_le hj1
  have hlt : p < (g.iter S).length := by
    rw [hp] at hj2
    have h2 : cnt + 1 + p ≤ cnt + (g.iter S).length := hj2
    omega
  have := (h1.get j _).2 ⟨p, ((g.iter S)[p]).1, List.getElem?_eq_getElem hlt, hp⟩
  simp only at this
  rw [this]
  simp

theorem deserialize_full (hw : WellNamed S) {input : GraphSerializer} (hin : ∀ e ∈ input.nodes, e.1 ≠ emptyIdx ∧ S.WT e.2)
    {cnt : Nat} {g : Graph} (hd : Graph.deserializeGraph S input = .ok (cnt, g)) : g.Full := by
  obtain ⟨_, _, a, h1, h2, h3⟩ := deserialize_ok hw hin hd
  intro j hj
  rw [h3.disp, h1.disp] at hj
  rw [Ne, LoadOut.none_iff h3]
  obtain ⟨⟨j', n⟩, hm, rfl⟩ := List.mem_map.1 hj
  rw [(h1.get j' n).2 hm]
  simp

theorem Agree.bound {w w2 : World} (h : Agree S w w2) {k c : Nat} {t : Trans} {x : Ctx} (ht : w.trans k = some (c, t)) (hx : w.ctx c = some x) :
    t.Ready S ∧ ∀ i : Nat, t.Owns i → i ≠ emptyIdx ∧ i ≤ x.cnt := winv_ready h.twin.left ht hx

/-- A method that returns in one run returns in the other one. -/
theorem Agree.op {w w2 : World} (h : Agree S w w2) (hd : SameDisp w w2) {k c c2 : Nat} {t t2 t' : Trans} {x x2 : Ctx} {cnt' : Nat} {l : List NodeIndex} {o o2 : TOp}
    (ho : SameOp o o2) (ht : w.trans k = some (c, t)) (ht2 : w2.trans k = some (c2, t2)) (hx : w.ctx c = some x) (hx2 : w2.ctx c2 = some x2)
    (ha : o.Allowed S t) (hb : o2.Allowed S t2) (hr : o.run t x.cnt = .ok (t', cnt', l)) :
    ∃ t2', o2.run t2 x2.cnt = .ok (t2', cnt', l) ∧ ∀ i, t2'.inc.disp.get? i = t'.inc.disp.get? i := by
  obtain ⟨rfl, hp⟩ := h.twin.trans _ _ _ _ _ trivial ht ht2
  have ec : x2.cnt = x.cnt := by
    have := h.cnt c2
    rw [hx, hx2] at this
    simpa using this
  obtain ⟨h1, h2⟩ := winv_ready h.twin.left ht hx
  obtain ⟨h3, h4⟩ := winv_ready h.twin.right ht2 hx2
  have hle : x.cnt ≤ cnt' := by
    have := Trans.run_count hr
    omega
  obtain ⟨t2', e1, e2⟩ := Trans.op_alike (σ := Equiv.refl _) h1 h3 h2 h4 ha hb ho.alike ⟨hp, fun i => hd.trans _ _ _ _ _ ht ht2 i⟩ hr
    (fun i _ => by rw [ec]; rfl)
  refine ⟨t2', ?_, e2.disp⟩
  rw [e1, ec]
  congr 3
  · omega
  · simp

theorem Agree.disp (hw : WellNamed S) {w w2 : World} (h : Agree S w w2) (hd : SameDisp w w2) {a b : Call} (h' : Agree S (w.exec S dbg a) (w2.exec S dbg b))
    (ha : a.Allowed S w) (hb : b.Allowed S w2) (hab : SameCall a b) (hr : Returns S dbg w a) (hr2 : Returns S dbg w2 b) :
    SameDisp (w.exec S dbg a) (w2.exec S dbg b) := by
  have comm : ∀ {k c : Nat} {t : Trans} {gh c2 : Nat} {t2 : Trans} {g g2 g' g2' : Graph}, w.trans k = some (c, t) → w.graph gh = some (c, g) →
      w2.trans k = some (c2, t2) → w2.graph gh = some (c2, g2) → g.commit S dbg t = .ok g' → g2.commit S dbg t2 = .ok g2' →
      ∀ i, g2'.nodes.disp.get? i = g'.nodes.disp.get? i := by
    intro k c t gh c2 t2 g g2 g' g2' ht hg ht2 hg2 hc hc2 i
    obtain ⟨_, _, _, _, a4, a5, _, a7, _⟩ := h.twin.left.pair ht hg
    obtain ⟨_, _, _, _, b4, b5, _, b7, _⟩ := h.twin.right.pair ht2 hg2
    obtain ⟨_, out⟩ := Graph.commit_ok hw a5 a4.good a7 a4.noFrom hc
    obtain ⟨_, out2⟩ := Graph.commit_ok hw b5 b4.good b7 b4.noFrom hc2
    obtain ⟨_, e2⟩ := h.twin.trans k _ _ _ _ trivial ht ht2
    have hm : i ∈ t2.dec.elems ↔ i ∈ t.dec.elems := e2.removed i
    rw [out.disp, out2.disp, hd.graph _ _ _ _ _ hg hg2, hd.trans _ _ _ _ _ ht ht2]
    simp only [hm]
  cases a with
  | newContext c u => cases b <;> first | exact hab.elim | exact ⟨hd.graph, hd.trans⟩
  | defaultContext c => cases b <;> first | exact hab.elim | exact ⟨hd.graph, hd.trans⟩
  | newGraph g c =>
    cases b <;> try exact hab.elim
    obtain ⟨rfl, rfl⟩ := hab
    obtain ⟨x, hx⟩ := hr
    obtain ⟨x2, hx2⟩ := hr2
    constructor <;> simp only [World.exec, hx, hx2]
    · refine put_disp (P := fun g g2 : Graph => ∀ i, g2.nodes.disp.get? i = g.nodes.disp.get? i) hd.graph _ fun _ _ _ _ e e2 i => ?_
      simp only [Option.some.injEq, Prod.mk.injEq] at e e2
      rw [← e.2, ← e2.2]
      rfl
    · exact hd.trans
  | newTrans k c =>
    cases b <;> try exact hab.elim
    obtain ⟨rfl, rfl⟩ := hab
    obtain ⟨x, hx⟩ := hr
    obtain ⟨x2, hx2⟩ := hr2
    constructor <;> simp only [World.exec, hx, hx2]
    · exact hd.graph
    · refine put_disp (P := fun g g2 : Trans => ∀ i, g2.inc.disp.get? i = g.inc.disp.get? i) hd.trans _ fun _ _ _ _ e e2 i => ?_
      simp only [Option.some.injEq, Prod.mk.injEq] at e e2
      rw [← e.2, ← e2.2]
      rfl
  | op k o =>
    cases b <;> try exact hab.elim
    obtain ⟨rfl, hop⟩ := hab
    obtain ⟨c, t, x, ⟨t', n, l⟩, ht, hx, hrun⟩ := hr
    obtain ⟨c2, t2, x2, ⟨t2', n2, l2⟩, ht2, hx2, hrun2⟩ := hr2
    obtain ⟨t3, e1, e2⟩ := h.op hd hop ht ht2 hx hx2 (ha _ _ ht) (hb _ _ ht2) hrun
    rw [hrun2, Except.ok.injEq, Prod.mk.injEq, Prod.mk.injEq] at e1
    obtain ⟨rfl, rfl, rfl⟩ := e1
    constructor <;> simp only [World.exec, ht, hx, hrun, ht2, hx2, hrun2]
    · exact hd.graph
    · refine put_disp (P := fun g g2 : Trans => ∀ i, g2.inc.disp.get? i = g.inc.disp.get? i) hd.trans _ fun _ _ _ _ f f2 => ?_
      simp only [Option.some.injEq, Prod.mk.injEq] at f f2
      rw [← f.2, ← f2.2]
      exact e2
  | merge k g =>
    cases b <;> try exact hab.elim
    obtain ⟨rfl, rfl⟩ := hab
    obtain ⟨c, t, c', gr, t', ht, hg, hm⟩ := hr
    obtain ⟨c2, t2, c2', gr2, t2', ht2, hg2, hm2⟩ := hr2
    have hm' : ∀ {t t' : Trans} {g : Graph}, t.merge g = .ok t' → t'.inc = t.inc.merge g.nodes := by
      intro t t' g e
      unfold Trans.merge at e
      split at e
      · rw [← Except.ok.inj e]
      · exact absurd e (by simp)
    constructor <;> simp only [World.exec, ht, hg, hm, ht2, hg2, hm2]
    · exact put_disp (P := fun g g2 : Graph => ∀ i, g2.nodes.disp.get? i = g.nodes.disp.get? i) hd.graph _ fun _ _ _ _ e => absurd e (by simp)
    · refine put_disp (P := fun g g2 : Trans => ∀ i, g2.inc.disp.get? i = g.inc.disp.get? i) hd.trans _ fun _ _ _ _ f f2 i => ?_
      simp only [Option.some.injEq, Prod.mk.injEq] at f f2
      rw [← f.2, ← f2.2, hm' hm, hm' hm2, Arena.merge_disp, Arena.merge_disp, hd.graph _ _ _ _ _ hg hg2, hd.trans _ _ _ _ _ ht ht2]
  | commit g k =>
    cases b <;> try exact hab.elim
    obtain ⟨rfl, rfl⟩ := hab
    obtain ⟨c, t, c', gr, t', ht, hg, hm⟩ := hr
    obtain ⟨c2, t2, c2', gr2, t2', ht2, hg2, hm2⟩ := hr2
    obtain rfl := ha _ _ _ _ ht hg
    obtain rfl := hb _ _ _ _ ht2 hg2
    constructor <;> simp only [World.exec, ht, hg, hm, ht2, hg2, hm2]
    · refine put_disp (P := fun g g2 : Graph => ∀ i, g2.nodes.disp.get? i = g.nodes.disp.get? i) hd.graph _ fun _ _ _ _ f f2 => ?_
      simp only [Option.some.injEq, Prod.mk.injEq] at f f2
      rw [← f.2, ← f2.2]
      exact comm ht hg ht2 hg2 hm hm2
    · exact put_disp (P := fun g g2 : Trans => ∀ i, g2.inc.disp.get? i = g.inc.disp.get? i) hd.trans _ fun _ _ _ _ e => absurd e (by simp)
  | commitChecked g k ch =>
    cases b <;> try exact hab.elim
    obtain ⟨rfl, rfl⟩ := hab
    obtain ⟨c, t, c', gr, t', ht, hg, hm⟩ := hr
    obtain ⟨c2, t2, c2', gr2, t2', ht2, hg2, hm2⟩ := hr2
    obtain rfl := ha _ _ _ _ ht hg
    obtain rfl := hb _ _ _ _ ht2 hg2
    constructor <;> simp only [World.exec, ht, hg, hm, ht2, hg2, hm2]
    · refine put_disp (P := fun g g2 : Graph => ∀ i, g2.nodes.disp.get? i = g.nodes.disp.get? i) hd.graph _ fun _ _ _ _ f f2 => ?_
      simp only [Option.some.injEq, Prod.mk.injEq] at f f2
      rw [← f.2, ← f2.2]
      exact comm ht hg ht2 hg2 (Graph.commit_of_checked hm) (Graph.commit_of_checked hm2)
    · exact put_disp (P := fun g g2 : Trans => ∀ i, g2.inc.disp.get? i = g.inc.disp.get? i) hd.trans _ fun _ _ _ _ e => absurd e (by simp)
  | commitCaught g k => exact hr.elim
  | dropTrans k =>
    cases b <;> try exact hab.elim
    obtain rfl := hab
    exact ⟨hd.graph, put_disp (P := fun g g2 : Trans => ∀ i, g2.inc.disp.get? i = g.inc.disp.get? i) hd.trans _ fun _ _ _ _ e => absurd e (by simp)⟩
  | dropGraph k =>
    cases b <;> try exact hab.elim
    obtain rfl := hab
    exact ⟨put_disp (P := fun g g2 : Graph => ∀ i, g2.nodes.disp.get? i = g.nodes.disp.get? i) hd.graph _ fun _ _ _ _ e => absurd e (by simp), hd.trans⟩
  | switchContext g c =>
    cases b <;> try exact hab.elim
    obtain ⟨rfl, rfl⟩ := hab
    rename_i g c
    obtain ⟨c0, gr, x, ⟨gr', n⟩, hg, hx, hs⟩ := hr
    obtain ⟨c02, gr2, x2, ⟨gr2', n2⟩, hg2, hx2, hs2⟩ := hr2
    obtain ⟨_, _, _, hinv⟩ := h.twin.left.graph _ _ _ hg
    obtain ⟨_, _, _, hinv2⟩ := h.twin.right.graph _ _ _ hg2
    obtain ⟨a0, idMap, a, s1, s2, _⟩ := Graph.switchNodes_ok hw.variants hinv x.cnt
    obtain ⟨b0, idMap2, b, t1, t2, _⟩ := Graph.switchNodes_ok hw.variants hinv2 x2.cnt
    have ex : w.exec S dbg (.switchContext g c) = (w.issue c x (x.cnt + (gr.iter S).length) (idMap.entries.map Prod.snd)).setGraph g (some (c, gr')) := by
      simp only [World.exec, hg, hx, s1, hs]
    have ex2 : w2.exec S dbg (.switchContext g c) =
        (w2.issue c x2 (x2.cnt + (gr2.iter S).length) (idMap2.entries.map Prod.snd)).setGraph g (some (c, gr2')) := by
      simp only [World.exec, hg2, hx2, t1, hs2]
    rw [ex, ex2] at h' ⊢
    have f1 : ((w.issue c x (x.cnt + (gr.iter S).length) (idMap.entries.map Prod.snd)).setGraph g (some (c, gr'))).graph g = some (c, gr') := by
      simp [World.setGraph, World.put]
    have f2 : ((w2.issue c x2 (x2.cnt + (gr2.iter S).length) (idMap2.entries.map Prod.snd)).setGraph g (some (c, gr2'))).graph g = some (c, gr2') := by
      simp [World.setGraph, World.put]
    obtain ⟨_, _, _, i1⟩ := h'.twin.left.graph _ _ _ f1
    obtain ⟨_, _, _, i2⟩ := h'.twin.right.graph _ _ _ f2
    refine ⟨put_disp (P := fun g g2 : Graph => ∀ i, g2.nodes.disp.get? i = g.nodes.disp.get? i) hd.graph _ fun _ _ _ _ e e2 => ?_, hd.trans⟩
    simp only [Option.some.injEq, Prod.mk.injEq] at e e2
    rw [← e.2, ← e2.2]
    exact (switch_full hw hinv hs).disp (switch_full hw hinv2 hs2) i1 i2 fun d => (h'.ord.graph _ _ _ _ _ trivial f1 f2 d).trans (List.map_id _)
  | deserialize g c f =>
    cases b <;> try exact hab.elim
    obtain ⟨rfl, rfl, hf⟩ := hab
    obtain ⟨⟨n, gr⟩, hg⟩ := hr
    obtain ⟨⟨n2, gr2⟩, hg2⟩ := hr2
    rename_i g c f2
    have f1 : (w.exec S dbg (.deserialize g c f)).graph g = some (c, gr) := by simp [World.exec, hg, World.setGraph, World.put]
    have f2' : (w2.exec S dbg (.deserialize g c f2)).graph g = some (c, gr2) := by simp only [World.exec, hg2]; simp [World.setGraph, World.put]
    obtain ⟨_, _, _, i1⟩ := h'.twin.left.graph _ _ _ f1
    obtain ⟨_, _, _, i2⟩ := h'.twin.right.graph _ _ _ f2'
    have hk := h'.ord.graph _ _ _ _ _ trivial f1 f2'
    constructor <;> simp only [World.exec, hg, hg2]
    · refine put_disp (P := fun g g2 : Graph => ∀ i, g2.nodes.disp.get? i = g.nodes.disp.get? i) hd.graph _ fun _ _ _ _ e e2 => ?_
      simp only [Option.some.injEq, Prod.mk.injEq] at e e2
      rw [← e.2, ← e2.2]
      exact (deserialize_full hw ha.2.2 hg).disp (deserialize_full hw hb.2.2 hg2) i1 i2 fun d => (hk d).trans (List.map_id _)
    · exact hd.trans

theorem Spec.Reruns.disp (hw : WellNamed S) {R : World → Call → Prop} (hst : ∀ w c, R w c → SteadyBidirCalls S w c) {w w2 : World}
    (h : Reruns S dbg R w w2) : SameDisp w w2 := by
  induction h with
  | start => exact ⟨fun _ _ _ _ _ h => absurd h (by simp [World.init]), fun _ _ _ _ _ h => absurd h (by simp [World.init])⟩
  | call k ha hb r1 r2 hab hr hr2 ih =>
    exact (k.agree hw hst).disp hw ih ((k.agree hw hst).call hw (hst _ _ r1) (hst _ _ r2) ha hb hab hr hr2) ha hb hab hr hr2

/-! ### The two runs can be exchanged -/

omit [SetImpl] in
theorem Spec.SameEntry.symm {e e2 : NodeIndex × Node} (h : SameEntry e e2) : SameEntry e2 e := ⟨h.1.symm, Node.Same.symm h.2⟩

omit [SetImpl] in
theorem Spec.SameCall.symm {a b : Call} (h : SameCall a b) : SameCall b a := by
  cases a <;> cases b <;> first | exact h.elim | skip
  · exact Eq.symm h
  · exact Eq.symm h
  · exact ⟨h.1.symm, h.2.symm⟩
  · exact ⟨h.1.symm, h.2.symm⟩
  · exact ⟨h.1.symm, SameOp.symm h.2⟩
  · exact ⟨h.1.symm, h.2.symm⟩
  · exact ⟨h.1.symm, h.2.symm⟩
  · exact ⟨h.1.symm, h.2.symm⟩
  · exact Eq.symm h
  · exact Eq.symm h
  · exact ⟨h.1.symm, h.2.symm⟩
  · exact ⟨h.1.symm, h.2.1.symm, h.2.2.flip.imp fun _ _ h => SameEntry.symm h⟩

theorem Spec.Reruns.symm {R : World → Call → Prop} {w w2 : World} (h : Reruns S dbg R w w2) : Reruns S dbg R w2 w := by
  induction h with
  | start => exact .start
  | call _ ha hb r1 r2 hab hr hr2 ih => exact ih.call hb ha r2 r1 hab.symm hr2 hr

/-! ### Loading -/

/-- Nodes that can be completed to a graph can be completed in the other run too. -/
theorem Graph.load_again (hw : WellNamed S) (ho : OneOpposite S) (hd : DeclaredOnce S) {a b : Arena} {c : Nat} {g : Graph} (hl : Graph.LoadOut S c a g)
    (hv : View.Same a.get? b.get?) : ¬ Spec.Undecided S (fun _ => none) b.get? ∧ ¬ Spec.Conflict S (fun _ => none) b.get? ∧
      ¬ VecMissing S (fun _ => none) b.get? :=
  ⟨not_undecided hw ho hd _ _, fun h => hl.noConflict (((View.Same.refl _).conflict hv).1 h),
    fun h => Graph.not_missing hl.completion hl.covered (((View.Same.refl _).vecMissing hv).1 h)⟩

omit [SetImpl] in
theorem fromIter_same {l l2 : List (NodeIndex × Node)} {a b : Arena} (h : Arena.FromIter S l a) (h2 : Arena.FromIter S l2 b) (hl : List.Forall₂ SameEntry l l2) :
    View.Same a.get? b.get? := by
  have go : ∀ {l l2 : List (NodeIndex × Node)}, List.Forall₂ SameEntry l l2 → ∀ i n, (i, n) ∈ l → ∃ n2, (i, n2) ∈ l2 ∧ Node.Same n n2 := by
    intro l l2 hl
    induction hl with
    | nil => intro i n h; exact absurd h (by simp)
    | cons e _ ih =>
      intro i n h
      rcases List.mem_cons.1 h with h | h
      · subst h
        rename_i e2 _ _ _
        obtain ⟨i2, n2⟩ := e2
        obtain ⟨e1, e2⟩ := e
        obtain rfl : i2 = i := e1
        exact ⟨n2, by simp, e2⟩
      · obtain ⟨n2, k1, k2⟩ := ih i n h
        exact ⟨n2, by simp [k1], k2⟩
  refine View.same_of (fun x hx => ?_) fun x n hn => ?_
  · cases e : b.get? x with
    | none => rfl
    | some n =>
      obtain ⟨n2, k1, _⟩ := go (hl.flip.imp fun _ _ h => SameEntry.symm h) x n ((h2.get x n).1 e)
      rw [(h.get x n2).2 k1] at hx
      exact absurd hx (by simp)
  · obtain ⟨n2, k1, k2⟩ := go hl x n ((h.get x n).1 hn)
    exact ⟨n2, (h2.get x n2).2 k1, k2⟩

/-- A file that can be loaded can be loaded in the other run too. -/
theorem Graph.deserialize_again (hw : WellNamed S) (ho : OneOpposite S) (hd : DeclaredOnce S) {f f2 : GraphSerializer} (hf : List.Forall₂ SameEntry f.nodes f2.nodes)
    (hin : ∀ e ∈ f.nodes, e.1 ≠ emptyIdx ∧ S.WT e.2) (hin2 : ∀ e ∈ f2.nodes, e.1 ≠ emptyIdx ∧ S.WT e.2) {r : Nat × Graph}
    (h : Graph.deserializeGraph S f = .ok r) : ∃ r2, Graph.deserializeGraph S f2 = .ok r2 := by
  obtain ⟨cnt, g⟩ := r
  obtain ⟨k1, _, a, k2, _, k3⟩ := deserialize_ok hw hin h
  have keys : f2.nodes.map Prod.fst = f.nodes.map Prod.fst := by
    have go : ∀ {l l2 : List (NodeIndex × Node)}, List.Forall₂ SameEntry l l2 → l2.map Prod.fst = l.map Prod.fst := by
      intro l l2 hl
      induction hl with
      | nil => rfl
      | cons e _ ih => simp [e.1, ih]
    exact go hf
  rcases Graph.deserialize_cases hw hin2 with ⟨_, b, l1, _, ⟨g2, l3, _⟩ | ⟨_, _, l3⟩ | ⟨_, l3⟩ | ⟨_, l3⟩⟩ | ⟨l1, _⟩
  · exact ⟨_, l3⟩
  · exact absurd l3 (Graph.load_again hw ho hd k3 (fromIter_same k2 l1 hf)).1
  · exact absurd l3 (Graph.load_again hw ho hd k3 (fromIter_same k2 l1 hf)).2.1
  · exact absurd l3 (Graph.load_again hw ho hd k3 (fromIter_same k2 l1 hf)).2.2
  · exact absurd (keys ▸ k1) l1

/-- A graph that can move to a context can do so in the other run too. -/
theorem Graph.switch_again (hw : WellNamed S) (ho : OneOpposite S) (hd : DeclaredOnce S) {e0 e0' : Prop} {g g2 : Graph} {u u2 cnt : Nat} {r : Graph × Nat}
    (h : g.Inv S e0) (h2 : g2.Inv S e0') (hv : Alike (Equiv.refl _) g.get? g2.get?) (hit : (g2.iter S).map Prod.fst = (g.iter S).map Prod.fst)
    (hs : g.switchContext S u cnt = .ok r) : ∃ r2, g2.switchContext S u2 cnt = .ok r2 := by
  obtain ⟨a0, idMap, a, _, k1, k2, k3, _, _, k5⟩ := Graph.switchNodes_ok hw.variants h cnt
  obtain ⟨b0, idMap2, b, _, l1, l2, l3, _, _, l5⟩ := Graph.switchNodes_ok hw.variants h2 cnt
  have hsame : View.Same a.get? b.get? := Graph.moved_same hv hit k1 l1 k3 k5 l5
  obtain ⟨_, ha0, hwa, _⟩ := k5.good h k1
  obtain ⟨_, hb0, hwb, _⟩ := l5.good h2 l1
  simp only [Graph.switchContext, k2] at hs
  rcases Graph.load_cases hw k5.inv ha0 hwa u with ⟨g', p1, p2⟩ | ⟨p1, _⟩ | ⟨p1, _⟩ | ⟨p1, _⟩
  · rw [p1] at hs
    simp only at hs
    rcases Graph.load_cases hw l5.inv hb0 hwb u2 with ⟨g2', q1, q2⟩ | ⟨_, _, q1⟩ | ⟨_, q1⟩ | ⟨_, q1⟩
    · cases hc : Graph.checkLinkType S g' (Graph.mergeNodes S (Graph.new u) a Lcr.new).2 with
      | error e => rw [hc] at hs; exact absurd hs (by simp)
      | ok _ =>
        have hc' : Graph.checkLinkType S g2' (Graph.mergeNodes S (Graph.new u2) b Lcr.new).2 = .ok () := by
          rw [Graph.checkLinkType_ok] at hc ⊢
          rintro ⟨x, y, m⟩ hm n hn
          have hm := ((Graph.merge_new_lcr l5.inv u2).2 x m y).1 hm
          obtain ⟨n1, e1, e2⟩ : ∃ n1, g'.get? y = some n1 ∧ n1.disc = n.disc := by
            have hh := completion_same p2.completion q2.completion (View.Same.refl _) hsame
            obtain ⟨n1, e1, e2⟩ := hh.symm.some hn
            exact ⟨n1, e1, e2.1⟩
          rw [← e2]
          exact hc (x, y, m) (((Graph.merge_new_lcr k5.inv u).2 x m y).2 (((View.Same.refl _).addedLink hsame x m y).1 hm)) n1 e1
        refine ⟨(g2', cnt + (g2.iter S).length), ?_⟩
        simp only [Graph.switchContext, l2, q1, hc']
    · exact absurd q1 (Graph.load_again hw ho hd p2 hsame).1
    · exact absurd q1 (Graph.load_again hw ho hd p2 hsame).2.1
    · exact absurd q1 (Graph.load_again hw ho hd p2 hsame).2.2
  all_goals (rw [p1] at hs; exact absurd hs (by simp))

/-- A call that returns, but is no commit, returns in the other run too. -/
theorem Agree.returns (hw : WellNamed S) (ho : OneOpposite S) (hd : DeclaredOnce S) {w w2 : World} (h : Agree S w w2) (hdisp : SameDisp w w2) {a b : Call}
    (ha : a.Allowed S w) (hb : b.Allowed S w2) (hab : SameCall a b) (hg : ∀ g k, a ≠ .commit g k) (hk : ∀ g k ch, a ≠ .commitChecked g k ch)
    (hr : Returns S dbg w a) : Returns S dbg w2 b := by
  have ctx : ∀ {c : Nat} {x : Ctx}, w.ctx c = some x → ∃ x2, w2.ctx c = some x2 ∧ x2.cnt = x.cnt := by
    intro c x hx
    have := h.cnt c
    rw [hx] at this
    cases e : w2.ctx c with
    | none => rw [e] at this; exact absurd this (by simp)
    | some x2 => rw [e] at this; exact ⟨x2, rfl, by simpa using this⟩
  have graph : ∀ {k c : Nat} {g : Graph}, w.graph k = some (c, g) → ∃ g2, w2.graph k = some (c, g2) ∧ Alike (Equiv.refl _) g.get? g2.get? := by
    intro k c g e
    rcases e2 : w2.graph k with _ | ⟨c2, g2⟩
    · rw [(h.graph k).1 e2] at e; exact absurd e (by simp)
    · obtain ⟨rfl, hv⟩ := h.twin.graph _ _ _ _ _ trivial e e2
      exact ⟨g2, rfl, hv⟩
  have trans : ∀ {k c : Nat} {t : Trans}, w.trans k = some (c, t) → ∃ t2, w2.trans k = some (c, t2) := by
    intro k c t e
    rcases e2 : w2.trans k with _ | ⟨c2, t2⟩
    · rw [(h.trans k).1 e2] at e; exact absurd e (by simp)
    · obtain ⟨rfl, _⟩ := h.twin.trans _ _ _ _ _ trivial e e2
      exact ⟨t2, rfl⟩
  cases a with
  | newContext c u => cases b <;> first | exact hab.elim | trivial
  | defaultContext c => cases b <;> first | exact hab.elim | trivial
  | newGraph g c =>
    cases b <;> try exact hab.elim
    obtain ⟨rfl, rfl⟩ := hab
    obtain ⟨x, hx⟩ := hr
    obtain ⟨x2, hx2, _⟩ := ctx hx
    exact ⟨x2, hx2⟩
  | newTrans k c =>
    cases b <;> try exact hab.elim
    obtain ⟨rfl, rfl⟩ := hab
    obtain ⟨x, hx⟩ := hr
    obtain ⟨x2, hx2, _⟩ := ctx hx
    exact ⟨x2, hx2⟩
  | op k o =>
    cases b <;> try exact hab.elim
    obtain ⟨rfl, hop⟩ := hab
    obtain ⟨c, t, x, ⟨t', n, l⟩, ht, hx, hrun⟩ := hr
    obtain ⟨x2, hx2, _⟩ := ctx hx
    obtain ⟨t2, ht2⟩ := trans ht
    obtain ⟨t2', e, _⟩ := h.op hdisp hop ht ht2 hx hx2 (ha _ _ ht) (hb _ _ ht2) hrun
    exact ⟨c, t2, x2, _, ht2, hx2, e⟩
  | merge k g =>
    cases b <;> try exact hab.elim
    obtain ⟨rfl, rfl⟩ := hab
    obtain ⟨c, t, c', gr, t', ht, hgr, hm⟩ := hr
    obtain ⟨t2, ht2⟩ := trans ht
    obtain ⟨gr2, hg2, _⟩ := graph hgr
    obtain rfl := hb _ _ _ _ ht2 hg2
    obtain ⟨x, hx, ex, ey, _⟩ := h.twin.right.pair ht2 hg2
    refine ⟨_, t2, _, gr2, { t2 with inc := t2.inc.merge gr2.nodes }, ht2, hg2, ?_⟩
    unfold Trans.merge
    rw [if_pos (by simp_all)]
  | commit g k => exact absurd rfl (hg g k)
  | commitChecked g k ch => exact absurd rfl (hk g k ch)
  | commitCaught g k => exact hr.elim
  | dropTrans k => cases b <;> first | exact hab.elim | trivial
  | dropGraph k => cases b <;> first | exact hab.elim | trivial
  | switchContext g c =>
    cases b <;> try exact hab.elim
    obtain ⟨rfl, rfl⟩ := hab
    obtain ⟨c0, gr, x, r, hgr, hx, hs⟩ := hr
    obtain ⟨x2, hx2, ec⟩ := ctx hx
    obtain ⟨gr2, hg2, hv⟩ := graph hgr
    obtain ⟨_, _, _, hinv⟩ := h.twin.left.graph _ _ _ hgr
    obtain ⟨_, _, _, hinv2⟩ := h.twin.right.graph _ _ _ hg2
    have hit := iter_alike hinv hinv2 hv (h.ord.graph _ _ _ _ _ trivial hgr hg2)
    obtain ⟨r2, hr2⟩ := Graph.switch_again (u2 := x2.uuid) hw ho hd hinv hinv2 hv (by rw [iter_fst_alike hit]; simp) hs
    exact ⟨c0, gr2, x2, r2, hg2, hx2, by rw [ec]; exact hr2⟩
  | deserialize g c f =>
    cases b <;> try exact hab.elim
    obtain ⟨rfl, rfl, hf⟩ := hab
    obtain ⟨r, hr⟩ := hr
    exact Graph.deserialize_again hw ho hd hf ha.2.2 hb.2.2 hr

end
end TTGraph
