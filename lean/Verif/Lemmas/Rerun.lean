import Verif.Lemmas.TwinOrder
import Verif.Lemmas.Machine
import Verif.Spec.Rerun
import Verif.Spec.Wrap
import Verif.Spec.Exact
import Verif.Lemmas.Exact

/-!
# Two runs of the same program
-/

set_option autoImplicit false

namespace TTGraph
open Spec

/-- The indices are the same. -/
abbrev noShift : Nat → Equiv.Perm NodeIndex := fun _ => Equiv.refl _

/-- All handles. -/
abbrev allOf : Nat → Prop := fun _ => True

theorem Spec.SameOp.alike {o o2 : TOp} (h : SameOp o o2) : AlikeOp (Equiv.refl _) o o2 := by
  cases o <;> cases o2 <;> exact h

theorem Spec.AlikePending.same {p q : Pending} (h : AlikePending (Equiv.refl _) p q) : SamePending p q where
  new := h.new
  unfilled := h.unfilled
  removed := h.removed
  muts := h.muts
  upds := h.upds
  redirAll := by
    have := h.redirAll
    simpa using this
  redir := by
    have := h.redir
    simpa using this

theorem Spec.SameOp.draws {o o2 : TOp} (h : SameOp o o2) : o2.draws = o.draws := by
  cases o <;> cases o2 <;> first | exact h.elim | rfl | exact (List.Forall₂.length_eq h).symm

namespace Trans

theorem insert_count {t t' : Trans} {cnt cnt' : Nat} {n : Node} {i : NodeIndex} (h : t.insert cnt n = .ok (i, t', cnt')) : cnt' = cnt + 1 := by
  simp only [insert, Arena.insert, Arena.alloc, idAlloc] at h
  grind

theorem extend_count {l : List Node} : ∀ {t t' : Trans} {cnt cnt' : Nat} {acc l' : List NodeIndex},
    foldE (fun (st : Trans × Nat × List NodeIndex) n =>
      match st.1.insert st.2.1 n with
      | .error e => .error e
      | .ok (i, t', cnt') => .ok (t', cnt', st.2.2 ++ [i])) (t, cnt, acc) l = .ok (t', cnt', l') → cnt' = cnt + l.length := by
  induction l with
  | nil =>
    intro t t' cnt cnt' acc l' h
    simp only [foldE, Except.ok.injEq, Prod.mk.injEq] at h
    simp [h.2.1]
  | cons n l ih =>
    intro t t' cnt cnt' acc l' h
    simp only [foldE] at h
    cases hi : t.insert cnt n with
    | error e => simp [hi] at h
    | ok r =>
      obtain ⟨i, t1, c1⟩ := r
      simp only [hi] at h
      have := ih h
      have := insert_count hi
      simp only [List.length_cons]
      omega

theorem run_count {t t' : Trans} {cnt cnt' : Nat} {l : List NodeIndex} {o : TOp} (hr : o.run t cnt = .ok (t', cnt', l)) :
    cnt' = cnt + o.draws := by
  cases o with
  | insert n =>
    simp only [TOp.run, Except.map] at hr
    cases hi : t.insert cnt n with
    | error e => simp [hi] at hr
    | ok r =>
      simp only [hi, Except.ok.injEq, Prod.mk.injEq] at hr
      obtain ⟨_, rfl, _⟩ := hr
      exact insert_count hi
  | extend ns => exact extend_count hr
  | alloc d =>
    simp only [TOp.run, Except.map] at hr
    cases hi : t.alloc cnt d with
    | error e => simp [hi] at hr
    | ok r =>
      simp only [hi, Except.ok.injEq, Prod.mk.injEq] at hr
      obtain ⟨_, rfl, _⟩ := hr
      simp only [alloc, Arena.alloc, idAlloc] at hi
      simp only [TOp.draws]
      grind
  | allocUntyped =>
    simp only [TOp.run, Except.ok.injEq, Prod.mk.injEq, allocUntyped, Arena.allocUntyped] at hr
    exact hr.2.1.symm
  | fillBack i n =>
    simp only [TOp.run, Except.map] at hr
    split at hr <;> simp at hr
    exact hr.2.1.symm
  | fillBackUntyped i n =>
    simp only [TOp.run, Except.map] at hr
    split at hr <;> simp at hr
    exact hr.2.1.symm
  | remove i =>
    simp only [TOp.run, Except.ok.injEq, Prod.mk.injEq] at hr
    exact hr.2.1.symm
  | mutate i f =>
    simp only [TOp.run, Except.map] at hr
    split at hr <;> simp at hr
    exact hr.2.1.symm
  | update i f =>
    simp only [TOp.run, Except.map] at hr
    split at hr <;> simp at hr
    exact hr.2.1.symm
  | redirectAllLinks o n =>
    simp only [TOp.run, Except.ok.injEq, Prod.mk.injEq] at hr
    exact hr.2.1.symm
  | redirectLinks o n =>
    simp only [TOp.run, Except.ok.injEq, Prod.mk.injEq] at hr
    exact hr.2.1.symm

end Trans

theorem sameEntry_fst {l l2 : List (NodeIndex × Node)} (h : List.Forall₂ SameEntry l l2) : l2.map Prod.fst = l.map Prod.fst := by
  induction h with
  | nil => rfl
  | cons e _ ih => simp [e.1, ih]

theorem sameEntry_max {l l2 : List (NodeIndex × Node)} (h : List.Forall₂ SameEntry l l2) : Graph.maxIndex l2 = Graph.maxIndex l := by
  have : ∀ (l : List (NodeIndex × Node)) (m : Nat), l.foldl (fun m e => max m (e.1 : Nat)) m = (l.map Prod.fst).foldl (fun m (e : NodeIndex) => max m (e : Nat)) m := by
    intro l
    induction l with
    | nil => intro _; rfl
    | cons e l ih => intro m; exact ih _
  unfold Graph.maxIndex
  rw [this, this, sameEntry_fst h]

section
variable [SetImpl] {S : Schema} {dbg : Bool}

omit [SetImpl] in
theorem switchIn_same {E E2 : List (NodeIndex × Node)} {cnt : Nat} {st st2 : Arena × OrderMap NodeIndex NodeIndex × Nat} (h : Graph.SwitchIn S E cnt st)
    (h2 : Graph.SwitchIn S E2 cnt st2) (he : E2.map Prod.fst = E.map Prod.fst) : st2.2.1 = st.2.1 := by
  have e : ∀ (E : List (NodeIndex × Node)), (E.zipIdx.map fun q => (q.1.1, Graph.newIndex cnt q.2)) =
      (E.map Prod.fst).zipIdx.map fun q => (q.1, Graph.newIndex cnt q.2) := by
    intro E
    rw [List.zipIdx_map, List.map_map]
    rfl
  have := h2.map.trans ((e E2).trans ((he ▸ rfl : _ = _).trans ((e E).symm.trans h.map.symm)))
  cases h1 : st.2.1
  cases h3 : st2.2.1
  rw [h1, h3] at this
  simpa using this

/-- The same graph is renumbered in the same way, with or without collisions. -/
theorem Graph.moved_same {g g2 : Graph} {cnt n n2 : Nat} {a0 b0 a b : Arena} {idMap idMap2 : OrderMap NodeIndex NodeIndex}
    (hv : Alike (Equiv.refl _) g.get? g2.get?) (ho : (g2.iter S).map Prod.fst = (g.iter S).map Prod.fst)
    (k1 : Graph.SwitchIn S (g.iter S) cnt (a0, idMap, n)) (l1 : Graph.SwitchIn S (g2.iter S) cnt (b0, idMap2, n2))
    (k2 : ∀ i, idMap.get? i ≠ none ↔ g.get? i ≠ none)
    (k5 : Graph.Moved S g idMap a0 (Graph.LostIn g idMap idMap.keys) (fun _ _ u => idMap.get? u ≠ none) a)
    (l5 : Graph.Moved S g2 idMap2 b0 (Graph.LostIn g2 idMap2 idMap2.keys) (fun _ _ u => idMap2.get? u ≠ none) b) :
    Alike (Equiv.refl _) a.get? b.get? := by
  obtain rfl : idMap2 = idMap := switchIn_same k1 l1 ho
  obtain ⟨hv1, hv2⟩ := (View.alike_iff (σ := Equiv.refl _) rfl).1 hv
  have hold : ∀ x s y, View.Holds g2.get? x s y ↔ View.Holds g.get? x s y := hv2
  refine alike_of (fun x hx => ?_) fun x n hn => ?_
  · show b.get? x = none
    rw [l5.absent]
    by_contra hne
    obtain ⟨m, hm⟩ := Option.ne_none_iff_exists'.1 hne
    obtain ⟨p, i, e1, e2⟩ := (l1.get x m).1 hm
    have hx' := (k5.absent x).1 hx
    have hp : ((g.iter S).map Prod.fst)[p]? = some i := by rw [← ho, List.getElem?_map, e1]; rfl
    rw [List.getElem?_map, Option.map_eq_some_iff] at hp
    obtain ⟨⟨i', n⟩, e3, rfl⟩ := hp
    have := (k1.get x n).2 ⟨p, i', e3, e2⟩
    simp only at this
    rw [hx'] at this
    exact absurd this (by simp)
  · have hne : a0.get? x ≠ none := fun e => by rw [(k5.absent x).2 e] at hn; exact absurd hn (by simp)
    obtain ⟨m, hm⟩ := Option.ne_none_iff_exists'.1 hne
    obtain ⟨p, i, e1, e2⟩ := (k1.get x m).1 hm
    have hid := (k1.map_get i x).2 ⟨p, m, e1, e2⟩
    obtain ⟨o, hgi⟩ := Option.ne_none_iff_exists'.1 ((k2 i).1 (by simp only at hid; rw [hid]; simp))
    obtain ⟨o2, hgi2, hr⟩ := hv.some hgi
    obtain ⟨n1, q1, q2, q3⟩ := k5.node i o x hgi hid
    obtain ⟨n2, r1, r2, r3⟩ := l5.node i o2 x hgi2 hid
    obtain rfl : n1 = n := Option.some.inj (q1.symm.trans hn)
    obtain ⟨hr1, hr2⟩ := (Node.alike_iff (σ := Equiv.refl _) rfl).1 hr
    refine ⟨n2, r1, (Node.alike_iff (σ := Equiv.refl _) rfl).2 ⟨r2.trans (hr1.trans q2.symm), fun s y => ?_⟩⟩
    show n2.Holds s y ↔ _
    rw [q3, r3]
    refine exists_congr fun v => and_congr (hr2 s v) (and_congr (not_congr ?_) Iff.rfl)
    unfold Graph.LostIn
    simp only [hold]

/-- The same graph moves to the same context, with or without collisions. -/
theorem Graph.switch_same (hw : WellNamed S) {e0 e0' : Prop} {g g2 g' g2' : Graph} {u u2 cnt c' c2' : Nat} (h : g.Inv S e0) (h2 : g2.Inv S e0')
    (hv : Alike (Equiv.refl _) g.get? g2.get?) (ho : (g2.iter S).map Prod.fst = (g.iter S).map Prod.fst)
    (hs : g.switchContext S u cnt = .ok (g', c')) (hs2 : g2.switchContext S u2 cnt = .ok (g2', c2')) : Alike (Equiv.refl _) g'.get? g2'.get? := by
  obtain ⟨a0, idMap, a, k1, k2, k3, k4, k5, k6, k7, _⟩ := switch_ok hw h hs
  obtain ⟨b0, idMap2, b, l1, l2, l3, l4, l5, l6, l7, _⟩ := switch_ok hw h2 hs2
  exact completion_alike rfl k6.completion l6.completion (alike_none _) (moved_same hv ho k1 l1 k2 k5 l5)

/-- What two runs have in common. -/
structure Agree (S : Schema) (w w2 : World) : Prop where
  twin : TwinInv S S noShift allOf allOf w w2
  ord : OrdInv noShift allOf allOf w w2
  cnt : ∀ c, (w2.ctx c).map Ctx.cnt = (w.ctx c).map Ctx.cnt
  issued : ∀ c, w2.issued c = w.issued c
  graph : ∀ k, w2.graph k = none ↔ w.graph k = none
  trans : ∀ k, w2.trans k = none ↔ w.trans k = none

omit [SetImpl] in
theorem put_none {α β : Type} {f : Nat → Option α} {f2 : Nat → Option β} (h : ∀ k, f2 k = none ↔ f k = none) (j : Nat) {v : Option α} {v2 : Option β}
    (hv : v2 = none ↔ v = none) (k : Nat) : World.put f2 j v2 k = none ↔ World.put f j v k = none := by
  by_cases e : k = j
  · simp [World.put, e, hv]
  · simp [World.put, e, h k]

omit [SetImpl] in
theorem put_cnt {f f2 : Nat → Option Ctx} (h : ∀ c, (f2 c).map Ctx.cnt = (f c).map Ctx.cnt) (j : Nat) {x x2 : Ctx} (hx : x2.cnt = x.cnt) (c : Nat) :
    (World.put f2 j (some x2) c).map Ctx.cnt = (World.put f j (some x) c).map Ctx.cnt := by
  by_cases e : c = j
  · simp [World.put, e, hx]
  · simp [World.put, e, h c]

omit [SetImpl] in
theorem put_same {α : Type} {f f2 : Nat → α} (h : ∀ c, f2 c = f c) (j : Nat) {v v2 : α} (hv : v2 = v) (c : Nat) : World.put f2 j v2 c = World.put f j v c := by
  by_cases e : c = j
  · simp [World.put, e, hv]
  · simp [World.put, e, h c]

theorem Agree.call (hw : WellNamed S) {w w2 : World} (h : Agree S w w2) {a b : Call} (hst : SteadyBidirCalls S w a)
    (hst2 : SteadyBidirCalls S w2 b) (ha : a.Allowed S w) (hb : b.Allowed S w2) (hab : SameCall a b) (hr : Returns S dbg w a) (hr2 : Returns S dbg w2 b) :
    Agree S (w.exec S dbg a) (w2.exec S dbg b) := by
  have hin : Inside allOf allOf a := by cases a <;> simp [Inside, allOf]
  have go : AlikeCall S S noShift w w2 a b → TwinInv S S noShift allOf allOf (w.exec S dbg a) (w2.exec S dbg b) ∧
      OrdInv noShift allOf allOf (w.exec S dbg a) (w2.exec S dbg b) := fun hc =>
    ⟨h.twin.both (fun _ => rfl) hw hw (.refl S) hst hst2 ha hb hin hc, h.ord.both hw h.twin ha hb hin hc⟩
  have sameCnt : ∀ {c : Nat} {x x2 : Ctx}, w.ctx c = some x → w2.ctx c = some x2 → x2.cnt = x.cnt := by
    intro c x x2 e e2
    have := h.cnt c
    rw [e, e2] at this
    simpa using this
  cases a with
  | newContext c u =>
    cases b <;> try exact hab.elim
    obtain ⟨t, o⟩ := go hab
    obtain rfl := hab
    exact ⟨t, o, put_cnt h.cnt _ rfl, h.issued, h.graph, h.trans⟩
  | defaultContext c =>
    cases b <;> try exact hab.elim
    obtain ⟨t, o⟩ := go hab
    obtain rfl := hab
    exact ⟨t, o, put_cnt h.cnt _ rfl, h.issued, h.graph, h.trans⟩
  | newGraph g c =>
    cases b <;> try exact hab.elim
    obtain ⟨t, o⟩ := go hab
    obtain ⟨rfl, rfl⟩ := hab
    obtain ⟨x, hx⟩ := hr
    obtain ⟨x2, hx2⟩ := hr2
    refine ⟨t, o, ?_, ?_, ?_, ?_⟩ <;> simp only [World.exec, hx, hx2]
    · exact h.cnt
    · exact h.issued
    · exact put_none h.graph _ (by simp)
    · exact h.trans
  | newTrans g c =>
    cases b <;> try exact hab.elim
    obtain ⟨t, o⟩ := go hab
    obtain ⟨rfl, rfl⟩ := hab
    obtain ⟨x, hx⟩ := hr
    obtain ⟨x2, hx2⟩ := hr2
    refine ⟨t, o, ?_, ?_, ?_, ?_⟩ <;> simp only [World.exec, hx, hx2]
    · exact h.cnt
    · exact h.issued
    · exact h.graph
    · exact put_none h.trans _ (by simp)
  | op k o =>
    cases b <;> try exact hab.elim
    rename_i k2 o2
    obtain ⟨rfl, hop⟩ := hab
    obtain ⟨c, t, x, ⟨t', n, l⟩, ht, hx, hrun⟩ := hr
    obtain ⟨c2, t2, x2, ⟨t2', n2, l2⟩, ht2, hx2, hrun2⟩ := hr2
    obtain ⟨rfl, _⟩ := h.twin.trans _ _ _ _ _ trivial ht ht2
    have ec := sameCnt hx hx2
    have bd : ∀ {v : World} {c : Nat} {t : Trans} {x : Ctx}, World.WInv S v → v.trans k2 = some (c, t) → v.ctx c = some x →
        t.Ready S ∧ ∀ i : Nat, t.Owns i → i ≠ emptyIdx ∧ i ≤ x.cnt := by
      intro v c t x hv ht hx
      obtain ⟨_, _, _, hready⟩ := hv.trans _ _ _ ht
      refine ⟨hready, fun i hi => ?_⟩
      obtain ⟨x', hx', hb⟩ := hv.bound (.inr k2) c i ⟨t, ht, hi⟩
      rw [hx, Option.some.injEq] at hx'
      subst hx'
      exact hb
    have el : l2 = l ∧ n2 = n := by
      have g1 := (Trans.run_grown (bd h.twin.left ht hx).1 (bd h.twin.left ht hx).2 (ha _ _ ht) hrun).list
      have g2 := (Trans.run_grown (bd h.twin.right ht2 hx2).1 (bd h.twin.right ht2 hx2).2 (hb _ _ ht2) hrun2).list
      have e1 := Trans.run_count hrun
      have e2 := Trans.run_count hrun2
      have e3 := hop.draws
      have en : n2 = n := by omega
      refine ⟨?_, en⟩
      rw [g1, g2, ec, en]
    obtain ⟨rfl, rfl⟩ := el
    obtain ⟨tw, od⟩ := go ⟨rfl, by simp [ht], by simp [ht2], fun c' t1 ht1 => ⟨hop.alike, fun l l' hl hl' => by
      obtain ⟨_, _, _, _, f1, f2, f3⟩ := hl
      obtain ⟨_, _, _, _, g1, g2, g3⟩ := hl'
      rw [ht, Option.some.injEq, Prod.mk.injEq] at f1
      rw [ht2, Option.some.injEq, Prod.mk.injEq] at g1
      obtain ⟨rfl, rfl⟩ := f1
      obtain ⟨_, rfl⟩ := g1
      rw [hx, Option.some.injEq] at f2
      rw [hx2, Option.some.injEq] at g2
      subst f2 g2
      rw [hrun, Except.ok.injEq, Prod.mk.injEq, Prod.mk.injEq] at f3
      rw [hrun2, Except.ok.injEq, Prod.mk.injEq, Prod.mk.injEq] at g3
      rw [← f3.2.2, ← g3.2.2]
      simp⟩⟩
    refine ⟨tw, od, ?_, ?_, ?_, ?_⟩ <;> simp only [World.exec, ht, hx, hrun, ht2, hx2, hrun2]
    · exact put_cnt h.cnt _ rfl
    · exact put_same h.issued _ (by rw [h.issued])
    · exact h.graph
    · exact put_none h.trans _ (by simp)
  | merge k g =>
    cases b <;> try exact hab.elim
    obtain ⟨rfl, rfl⟩ := hab
    obtain ⟨c, t, c', gr, t', ht, hg, hm⟩ := hr
    obtain ⟨c2, t2, c2', gr2, t2', ht2, hg2, hm2⟩ := hr2
    obtain ⟨tw, od⟩ := go ⟨rfl, rfl, by simp [ht], by simp [ht2], by simp [hg], by simp [hg2]⟩
    refine ⟨tw, od, ?_, ?_, ?_, ?_⟩ <;> simp only [World.exec, ht, hg, hm, ht2, hg2, hm2]
    · exact h.cnt
    · exact h.issued
    · exact put_none h.graph _ (by simp)
    · exact put_none h.trans _ (by simp)
  | commit g k =>
    cases b <;> try exact hab.elim
    obtain ⟨rfl, rfl⟩ := hab
    obtain ⟨c, t, c', gr, t', ht, hg, hm⟩ := hr
    obtain ⟨c2, t2, c2', gr2, t2', ht2, hg2, hm2⟩ := hr2
    obtain ⟨tw, od⟩ := go ⟨rfl, rfl, by simp [ht], by simp [ht2], by simp [hg], by simp [hg2]⟩
    refine ⟨tw, od, ?_, ?_, ?_, ?_⟩ <;> simp only [World.exec, ht, hg, hm, ht2, hg2, hm2]
    · exact h.cnt
    · exact h.issued
    · exact put_none h.graph _ (by simp)
    · exact put_none h.trans _ (by simp)
  | commitChecked g k ch =>
    cases b <;> try exact hab.elim
    obtain ⟨rfl, rfl⟩ := hab
    obtain ⟨c, t, c', gr, t', ht, hg, hm⟩ := hr
    obtain ⟨c2, t2, c2', gr2, t2', ht2, hg2, hm2⟩ := hr2
    obtain ⟨tw, od⟩ := go ⟨rfl, rfl, by simp [ht], by simp [ht2], by simp [hg], by simp [hg2]⟩
    refine ⟨tw, od, ?_, ?_, ?_, ?_⟩ <;> simp only [World.exec, ht, hg, hm, ht2, hg2, hm2]
    · exact h.cnt
    · exact h.issued
    · exact put_none h.graph _ (by simp)
    · exact put_none h.trans _ (by simp)
  | commitCaught g k => exact hr.elim
  | dropTrans k =>
    cases b <;> try exact hab.elim
    obtain ⟨t, o⟩ := go hab
    obtain rfl := hab
    exact ⟨t, o, h.cnt, h.issued, h.graph, put_none h.trans _ (by simp)⟩
  | dropGraph k =>
    cases b <;> try exact hab.elim
    obtain ⟨t, o⟩ := go hab
    obtain rfl := hab
    exact ⟨t, o, h.cnt, h.issued, put_none h.graph _ (by simp), h.trans⟩
  | switchContext g c =>
    have i1 := h.twin.left.exec hw dbg _ ha
    have i2 := h.twin.right.exec hw dbg _ hb
    cases b <;> try exact hab.elim
    obtain ⟨rfl, rfl⟩ := hab
    rename_i g c
    obtain ⟨c0, gr, x, ⟨gr', n⟩, hg, hx, hs⟩ := hr
    obtain ⟨c02, gr2, x2, ⟨gr2', n2⟩, hg2, hx2, hs2⟩ := hr2
    obtain ⟨rfl, hv⟩ := h.twin.graph _ _ _ _ _ trivial hg hg2
    obtain ⟨_, _, _, hinv⟩ := h.twin.left.graph _ _ _ hg
    obtain ⟨_, _, _, hinv2⟩ := h.twin.right.graph _ _ _ hg2
    have ec := sameCnt hx hx2
    have hit := iter_alike hinv hinv2 hv (h.ord.graph _ _ _ _ _ trivial hg hg2)
    have hfst : (gr2.iter S).map Prod.fst = (gr.iter S).map Prod.fst := by rw [iter_fst_alike hit]; simp
    obtain ⟨a0, idMap, a, s1, s2, _⟩ := Graph.switchNodes_ok hw.variants hinv x.cnt
    obtain ⟨b0, idMap2, b, t1, t2, _⟩ := Graph.switchNodes_ok hw.variants hinv2 x2.cnt
    have ex : w.exec S dbg (.switchContext g c) = (w.issue c x (x.cnt + (gr.iter S).length) (idMap.entries.map Prod.snd)).setGraph g (some (c, gr')) := by
      simp only [World.exec, hg, hx, s1, hs]
    have ex2 : w2.exec S dbg (.switchContext g c) =
        (w2.issue c x2 (x2.cnt + (gr2.iter S).length) (idMap2.entries.map Prod.snd)).setGraph g (some (c, gr2')) := by
      simp only [World.exec, hg2, hx2, t1, hs2]
    have hlen : (gr2.iter S).length = (gr.iter S).length := by simpa using congrArg List.length hfst
    have hval : idMap2.entries.map Prod.snd = idMap.entries.map Prod.snd := by
      rw [t2.values, s2.values, ec, hlen]
    have decl : ∀ {v : Graph}, v.Inv S False → ∀ e ∈ v.iter S, e.2.disc ∈ S.discs := by
      rintro v hv ⟨i, n⟩ he
      exact (hv.wt i n ((Arena.mem_entries hv.arena).1 he)).disc
    rw [ex] at i1
    rw [ex2] at i2
    rw [ex, ex2]
    refine ⟨h.twin.setGraph i1 i2 (gh := g) rfl rfl rfl rfl ?_, h.ord.set (gh := g) (k := 0) (v := none) (v2 := none) (.inr ⟨rfl, rfl⟩) (.inl ⟨rfl, rfl⟩)
      (fun _ _ _ _ _ e => absurd e (by simp)) ?_, ?_, ?_, ?_, ?_⟩
    · intro c1 c2 g1 g1' f1 f2
      simp only [Option.some.injEq, Prod.mk.injEq] at f1 f2
      obtain ⟨rfl, rfl⟩ := f1
      obtain ⟨rfl, rfl⟩ := f2
      rw [ec] at hs2
      exact ⟨rfl, Graph.switch_same hw hinv hinv2 hv hfst hs hs2⟩
    · intro _ c1 c2 g1 g1' f1 f2 d
      simp only [Option.some.injEq, Prod.mk.injEq] at f1 f2
      obtain ⟨rfl, rfl⟩ := f1
      obtain ⟨rfl, rfl⟩ := f2
      show (gr2'.nodes.cont d).keys = ((gr'.nodes.cont d).keys).map (Equiv.refl _)
      rw [Graph.switchContext_order (decl hinv) hs d, Graph.switchContext_order (decl hinv2) hs2 d]
      exact numbered_alike hit _ _ (fun p _ => by rw [ec]; rfl) d
    · exact put_cnt h.cnt _ (by simp only [ec, hlen])
    · exact put_same h.issued _ (by rw [h.issued, hval])
    · exact put_none h.graph _ (by simp)
    · exact h.trans
  | deserialize g c f =>
    cases b <;> try exact hab.elim
    obtain ⟨t, o⟩ := go hab
    obtain ⟨rfl, rfl, hf⟩ := hab
    obtain ⟨⟨n, gr⟩, hd⟩ := hr
    obtain ⟨⟨n2, gr2⟩, hd2⟩ := hr2
    have en : n2 = n := by
      obtain ⟨_, e1, _⟩ := deserialize_ok hw ha.2.2 hd
      obtain ⟨_, e2, _⟩ := deserialize_ok hw hb.2.2 hd2
      rw [e1, e2, sameEntry_max hf]
    refine ⟨t, o, ?_, ?_, ?_, ?_⟩ <;> simp only [World.exec, hd, hd2]
    · exact put_cnt h.cnt _ en
    · exact h.issued
    · exact put_none h.graph _ (by simp)
    · exact h.trans

theorem Spec.Reruns.agree (hw : WellNamed S) {R : World → Call → Prop} (hst : ∀ w c, R w c → SteadyBidirCalls S w c) {w w2 : World}
    (h : Reruns S dbg R w w2) : Agree S w w2 := by
  induction h with
  | start =>
    exact ⟨⟨World.init_inv S, World.init_inv S, fun _ _ _ _ _ _ h => absurd h (by simp [World.init]), fun _ _ _ _ _ _ h => absurd h (by simp [World.init])⟩,
      ⟨fun _ _ _ _ _ _ h => absurd h (by simp [World.init]), fun _ _ _ _ _ _ h => absurd h (by simp [World.init])⟩,
      fun _ => rfl, fun _ => rfl, fun _ => Iff.rfl, fun _ => Iff.rfl⟩
  | call _ ha hb r1 r2 hab hr hr2 ih => exact ih.call hw (hst _ _ r1) (hst _ _ r2) ha hb hab hr hr2

theorem Agree.same {w w2 : World} (h : Agree S w w2) : SameWorld S w w2 where
  counter := h.cnt
  issued := h.issued
  graph := by
    intro k
    rcases hk : w.graph k with _ | ⟨c, g⟩
    · exact .inl ⟨rfl, (h.graph k).2 hk⟩
    · rcases hk2 : w2.graph k with _ | ⟨c2, g2⟩
      · rw [(h.graph k).1 hk2] at hk; exact absurd hk (by simp)
      · obtain ⟨rfl, hv⟩ := h.twin.graph _ _ _ _ _ trivial hk hk2
        obtain ⟨_, _, _, h1⟩ := h.twin.left.graph _ _ _ hk
        obtain ⟨_, _, _, h2⟩ := h.twin.right.graph _ _ _ hk2
        have := iters_alike h1 h2 hv (h.ord.graph _ _ _ _ _ trivial hk hk2)
        exact .inr ⟨_, g, g2, rfl, rfl, hv, this.2, this.1, fun name => group_alike (p := fun d => S.inGroup d name) this.2, this.2⟩
  trans := by
    intro k
    rcases hk : w.trans k with _ | ⟨c, g⟩
    · exact .inl ⟨rfl, (h.trans k).2 hk⟩
    · rcases hk2 : w2.trans k with _ | ⟨c2, g2⟩
      · rw [(h.trans k).1 hk2] at hk; exact absurd hk (by simp)
      · obtain ⟨rfl, hv⟩ := h.twin.trans _ _ _ _ _ trivial hk hk2
        exact .inr ⟨_, g, g2, rfl, rfl, hv.same⟩

end

/-! ### Operations that can be carried out in one run -/

theorem LinkVal.Renamed.of_again {ρ : NodeIndex → NodeIndex} {v v' u : LinkVal} (h : LinkVal.Renamed id v v') (hr : LinkVal.Renamed ρ v u) :
    LinkVal.Renamed ρ v' u := by
  cases v <;> cases v' <;> first | exact h.elim | skip
  · rename_i i i'
    obtain rfl : i' = i := by
      have h : i' = if i = emptyIdx then emptyIdx else i := h
      rw [h]
      split <;> simp_all
    exact hr
  · rename_i s s'
    have hm : ∀ w, w ∈ s'.elems ↔ w ∈ s.elems := by
      intro w
      rw [h w]
      constructor
      · rintro ⟨u, hu, rfl, _⟩; exact hu
      · exact fun hw => ⟨w, hw, rfl, by by_cases e : w = emptyIdx <;> simp [e]⟩
    cases u <;> try exact hr.elim
    intro w
    rw [hr w]
    simp only [hm]
  · rename_i l l'
    obtain rfl : l' = l := by
      have : l' = l.map (fun i => if i = emptyIdx then emptyIdx else i) := h
      rw [this]
      conv_rhs => rw [← List.map_id l]
      exact List.map_congr_left fun a _ => by split <;> simp_all
    exact hr

theorem Node.Renamed.of_again {ρ : NodeIndex → NodeIndex} {n n' m : Node} (h : Node.Same n n') (hr : Node.Renamed ρ n m) : Node.Renamed ρ n' m := by
  obtain ⟨h1, h2, h3⟩ := h
  obtain ⟨r1, r2, r3⟩ := hr
  refine ⟨r1.trans h1.symm, r2.trans h2.symm, ?_⟩
  generalize n.links = l at h3 r3
  generalize n'.links = l' at h3
  generalize m.links = k at r3
  induction h3 generalizing k with
  | nil => exact r3
  | cons e _ ih =>
    cases r3 with
    | cons e' r => exact .cons (e.of_again e') (ih _ r)

theorem View.Renamed.of_again {ρ : NodeIndex → NodeIndex} {v v' u : View} (h : View.Same v v') (hr : View.Renamed ρ v u) : View.Renamed ρ v' u := by
  intro x
  have h1 := h x
  have h2 := hr x
  cases e1 : v x <;> cases e2 : v' x <;> cases e3 : u x <;> simp only [e1, e2, e3] at h1 h2 ⊢
  exact h2.of_again h1

theorem redirectedNodes_same {reqs : List (NodeIndex × NodeIndex)} {v v' u : View} (h : View.Same v v') (hr : RedirectedNodes reqs v u) :
    RedirectedNodes reqs v' u := by
  obtain ⟨h1, h2, ρ, h3, h4⟩ := hr
  exact ⟨fun o n ho e => h1 o n ho ((h.none_iff o).1 e), h2, ρ, h3, h4.of_again h⟩

theorem inserted_again {new new' v u : View} (hn : View.Same new new') (h : Inserted new v u) : ∃ u', Inserted new' v u' ∧ View.Same u u' := by
  refine ⟨fun x => (new' x).or (v x), ⟨fun x hx => by simp [hx], fun x n hx => ⟨?_, by simp [hx]⟩⟩, fun x => ?_⟩
  · obtain ⟨m, hm, _⟩ := hn.symm.some hx
    exact (h.2 x m hm).1
  · have := hn x
    cases e1 : new x with
    | none =>
      have e2 := (hn.none_iff x).2 e1
      rw [h.1 x e1]
      simp only [e2, Option.none_or]
      exact View.Same.refl v x
    | some n =>
      obtain ⟨m, hm, hs⟩ := hn.some e1
      rw [(h.2 x n e1).2]
      simp only [hm, Option.some_or]
      exact hs

theorem appliedIn_same {K K' : NodeIndex → Prop} (hK : ∀ y, K y → K' y) {l l' : List (NodeIndex × Closure)}
    (hl : List.Forall₂ (fun a b => b.1 = a.1 ∧ SameClosure a.2 b.2) l l') {v u : View} (h : AppliedIn K l v u) :
    ∀ {v' : View}, View.Same v v' → ∃ u', AppliedIn K' l' v' u' ∧ View.Same u u' := by
  induction h generalizing l' with
  | nil e =>
    intro v' hs
    cases hl
    refine ⟨v', .nil fun _ => rfl, fun x => ?_⟩
    rw [e x]
    exact hs x
  | @cons i f l v v1 u n n' hn hf hk hset _ ih =>
    intro v' hs
    cases hl with
    | @cons _ b _ _ hb hl =>
    obtain ⟨j, f'⟩ := b
    obtain ⟨rfl, hc⟩ := hb
    have hc : SameClosure f f' := hc
    obtain ⟨n2, hn2, hns⟩ := hs.some hn
    rcases hc n n2 hns with ⟨e, he, _⟩ | ⟨m, m2, e1, e2, e3⟩
    · rw [hf] at he; exact absurd he (by simp)
    obtain rfl : n' = m := by rw [hf] at e1; simpa using e1
    obtain ⟨u', hu, hsu⟩ := ih hl (v' := fun x => if j = x then some m2 else v' x) (fun x => by
      rw [hset x]
      by_cases e : j = x
      · simp only [if_pos e]; exact e3
      · simp only [if_neg e]; exact hs x)
    exact ⟨u', .cons hn2 e2 (fun s y hy => hK y (hk s y (((Node.same_iff.1 e3).2 s y).1 hy))) (fun _ => rfl) hu, hsu⟩

theorem carriedOut_same {p q : Pending} {v v' u : View} (hp : SamePending p q) (h : View.Same v v') (hr : CarriedOut p v u) :
    ∃ u', CarriedOut q v' u' ∧ View.Same u u' := by
  obtain ⟨v1, v2, v3, v4, v5, xs, h1, h2, h3, h4, h5, h6, h7⟩ := hr
  have hK : ∀ y, Present v p y → Present v' q y := by
    rintro y (hy | hy)
    · exact .inl fun e => hy ((h.none_iff y).1 e)
    · exact .inr fun e => hy ((hp.new.none_iff y).1 e)
  obtain ⟨u2, i1, i2⟩ := inserted_again hp.new h2
  obtain ⟨u3, j1, j2⟩ := appliedIn_same hK hp.muts h3 i2
  obtain ⟨u4, k1, k2⟩ := appliedIn_same hK hp.upds h4 j2
  refine ⟨u, ⟨v1, u2, u3, u4, v5, xs, ?_, i1, j1, k1, ?_, fun x => (h6 x).trans (hp.removed x).symm, h7⟩, .refl _⟩
  · rw [hp.redir]; exact redirectedNodes_same h h1
  · rw [hp.redirAll]; exact redirectedNodes_same k2 h5

theorem Spec.SameClosure.symm {f f2 : Closure} (h : SameClosure f f2) : SameClosure f2 f := by
  intro n n2 hn
  rcases h n2 n hn.symm with ⟨e, e1, e2⟩ | ⟨m, m2, e1, e2, e3⟩
  · exact .inl ⟨e, e2, e1⟩
  · exact .inr ⟨m2, m, e2, e1, e3.symm⟩

theorem Spec.SamePending.symm {p q : Pending} (h : SamePending p q) : SamePending q p where
  new := h.new.symm
  unfilled := fun x => (h.unfilled x).symm
  removed := fun x => (h.removed x).symm
  muts := h.muts.flip.imp fun _ _ h => ⟨h.1.symm, h.2.symm⟩
  upds := h.upds.flip.imp fun _ _ h => ⟨h.1.symm, h.2.symm⟩
  redirAll := h.redirAll.symm
  redir := h.redir.symm

/-- The closure in the other run. -/
theorem Spec.SamePending.task {p q : Pending} (h : SamePending p q) {i : NodeIndex} {f : Closure} (hf : (i, f) ∈ q.muts ++ q.upds) :
    ∃ f0, (i, f0) ∈ p.muts ++ p.upds ∧ SameClosure f0 f := by
  rcases List.mem_append.1 hf with hf | hf
  · obtain ⟨⟨j, f0⟩, h1, rfl, h2⟩ := forall₂_mem_right h.muts hf
    exact ⟨f0, List.mem_append_left _ h1, h2⟩
  · obtain ⟨⟨j, f0⟩, h1, rfl, h2⟩ := forall₂_mem_right h.upds hf
    exact ⟨f0, List.mem_append_right _ h1, h2⟩

theorem Spec.SamePending.regular {p q : Pending} (h : SamePending p q) (hp : Regular p) : Regular q where
  redir := by rw [h.redir]; exact hp.redir
  redirAll := by rw [h.redirAll]; exact hp.redirAll
  closures := by
    intro i f hf n n' hn
    obtain ⟨f0, _, h2⟩ := h.task hf
    rcases h2 n n (.refl n) with ⟨e, e1, e2⟩ | ⟨m, m2, e1, e2, e3⟩ <;> rcases h2 n n' hn with ⟨e', e1', e2'⟩ | ⟨m', m2', e1', e2', e3'⟩
    all_goals rw [e1] at e1'
    · obtain rfl : e = e' := by simpa using e1'
      exact .inl ⟨e, e2, e2'⟩
    · exact absurd e1' (by simp)
    · exact absurd e1' (by simp)
    · obtain rfl : m = m' := by simpa using e1'
      exact .inr ⟨m2, m2', e2, e2', e3.symm.trans e3'⟩

theorem Spec.SamePending.noEmptyLinks {p q : Pending} (h : SamePending p q) (hp : NoEmptyLinks p) : NoEmptyLinks q := by
  intro i f hf n n' hn s hs
  obtain ⟨f0, h1, h2⟩ := h.task hf
  rcases h2 n n (.refl n) with ⟨e, e1, e2⟩ | ⟨m, m2, e1, e2, e3⟩
  · rw [hn] at e2; exact absurd e2 (by simp)
  · obtain rfl : n' = m2 := by rw [hn] at e2; simpa using e2
    exact hp i f0 h1 n m e1 s (((Node.same_iff.1 e3).2 s _).1 hs)

theorem Spec.SamePending.sound {p q : Pending} {v v' : View} (h : SamePending p q) (hv : View.Same v v') (hp : Sound v p) : Sound v' q := by
  have he : ∀ y, Exists v p y → Exists v' q y := by
    rintro y (hy | hy | hy)
    · exact .inl hy
    · exact .inr (.inl fun e => hy ((hv.none_iff y).1 e))
    · exact .inr (.inr fun e => hy ((h.new.none_iff y).1 e))
  refine ⟨fun y ⟨x, s, hy⟩ => he y (hp.1 y ⟨x, s, ((View.same_iff.1 h.new).2 x s y).1 hy⟩), fun o n ho => he n (hp.2 o n ?_)⟩
  rw [h.redir, h.redirAll] at ho
  exact ho

end TTGraph
