import Verif.Lemmas.Rename
import Verif.Lemmas.World
import Verif.Lemmas.Switched
import Verif.Lemmas.History
import Verif.Spec.Vec

/-!
# Two executions that differ in the values of indices
-/

set_option autoImplicit false

namespace TTGraph
open Spec

section
variable [SetImpl] {S S2 : Schema} {dbg : Bool} {σ : Nat → Equiv.Perm NodeIndex} {G T : Nat → Prop}

/-- A call on other objects. -/
theorem Spec.Elsewhere.keeps {w : World} {a : Call} (h : Elsewhere G T a) :
    (∀ k, G k → (w.exec S dbg a).graph k = w.graph k) ∧ ∀ k, T k → (w.exec S dbg a).trans k = w.trans k := by
  have hput : ∀ {α : Type} {P : Nat → Prop} (f : Nat → α) (j : Nat) (v : α), ¬ P j → ∀ k, P k → World.put f j v k = f k := by
    intro α P f j v hj k hk
    have : k ≠ j := fun e => hj (e ▸ hk)
    simp [World.put, this]
  cases a <;> simp only [Elsewhere] at h <;> simp only [World.exec]
  case newContext => exact ⟨fun _ _ => rfl, fun _ _ => rfl⟩
  case defaultContext => exact ⟨fun _ _ => rfl, fun _ _ => rfl⟩
  case newGraph g c =>
    cases w.ctx c with
    | none => exact ⟨fun _ _ => rfl, fun _ _ => rfl⟩
    | some x => exact ⟨hput _ _ _ h, fun _ _ => rfl⟩
  case newTrans g c =>
    cases w.ctx c with
    | none => exact ⟨fun _ _ => rfl, fun _ _ => rfl⟩
    | some x => exact ⟨fun _ _ => rfl, hput _ _ _ h⟩
  case op k o =>
    split
    · split
      · split
        · exact ⟨fun _ _ => rfl, hput _ _ _ h⟩
        · exact ⟨fun _ _ => rfl, hput _ _ _ h⟩
      · exact ⟨fun _ _ => rfl, fun _ _ => rfl⟩
    · exact ⟨fun _ _ => rfl, fun _ _ => rfl⟩
  case merge k g =>
    split
    · split
      · exact ⟨hput _ _ _ h.2, hput _ _ _ h.1⟩
      · exact ⟨hput _ _ _ h.2, hput _ _ _ h.1⟩
    · exact ⟨fun _ _ => rfl, fun _ _ => rfl⟩
  case commit g k =>
    split
    · split
      · exact ⟨hput _ _ _ h.2, hput _ _ _ h.1⟩
      · exact ⟨hput _ _ _ h.2, hput _ _ _ h.1⟩
    · exact ⟨fun _ _ => rfl, fun _ _ => rfl⟩
  case commitChecked g k =>
    split
    · split
      · exact ⟨hput _ _ _ h.2, hput _ _ _ h.1⟩
      · exact ⟨hput _ _ _ h.2, hput _ _ _ h.1⟩
    · exact ⟨fun _ _ => rfl, fun _ _ => rfl⟩
  case commitCaught g k =>
    split
    · exact ⟨hput _ _ _ h.2, hput _ _ _ h.1⟩
    · exact ⟨fun _ _ => rfl, fun _ _ => rfl⟩
  case dropTrans k => exact ⟨fun _ _ => rfl, hput _ _ _ h⟩
  case dropGraph k => exact ⟨hput _ _ _ h, fun _ _ => rfl⟩
  case switchContext g c =>
    split
    · split
      · exact ⟨hput _ _ _ h, fun _ _ => rfl⟩
      · split
        · exact ⟨hput _ _ _ h, fun _ _ => rfl⟩
        · exact ⟨hput _ _ _ h, fun _ _ => rfl⟩
    · exact ⟨fun _ _ => rfl, fun _ _ => rfl⟩
  case deserialize g c input =>
    split
    · exact ⟨hput _ _ _ h, fun _ _ => rfl⟩
    · exact ⟨fun _ _ => rfl, fun _ _ => rfl⟩

/-- What the two executions have in common. -/
structure TwinInv (S S2 : Schema) (σ : Nat → Equiv.Perm NodeIndex) (G T : Nat → Prop) (w w2 : World) : Prop where
  left : World.WInv S w
  right : World.WInv S2 w2
  graph : ∀ h c c2 g g2, G h → w.graph h = some (c, g) → w2.graph h = some (c2, g2) → c2 = c ∧ Alike (σ c) g.get? g2.get?
  trans : ∀ k c c2 t t2, T k → w.trans k = some (c, t) → w2.trans k = some (c2, t2) → c2 = c ∧ AlikePending (σ c) t.pending t2.pending

omit [SetImpl] in
theorem TwinInv.setTrans {w w2 w' w2' : World} (h : TwinInv S S2 σ G T w w2) (h1 : World.WInv S w') (h2 : World.WInv S2 w2') {k : Nat}
    {v v2 : Option (Nat × Trans)} (e1 : w'.graph = w.graph) (e2 : w2'.graph = w2.graph) (e3 : w'.trans = World.put w.trans k v)
    (e4 : w2'.trans = World.put w2.trans k v2)
    (hv : ∀ c c2 t t2, v = some (c, t) → v2 = some (c2, t2) → c2 = c ∧ AlikePending (σ c) t.pending t2.pending) : TwinInv S S2 σ G T w' w2' where
  left := h1
  right := h2
  graph := by rw [e1, e2]; exact h.graph
  trans := by
    intro j c c2 t t2 hj ht ht2
    rw [e3] at ht
    rw [e4] at ht2
    by_cases e : j = k
    · simp only [World.put, if_pos e] at ht ht2
      exact hv _ _ _ _ ht ht2
    · simp only [World.put, if_neg e] at ht ht2
      exact h.trans j c c2 t t2 hj ht ht2

omit [SetImpl] in
theorem TwinInv.setBoth {w w2 w' w2' : World} (h : TwinInv S S2 σ G T w w2) (h1 : World.WInv S w') (h2 : World.WInv S2 w2') {k gh : Nat}
    {v v2 : Option (Nat × Trans)} {u u2 : Option (Nat × Graph)} (e1 : w'.graph = World.put w.graph gh u) (e2 : w2'.graph = World.put w2.graph gh u2)
    (e3 : w'.trans = World.put w.trans k v) (e4 : w2'.trans = World.put w2.trans k v2)
    (hv : ∀ c c2 t t2, v = some (c, t) → v2 = some (c2, t2) → c2 = c ∧ AlikePending (σ c) t.pending t2.pending)
    (hu : ∀ c c2 g g2, u = some (c, g) → u2 = some (c2, g2) → c2 = c ∧ Alike (σ c) g.get? g2.get?) : TwinInv S S2 σ G T w' w2' where
  left := h1
  right := h2
  graph := by
    intro j c c2 t t2 hj ht ht2
    rw [e1] at ht
    rw [e2] at ht2
    by_cases e : j = gh
    · simp only [World.put, if_pos e] at ht ht2
      exact hu _ _ _ _ ht ht2
    · simp only [World.put, if_neg e] at ht ht2
      exact h.graph j c c2 t t2 hj ht ht2
  trans := by
    intro j c c2 t t2 hj ht ht2
    rw [e3] at ht
    rw [e4] at ht2
    by_cases e : j = k
    · simp only [World.put, if_pos e] at ht ht2
      exact hv _ _ _ _ ht ht2
    · simp only [World.put, if_neg e] at ht ht2
      exact h.trans j c c2 t t2 hj ht ht2

omit [SetImpl] in
theorem TwinInv.setGraph {w w2 w' w2' : World} (h : TwinInv S S2 σ G T w w2) (h1 : World.WInv S w') (h2 : World.WInv S2 w2') {gh : Nat}
    {u u2 : Option (Nat × Graph)} (e1 : w'.graph = World.put w.graph gh u) (e2 : w2'.graph = World.put w2.graph gh u2)
    (e3 : w'.trans = w.trans) (e4 : w2'.trans = w2.trans)
    (hu : ∀ c c2 g g2, u = some (c, g) → u2 = some (c2, g2) → c2 = c ∧ Alike (σ c) g.get? g2.get?) : TwinInv S S2 σ G T w' w2' where
  left := h1
  right := h2
  graph := by
    intro j c c2 t t2 hj ht ht2
    rw [e1] at ht
    rw [e2] at ht2
    by_cases e : j = gh
    · simp only [World.put, if_pos e] at ht ht2
      exact hu _ _ _ _ ht ht2
    · simp only [World.put, if_neg e] at ht ht2
      exact h.graph j c c2 t t2 hj ht ht2
  trans := by rw [e3, e4]; exact h.trans

omit [SetImpl] in
theorem alike_none (τ : Equiv.Perm NodeIndex) : Alike τ (fun _ => none) (fun _ => none) := fun _ => trivial

theorem TwinInv.commit (hσ : ∀ c, σ c emptyIdx = emptyIdx) (hw : WellNamed S) (hw2 : WellNamed S2) (hq : SameTables S S2) {w w2 : World} (h : TwinInv S S2 σ G T w w2) {k gh c c2 : Nat}
    {t t2 : Trans} {g g2 g' g2' : Graph} (hst : SteadyBidir S t g.get?) (hst2 : SteadyBidir S2 t2 g2.get?) (hT : T k) (hG : G gh) (ht : w.trans k = some (c, t)) (hg : w.graph gh = some (c, g))
    (ht2 : w2.trans k = some (c2, t2)) (hg2 : w2.graph gh = some (c2, g2)) (hc : g.commit S dbg t = .ok g') (hc2 : g2.commit S2 dbg t2 = .ok g2') :
    c2 = c ∧ Alike (σ c) g'.get? g2'.get? := by
  obtain ⟨_, _, _, _, a4, a5, _, a7, _⟩ := h.left.pair ht hg
  obtain ⟨_, _, _, _, b4, b5, _, b7, _⟩ := h.right.pair ht2 hg2
  obtain ⟨rfl, e1⟩ := h.graph gh _ _ _ _ hG hg hg2
  obtain ⟨_, e2⟩ := h.trans k _ _ _ _ hT ht ht2
  exact ⟨rfl, Graph.commit_alike (hσ _) hw hw2 hq hst hst2 a5 b5 a4.good b4.good a7 b7 a4.noFrom b4.noFrom e1 e2 hc hc2⟩

/-! ### Moving to another context, and files -/

omit [SetImpl] in
/-- The images of corresponding graphs under isomorphisms that give corresponding nodes corresponding indices. -/
theorem isomorphic_alike {τ τ' : Equiv.Perm NodeIndex} (h0 : τ emptyIdx = emptyIdx) (h0' : τ' emptyIdx = emptyIdx) {ρ ρ2 : NodeIndex → NodeIndex} {v v2 a a2 : View}
    (hI : Internal v) (h : Isomorphic ρ v a) (h2 : Isomorphic ρ2 v2 a2) (hv : Alike τ v v2)
    (hρ : ∀ x, v x ≠ none → ρ2 (τ x) = τ' (ρ x)) : Alike τ' a a2 := by
  have hρ' : ∀ x, x = emptyIdx ∨ v x ≠ none → ρ2 (τ x) = τ' (ρ x) := by
    rintro x (rfl | hx)
    · rw [h0, h2.empty, h.empty, h0']
    · exact hρ x hx
  refine alike_of (fun x' hx' => ?_) fun x' n' hn' => ?_
  · by_contra hne
    obtain ⟨z, hz, e⟩ := h2.onto _ hne
    obtain ⟨x, rfl⟩ := τ.surjective z
    have hx : v x ≠ none := fun e => hz ((hv.none_iff x).2 e)
    rw [hρ x hx] at e
    obtain ⟨n, hn⟩ := Option.ne_none_iff_exists'.1 hx
    obtain ⟨m, hm, _⟩ := h.node x n hn
    rw [τ'.injective e, hx'] at hm
    exact absurd hm (by simp)
  · obtain ⟨x, hx, rfl⟩ := h.onto x' (by rw [hn']; simp)
    obtain ⟨n, hn⟩ := Option.ne_none_iff_exists'.1 hx
    obtain ⟨m, hm, hr⟩ := h.node x n hn
    rw [hn', Option.some.injEq] at hm
    subst hm
    obtain ⟨n2, hn2, hr2⟩ := hv.some hn
    obtain ⟨m2, hm2, hr3⟩ := h2.node _ _ hn2
    rw [hρ x hx] at hm2
    refine ⟨m2, hm2, Node.renamed_of_holds (hr3.shape.trans (hr2.shape.trans hr.shape.symm)) fun s y => ?_⟩
    rw [hr3.holds]
    constructor
    · rintro ⟨u, e1, e2, e3⟩
      obtain ⟨u', f1, rfl, f3⟩ := (hr2.holds s u).1 e1
      have hu := hI x s u' ⟨n, hn, f1⟩
      have hk := hρ' u' hu
      refine ⟨ρ u', (hr.holds s _).2 ⟨u', f1, rfl, ?_⟩, by rw [← hk, e2], ?_⟩
      · rcases hu with rfl | hu
        · exact Or.inr rfl
        · by_cases he : ρ u' = emptyIdx
          · refine Or.inr ?_
            rw [he, h0', e2] at hk
            rcases e3 with e3 | e3
            · exact absurd hk e3
            · exact (alike_empty_iff h0 u').1 e3
          · exact Or.inl he
      · rcases e3 with e3 | e3
        · exact Or.inl e3
        · right
          rw [(alike_empty_iff h0 u').1 e3, h.empty]
    · rintro ⟨u, e1, e2, e3⟩
      obtain ⟨u', f1, rfl, f3⟩ := (hr.holds s u).1 e1
      have hu := hI x s u' ⟨n, hn, f1⟩
      have hk := hρ' u' hu
      refine ⟨τ u', (hr2.holds s _).2 ⟨u', f1, rfl, ?_⟩, by rw [hk, e2], ?_⟩
      · by_cases he : τ u' = emptyIdx
        · exact Or.inr ((alike_empty_iff h0 u').1 he)
        · exact Or.inl he
      · rcases e3 with e3 | e3
        · exact Or.inl e3
        · rcases f3 with f3 | f3
          · exact absurd e3 f3
          · right; rw [f3, h0]

/-- Corresponding graphs that move to another context without collisions. -/
theorem Graph.switch_alike {τ τ' : Equiv.Perm NodeIndex} (h0 : τ emptyIdx = emptyIdx) (h0' : τ' emptyIdx = emptyIdx) (hw : WellNamed S) (hw2 : WellNamed S2)
    (hq : SameTables S S2) {e0 e0' : Prop} {g g2 g' g2' : Graph} {u u2 cnt cnt2 c' c2' : Nat} (h : g.Inv S e0) (h2 : g2.Inv S2 e0') (hv : Alike τ g.get? g2.get?)
    (hI : Internal g.get?) (hI2 : Internal g2.get?) (hc : ¬ Collision g.get? ((g.iter S).map Prod.fst) cnt)
    (hc2 : ¬ Collision g2.get? ((g2.iter S2).map Prod.fst) cnt2)
    (hm : ∀ (x : NodeIndex) (p q : Nat), ((g.iter S).map Prod.fst)[p]? = some x → ((g2.iter S2).map Prod.fst)[q]? = some (τ x) → cnt2 + 1 + q = τ' (cnt + 1 + p))
    (hs : g.switchContext S u cnt = .ok (g', c')) (hs2 : g2.switchContext S2 u2 cnt2 = .ok (g2', c2')) : Alike τ' g'.get? g2'.get? := by
  obtain ⟨a0, idMap, a, k1, k2, k3, k4, k5, k6, k7, _⟩ := switch_ok hw h hs
  obtain ⟨b0, idMap2, b, l1, l2, l3, l4, l5, l6, l7, _⟩ := switch_ok hw2 h2 hs2
  have i1 := k5.isomorphic h k1 k2 k3 (by rw [← k7]; exact k4) hI hc
  have i2 := l5.isomorphic h2 l1 l2 l3 (by rw [← l7]; exact l4) hI2 hc2
  refine completion_alike h0' k6.completion (hq.completion.1 l6.completion) (alike_none τ') (isomorphic_alike h0 h0' hI i1 i2 hv ?_)
  intro x hx
  obtain ⟨x', hx'⟩ := Option.ne_none_iff_exists'.1 ((k2 x).2 hx)
  obtain ⟨y', hy'⟩ := Option.ne_none_iff_exists'.1 ((l2 (τ x)).2 fun e => hx ((hv.none_iff x).1 e))
  rw [Graph.rename_some hx', Graph.rename_some hy']
  obtain ⟨p, n, e1, rfl⟩ := (k1.map_get x x').1 hx'
  obtain ⟨q, m, e2, rfl⟩ := (l1.map_get _ y').1 hy'
  exact hm x p q (by rw [List.getElem?_map, e1]; rfl) (by rw [List.getElem?_map, e2]; rfl)

omit [SetImpl] in
theorem forall₂_mem_left {α β : Type} {r : α → β → Prop} {l : List α} {l2 : List β} (h : List.Forall₂ r l l2) {a : α} (ha : a ∈ l) : ∃ b ∈ l2, r a b := by
  induction h with
  | nil => exact absurd ha (by simp)
  | cons h1 _ ih =>
    rcases List.mem_cons.1 ha with rfl | ha
    · exact ⟨_, by simp, h1⟩
    · obtain ⟨b, hb, hr⟩ := ih ha
      exact ⟨b, by simp [hb], hr⟩

omit [SetImpl] in
theorem forall₂_mem_right {α β : Type} {r : α → β → Prop} {l : List α} {l2 : List β} (h : List.Forall₂ r l l2) {b : β} (hb : b ∈ l2) : ∃ a ∈ l, r a b := by
  induction h with
  | nil => exact absurd hb (by simp)
  | cons h1 _ ih =>
    rcases List.mem_cons.1 hb with rfl | hb
    · exact ⟨_, by simp, h1⟩
    · obtain ⟨a, ha, hr⟩ := ih hb
      exact ⟨a, by simp [ha], hr⟩

/-- Corresponding files. -/
theorem Graph.deserialize_alike {τ : Equiv.Perm NodeIndex} (h0 : τ emptyIdx = emptyIdx) (hw : WellNamed S) (hw2 : WellNamed S2)
    (hq : SameTables S S2) {f f2 : GraphSerializer} (hf : List.Forall₂ (AlikeEntry τ) f.nodes f2.nodes)
    (hin : ∀ e ∈ f.nodes, e.1 ≠ emptyIdx ∧ S.WT e.2) (hin2 : ∀ e ∈ f2.nodes, e.1 ≠ emptyIdx ∧ S2.WT e.2) {g g2 : Graph} {cnt cnt2 : Nat}
    (hd : Graph.deserializeGraph S f = .ok (cnt, g)) (hd2 : Graph.deserializeGraph S2 f2 = .ok (cnt2, g2)) : Alike τ g.get? g2.get? := by
  obtain ⟨_, _, a, k1, _, k2⟩ := deserialize_ok hw hin hd
  obtain ⟨_, _, b, l1, _, l2⟩ := deserialize_ok hw2 hin2 hd2
  refine completion_alike h0 k2.completion (hq.completion.1 l2.completion) (alike_none τ) (alike_of (fun x hx => ?_) fun x n hn => ?_)
  · by_contra hne
    obtain ⟨m, hm⟩ := Option.ne_none_iff_exists'.1 hne
    obtain ⟨e, he, e1, _⟩ := forall₂_mem_right hf ((l1.get _ _).1 hm)
    obtain ⟨x', n⟩ := e
    obtain rfl := τ.injective e1
    rw [(k1.get _ _).2 he] at hx
    exact absurd hx (by simp)
  · obtain ⟨e, he, e1, e2⟩ := forall₂_mem_left hf ((k1.get _ _).1 hn)
    obtain ⟨y, m⟩ := e
    obtain rfl : y = τ x := e1
    exact ⟨m, (l1.get _ _).2 he, e2⟩

theorem TwinInv.both (hσ : ∀ c, σ c emptyIdx = emptyIdx) (hw : WellNamed S) (hw2 : WellNamed S2) (hq : SameTables S S2) {w w2 : World} (h : TwinInv S S2 σ G T w w2) {a b : Call}
    (hst : SteadyBidirCalls S w a) (hst2 : SteadyBidirCalls S2 w2 b) (ha : a.Allowed S w) (hb : b.Allowed S2 w2) (hi : Inside G T a) (hab : AlikeCall S S2 σ w w2 a b) :
    TwinInv S S2 σ G T (w.exec S dbg a) (w2.exec S2 dbg b) := by
  have i1 := h.left.exec hw dbg a ha
  have i2 := h.right.exec hw2 dbg b hb
  cases a with
  | newContext c u => cases b <;> first | exact hab.elim | exact ⟨i1, i2, h.graph, h.trans⟩
  | defaultContext c => cases b <;> first | exact hab.elim | exact ⟨i1, i2, h.graph, h.trans⟩
  | newGraph g c =>
    cases b <;> try exact hab.elim
    rename_i g c
    obtain ⟨rfl, rfl⟩ := hab
    simp only [Call.Allowed] at ha hb
    refine h.setGraph i1 i2 (gh := g) (u := (w.ctx c).map fun x => (c, Graph.new x.uuid)) (u2 := (w2.ctx c).map fun x => (c, Graph.new x.uuid)) ?_ ?_ ?_ ?_ ?_
    · simp only [World.exec]
      cases w.ctx c with
      | none => funext j; by_cases e : j = g <;> simp [World.put, e, ha]
      | some x => rfl
    · simp only [World.exec]
      cases w2.ctx c with
      | none => funext j; by_cases e : j = g <;> simp [World.put, e, hb]
      | some x => rfl
    · simp only [World.exec]; cases w.ctx c <;> rfl
    · simp only [World.exec]; cases w2.ctx c <;> rfl
    · intro c1 c2 g1 g2 e1 e2
      cases hx : w.ctx c <;> rw [hx] at e1 <;> simp only [Option.map_none, Option.map_some, Option.some.injEq, Prod.mk.injEq] at e1
      · exact absurd e1 (by simp)
      cases hx2 : w2.ctx c <;> rw [hx2] at e2 <;> simp only [Option.map_none, Option.map_some, Option.some.injEq, Prod.mk.injEq] at e2
      · exact absurd e2 (by simp)
      obtain ⟨rfl, rfl⟩ := e1
      obtain ⟨rfl, rfl⟩ := e2
      exact ⟨rfl, alike_none _⟩
  | newTrans k c =>
    cases b <;> try exact hab.elim
    rename_i k c
    obtain ⟨rfl, rfl⟩ := hab
    simp only [Call.Allowed] at ha hb
    refine h.setTrans i1 i2 (k := k) (v := (w.ctx c).map fun x => (c, Trans.new x.uuid)) (v2 := (w2.ctx c).map fun x => (c, Trans.new x.uuid)) ?_ ?_ ?_ ?_ ?_
    · simp only [World.exec]; cases w.ctx c <;> rfl
    · simp only [World.exec]; cases w2.ctx c <;> rfl
    · simp only [World.exec]
      cases w.ctx c with
      | none => funext j; by_cases e : j = k <;> simp [World.put, e, ha]
      | some x => rfl
    · simp only [World.exec]
      cases w2.ctx c with
      | none => funext j; by_cases e : j = k <;> simp [World.put, e, hb]
      | some x => rfl
    · intro c1 c2 g1 g2 e1 e2
      cases hx : w.ctx c <;> rw [hx] at e1 <;> simp only [Option.map_none, Option.map_some, Option.some.injEq, Prod.mk.injEq] at e1
      · exact absurd e1 (by simp)
      cases hx2 : w2.ctx c <;> rw [hx2] at e2 <;> simp only [Option.map_none, Option.map_some, Option.some.injEq, Prod.mk.injEq] at e2
      · exact absurd e2 (by simp)
      obtain ⟨rfl, rfl⟩ := e1
      obtain ⟨rfl, rfl⟩ := e2
      exact ⟨rfl, alike_none _, fun _ => ⟨fun h => absurd h (List.not_mem_nil), fun h => absurd h (List.not_mem_nil)⟩,
        fun _ => ⟨fun h => absurd h (List.not_mem_nil), fun h => absurd h (List.not_mem_nil)⟩, .nil, .nil, rfl, rfl⟩
  | op k o =>
    cases b <;> try exact hab.elim
    rename_i k2 o2
    obtain ⟨rfl, n1, n2, hop⟩ := hab
    obtain ⟨⟨c, t⟩, ht⟩ := Option.ne_none_iff_exists'.1 n1
    obtain ⟨⟨c2, t2⟩, ht2⟩ := Option.ne_none_iff_exists'.1 n2
    obtain ⟨x, hx, _, hr⟩ := h.left.trans _ _ _ ht
    obtain ⟨x2, hx2, _, hr2⟩ := h.right.trans _ _ _ ht2
    obtain ⟨hop1, hop2⟩ := hop c t ht
    obtain ⟨rfl, hpend⟩ := h.trans k2 _ _ _ _ hi ht ht2
    have bd : ∀ {D : Schema} {v : World} {c : Nat} {t : Trans} {x : Ctx}, World.WInv D v → v.trans k2 = some (c, t) → v.ctx c = some x →
        ∀ i : Nat, t.Owns i → i ≠ emptyIdx ∧ i ≤ x.cnt := by
      intro D v c t x hv ht hx i hi
      obtain ⟨x', hx', hb⟩ := hv.bound (.inr k2) c i ⟨t, ht, hi⟩
      rw [hx, Option.some.injEq] at hx'
      subst hx'
      exact hb
    have ex : w.exec S dbg (.op k2 o) = match o.run t x.cnt with
        | .ok (t', cnt, l) => (w.issue c2 x cnt l).setTrans k2 (some (c2, t'))
        | .error _ => w.setTrans k2 none := by simp only [World.exec, ht, hx]; rfl
    have ex2 : w2.exec S2 dbg (.op k2 o2) = match o2.run t2 x2.cnt with
        | .ok (t', cnt, l) => (w2.issue c2 x2 cnt l).setTrans k2 (some (c2, t'))
        | .error _ => w2.setTrans k2 none := by simp only [World.exec, ht2, hx2]; rfl
    rw [ex, ex2]
    rw [ex] at i1
    rw [ex2] at i2
    cases hrun : o.run t x.cnt with
    | error e =>
      rw [hrun] at i1
      cases hrun2 : o2.run t2 x2.cnt with
      | error e2 =>
        rw [hrun2] at i2
        exact h.setTrans i1 i2 (k := k2) (v := none) (v2 := none) rfl rfl rfl rfl (fun _ _ _ _ h => absurd h (by simp))
      | ok r2 =>
        rw [hrun2] at i2
        exact h.setTrans i1 i2 (k := k2) (v := none) (v2 := some (c2, r2.1)) rfl rfl rfl rfl (fun _ _ _ _ h => absurd h (by simp))
    | ok r =>
      rw [hrun] at i1
      cases hrun2 : o2.run t2 x2.cnt with
      | error e2 =>
        rw [hrun2] at i2
        exact h.setTrans i1 i2 (k := k2) (v := some (c2, r.1)) (v2 := none) rfl rfl rfl rfl (fun _ _ _ _ _ h => absurd h (by simp))
      | ok r2 =>
        rw [hrun2] at i2
        refine h.setTrans i1 i2 (k := k2) (v := some (c2, r.1)) (v2 := some (c2, r2.1)) rfl rfl rfl rfl ?_
        intro _ _ _ _ e1 e2
        simp only [Option.some.injEq, Prod.mk.injEq] at e1 e2
        obtain ⟨rfl, rfl⟩ := e1
        obtain ⟨rfl, rfl⟩ := e2
        obtain ⟨t', cnt, l⟩ := r
        obtain ⟨t2', cnt2, l2⟩ := r2
        have el := hop2 l l2 ⟨t, x, t', cnt, ht, hx, hrun⟩ ⟨t2, x2, t2', cnt2, ht2, hx2, hrun2⟩
        subst el
        exact ⟨rfl, effect_alike hop1 hpend (Trans.effect_run hr (bd h.left ht hx) (ha _ _ ht) hrun)
          (Trans.effect_run hr2 (bd h.right ht2 hx2) (hb _ _ ht2) hrun2)⟩
  | merge k g =>
    cases b <;> try exact hab.elim
    rename_i k2 g2
    obtain ⟨rfl, rfl, n1, n2, n3, n4⟩ := hab
    obtain ⟨⟨c, t⟩, ht⟩ := Option.ne_none_iff_exists'.1 n1
    obtain ⟨⟨c2, t2⟩, ht2⟩ := Option.ne_none_iff_exists'.1 n2
    obtain ⟨⟨c', gr⟩, hg⟩ := Option.ne_none_iff_exists'.1 n3
    obtain ⟨⟨c2', gr2⟩, hg2⟩ := Option.ne_none_iff_exists'.1 n4
    obtain rfl := ha _ _ _ _ ht hg
    obtain rfl := hb _ _ _ _ ht2 hg2
    obtain ⟨_, _, a2, a3, a4, a5, _, a7, _⟩ := h.left.pair ht hg
    obtain ⟨_, _, b2, b3, b4, b5, _, b7, _⟩ := h.right.pair ht2 hg2
    obtain ⟨rfl, e1⟩ := h.graph _ _ _ _ _ hi.2 hg hg2
    obtain ⟨_, e2⟩ := h.trans _ _ _ _ _ hi.1 ht ht2
    have ex : w.exec S dbg (.merge k2 g2) = (w.setTrans k2 (some (c2, { t with inc := t.inc.merge gr.nodes }))).setGraph g2 none := by
      simp only [World.exec, ht, hg, Trans.merge, a2, a3, if_true]
    have ex2 : w2.exec S2 dbg (.merge k2 g2) = (w2.setTrans k2 (some (c2, { t2 with inc := t2.inc.merge gr2.nodes }))).setGraph g2 none := by
      simp only [World.exec, ht2, hg2, Trans.merge, b2, b3, if_true]
    rw [ex, ex2]
    rw [ex] at i1
    rw [ex2] at i2
    refine h.setBoth i1 i2 (gh := g2) (k := k2) (u := none) (u2 := none) (v := some (c2, { t with inc := t.inc.merge gr.nodes }))
      (v2 := some (c2, { t2 with inc := t2.inc.merge gr2.nodes })) rfl rfl rfl rfl ?_ (fun _ _ _ _ h => absurd h (by simp))
    intro _ _ _ _ f1 f2
    simp only [Option.some.injEq, Prod.mk.injEq] at f1 f2
    obtain ⟨rfl, rfl⟩ := f1
    obtain ⟨rfl, rfl⟩ := f2
    have dis : ∀ {a b : Arena}, a.Disjoint b → b.Disjoint a := by
      intro a b hd i hi
      by_contra hc
      exact hi (hd i hc)
    refine ⟨rfl, ⟨?_, e2.unfilled, e2.removed, e2.muts, e2.upds, e2.redirAll, e2.redir⟩⟩
    intro x
    simp only [Trans.pending]
    rw [Arena.merge_get? a4.good.inv a5.arena (dis a7), Arena.merge_get? b4.good.inv b5.arena (dis b7)]
    cases hx : gr.nodes.get? x with
    | none =>
      have hx2 : gr2.nodes.get? (σ c2 x) = none := (e1.none_iff x).2 hx
      rw [hx2]
      exact e2.new x
    | some n =>
      obtain ⟨n', hn', hr'⟩ := e1.some hx
      have hn' : gr2.nodes.get? (σ c2 x) = some n' := hn'
      rw [hn']
      exact hr'
  | commit g k =>
    cases b <;> try exact hab.elim
    rename_i g2 k2
    obtain ⟨rfl, rfl, n1, n2, n3, n4⟩ := hab
    obtain ⟨⟨c, t⟩, ht⟩ := Option.ne_none_iff_exists'.1 n1
    obtain ⟨⟨c2, t2⟩, ht2⟩ := Option.ne_none_iff_exists'.1 n2
    obtain ⟨⟨c', gr⟩, hg⟩ := Option.ne_none_iff_exists'.1 n3
    obtain ⟨⟨c2', gr2⟩, hg2⟩ := Option.ne_none_iff_exists'.1 n4
    obtain rfl := ha _ _ _ _ ht hg
    obtain rfl := hb _ _ _ _ ht2 hg2
    refine h.setBoth i1 i2 (gh := g2) (k := k2) (u := (gr.commit S dbg t).toOption.map fun g' => (c, g'))
      (u2 := (gr2.commit S2 dbg t2).toOption.map fun g' => (c2, g')) (v := none) (v2 := none) ?_ ?_ ?_ ?_ (fun _ _ _ _ h => absurd h (by simp)) ?_
    · simp only [World.exec, ht, hg]; cases gr.commit S dbg t <;> rfl
    · simp only [World.exec, ht2, hg2]; cases gr2.commit S2 dbg t2 <;> rfl
    · simp only [World.exec, ht, hg]; cases gr.commit S dbg t <;> rfl
    · simp only [World.exec, ht2, hg2]; cases gr2.commit S2 dbg t2 <;> rfl
    · intro c1 c1' g1 g1' f1 f2
      cases hc : gr.commit S dbg t with
      | error e => rw [hc] at f1; exact absurd f1 (by simp [Except.toOption])
      | ok g' =>
      cases hc2 : gr2.commit S2 dbg t2 with
      | error e => rw [hc2] at f2; exact absurd f2 (by simp [Except.toOption])
      | ok g2' =>
      rw [hc] at f1
      rw [hc2] at f2
      simp only [Except.toOption, Option.map_some, Option.some.injEq, Prod.mk.injEq] at f1 f2
      obtain ⟨rfl, rfl⟩ := f1
      obtain ⟨rfl, rfl⟩ := f2
      exact h.commit hσ hw hw2 hq (hst _ _ _ _ hg ht) (hst2 _ _ _ _ hg2 ht2) hi.1 hi.2 ht hg ht2 hg2 hc hc2
  | commitChecked g k ch =>
    cases b <;> try exact hab.elim
    rename_i g2 k2 ch2
    obtain ⟨rfl, rfl, n1, n2, n3, n4⟩ := hab
    obtain ⟨⟨c, t⟩, ht⟩ := Option.ne_none_iff_exists'.1 n1
    obtain ⟨⟨c2, t2⟩, ht2⟩ := Option.ne_none_iff_exists'.1 n2
    obtain ⟨⟨c', gr⟩, hg⟩ := Option.ne_none_iff_exists'.1 n3
    obtain ⟨⟨c2', gr2⟩, hg2⟩ := Option.ne_none_iff_exists'.1 n4
    obtain rfl := ha _ _ _ _ ht hg
    obtain rfl := hb _ _ _ _ ht2 hg2
    refine h.setBoth i1 i2 (gh := g2) (k := k2) (u := (gr.commitChecked S dbg t ch).toOption.map fun g' => (c, g'))
      (u2 := (gr2.commitChecked S2 dbg t2 ch2).toOption.map fun g' => (c2, g')) (v := none) (v2 := none) ?_ ?_ ?_ ?_ (fun _ _ _ _ h => absurd h (by simp)) ?_
    · simp only [World.exec, ht, hg]; cases gr.commitChecked S dbg t ch <;> rfl
    · simp only [World.exec, ht2, hg2]; cases gr2.commitChecked S2 dbg t2 ch2 <;> rfl
    · simp only [World.exec, ht, hg]; cases gr.commitChecked S dbg t ch <;> rfl
    · simp only [World.exec, ht2, hg2]; cases gr2.commitChecked S2 dbg t2 ch2 <;> rfl
    · intro c1 c1' g1 g1' f1 f2
      cases hc : gr.commitChecked S dbg t ch with
      | error e => rw [hc] at f1; exact absurd f1 (by simp [Except.toOption])
      | ok g' =>
      cases hc2 : gr2.commitChecked S2 dbg t2 ch2 with
      | error e => rw [hc2] at f2; exact absurd f2 (by simp [Except.toOption])
      | ok g2' =>
      rw [hc] at f1
      rw [hc2] at f2
      simp only [Except.toOption, Option.map_some, Option.some.injEq, Prod.mk.injEq] at f1 f2
      obtain ⟨rfl, rfl⟩ := f1
      obtain ⟨rfl, rfl⟩ := f2
      exact h.commit hσ hw hw2 hq (hst _ _ _ _ hg ht) (hst2 _ _ _ _ hg2 ht2) hi.1 hi.2 ht hg ht2 hg2 (Graph.commit_of_checked hc) (Graph.commit_of_checked hc2)
  | dropTrans k =>
    cases b <;> try exact hab.elim
    obtain rfl := hab
    exact h.setTrans i1 i2 (v := none) (v2 := none) rfl rfl rfl rfl (fun _ _ _ _ h => absurd h (by simp))
  | dropGraph k =>
    cases b <;> try exact hab.elim
    obtain rfl := hab
    exact h.setGraph i1 i2 (u := none) (u2 := none) rfl rfl rfl rfl (fun _ _ _ _ h => absurd h (by simp))
  | commitCaught => cases b <;> exact hab.elim
  | switchContext g c =>
    cases b <;> try exact hab.elim
    obtain ⟨rfl, rfl, ⟨c0, gr, x, hg, hx, hI, hC⟩, ⟨c02, gr2, x2, hg2, hx2, hI2, hC2⟩, hm⟩ := hab
    rename_i g c
    obtain ⟨rfl, e1⟩ := h.graph _ _ _ _ _ hi hg hg2
    obtain ⟨_, _, _, hinv⟩ := h.left.graph _ _ _ hg
    obtain ⟨_, _, _, hinv2⟩ := h.right.graph _ _ _ hg2
    obtain ⟨a0, idMap, a, s1, _⟩ := Graph.switchNodes_ok hw.variants hinv x.cnt
    obtain ⟨b0, idMap2, b, t1, _⟩ := Graph.switchNodes_ok hw2.variants hinv2 x2.cnt
    refine h.setGraph i1 i2 (gh := g) (u := (gr.switchContext S x.uuid x.cnt).toOption.map fun r => (c, r.1))
      (u2 := (gr2.switchContext S2 x2.uuid x2.cnt).toOption.map fun r => (c, r.1)) ?_ ?_ ?_ ?_ ?_
    · simp only [World.exec, hg, hx, s1]; cases gr.switchContext S x.uuid x.cnt <;> rfl
    · simp only [World.exec, hg2, hx2, t1]; cases gr2.switchContext S2 x2.uuid x2.cnt <;> rfl
    · simp only [World.exec, hg, hx, s1]; cases gr.switchContext S x.uuid x.cnt <;> rfl
    · simp only [World.exec, hg2, hx2, t1]; cases gr2.switchContext S2 x2.uuid x2.cnt <;> rfl
    · intro c1 c1' g1 g1' f1 f2
      cases hc : gr.switchContext S x.uuid x.cnt with
      | error e => rw [hc] at f1; exact absurd f1 (by simp [Except.toOption])
      | ok g' =>
      cases hc2 : gr2.switchContext S2 x2.uuid x2.cnt with
      | error e => rw [hc2] at f2; exact absurd f2 (by simp [Except.toOption])
      | ok g2' =>
      rw [hc] at f1
      rw [hc2] at f2
      simp only [Except.toOption, Option.map_some, Option.some.injEq, Prod.mk.injEq] at f1 f2
      obtain ⟨rfl, rfl⟩ := f1
      obtain ⟨rfl, rfl⟩ := f2
      refine ⟨rfl, Graph.switch_alike (hσ _) (hσ _) hw hw2 hq hinv hinv2 e1 hI hI2 hC hC2 ?_ hc hc2⟩
      intro y p q hp hq'
      exact hm _ _ y _ _ hg ⟨_, _, _, p, hg, hx, hp, rfl⟩ ⟨_, _, _, q, hg2, hx2, hq', rfl⟩
  | deserialize g c f =>
    cases b <;> try exact hab.elim
    rename_i g c f2
    obtain ⟨rfl, rfl, hf⟩ := hab
    obtain ⟨ha1, _, hin⟩ := ha
    obtain ⟨hb1, _, hin2⟩ := hb
    refine h.setGraph i1 i2 (gh := g) (u := (Graph.deserializeGraph S f).toOption.map fun r => (c, r.2))
      (u2 := (Graph.deserializeGraph S2 f2).toOption.map fun r => (c, r.2)) ?_ ?_ ?_ ?_ ?_
    · simp only [World.exec]
      cases Graph.deserializeGraph S f with
      | error e => funext j; by_cases e : j = g <;> simp [World.put, e, ha1, Except.toOption]
      | ok r => rfl
    · simp only [World.exec]
      cases Graph.deserializeGraph S2 f2 with
      | error e => funext j; by_cases e : j = g <;> simp [World.put, e, hb1, Except.toOption]
      | ok r => rfl
    · simp only [World.exec]; cases Graph.deserializeGraph S f <;> rfl
    · simp only [World.exec]; cases Graph.deserializeGraph S2 f2 <;> rfl
    · intro c1 c1' g1 g1' k1 k2
      cases hc : Graph.deserializeGraph S f with
      | error e => rw [hc] at k1; exact absurd k1 (by simp [Except.toOption])
      | ok r =>
      cases hc2 : Graph.deserializeGraph S2 f2 with
      | error e => rw [hc2] at k2; exact absurd k2 (by simp [Except.toOption])
      | ok r2 =>
      rw [hc] at k1
      rw [hc2] at k2
      simp only [Except.toOption, Option.map_some, Option.some.injEq, Prod.mk.injEq] at k1 k2
      obtain ⟨rfl, rfl⟩ := k1
      obtain ⟨rfl, rfl⟩ := k2
      exact ⟨rfl, Graph.deserialize_alike (hσ _) hw hw2 hq hf hin hin2 hc hc2⟩

theorem Spec.TwinsFrom.invFrom {u u2 : World} (h0 : TwinInv S S2 σ G T u u2) (hσ : ∀ c, σ c emptyIdx = emptyIdx) (hw : WellNamed S) (hw2 : WellNamed S2) (hq : SameTables S S2) {R : World → Call → Prop}
    (hst : ∀ w c, R w c → SteadyBidirCalls S w c) {w w2 : World} (h : TwinsFrom S S2 dbg R σ G T u u2 w w2) :
    TwinInv S S2 σ G T w w2 := by
  induction h with
  | start => exact h0
  | both _ ha hb hra hrb hi hab ih => exact ih.both hσ hw hw2 hq (hst _ _ hra) (hq.steadyBidirCalls.2 (hst _ _ hrb)) ha hb hi hab
  | left _ ha he ih =>
    refine ⟨ih.left.exec hw dbg _ ha, ih.right, ?_, ?_⟩
    · intro k c c2 g g2 hk
      rw [he.keeps.1 k hk]
      exact ih.graph k c c2 g g2 hk
    · intro k c c2 g g2 hk
      rw [he.keeps.2 k hk]
      exact ih.trans k c c2 g g2 hk
  | right _ ha he ih =>
    refine ⟨ih.left, ih.right.exec hw2 dbg _ ha, ?_, ?_⟩
    · intro k c c2 g g2 hk
      rw [he.keeps.1 k hk]
      exact ih.graph k c c2 g g2 hk
    · intro k c c2 g g2 hk
      rw [he.keeps.2 k hk]
      exact ih.trans k c c2 g g2 hk

theorem Spec.Twins.inv (hσ : ∀ c, σ c emptyIdx = emptyIdx) (hw : WellNamed S) (hw2 : WellNamed S2) (hq : SameTables S S2) {R : World → Call → Prop}
    (hst : ∀ w c, R w c → SteadyBidirCalls S w c) {w w2 : World} (h : Twins S S2 dbg R σ G T w w2) : TwinInv S S2 σ G T w w2 :=
  h.invFrom ⟨World.init_inv S, World.init_inv S2, fun _ _ _ _ _ _ h => absurd h (by simp [World.init]), fun _ _ _ _ _ _ h => absurd h (by simp [World.init])⟩
    hσ hw hw2 hq hst

end
end TTGraph
