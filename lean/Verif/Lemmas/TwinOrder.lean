import Verif.Lemmas.Twins
import Verif.Lemmas.Order
import Verif.Spec.RenameOrder

/-!
# The order of iteration in two executions that differ in the values of indices
-/

set_option autoImplicit false

namespace TTGraph
open Spec

section lists
variable {τ : Equiv.Perm NodeIndex}

theorem swapOut_map (x : NodeIndex) (l : List NodeIndex) : swapOut (τ x) (l.map τ) = (swapOut x l).map τ := by
  induction l with
  | nil => rfl
  | cons y r ih =>
    simp only [List.map_cons, swapOut, τ.injective.eq_iff]
    split
    · rw [List.getLast?_map]
      cases r.getLast? with
      | none => rfl
      | some z => simp only [Option.map_some, List.map_cons, List.map_dropLast]
    · rw [List.map_cons, ih]

theorem toEnd_map (x : NodeIndex) (l : List NodeIndex) : toEnd (τ x) (l.map τ) = (toEnd x l).map τ := by
  have hm : τ x ∈ l.map τ ↔ x ∈ l := ⟨fun h => by obtain ⟨y, hy, e⟩ := List.mem_map.1 h; exact τ.injective e ▸ hy, fun h => List.mem_map_of_mem h⟩
  unfold toEnd
  by_cases h : x ∈ l
  · rw [if_pos h, if_pos (hm.2 h), swapOut_map]; simp
  · rw [if_neg h, if_neg fun k => h (hm.1 k)]

theorem orderAfter_map {old old2 : List NodeIndex} (d : Ident) {q q2 : Orders} (h : old2 = old.map τ) (hq : AlikeOrders τ q q2) :
    orderAfter old2 d q2 = (orderAfter old d q).map τ := by
  have fold : ∀ (f : NodeIndex → List NodeIndex → List NodeIndex) (_ : ∀ x l, f (τ x) (l.map τ) = (f x l).map τ) (xs l : List NodeIndex),
      (xs.map τ).foldl (fun l x => f x l) (l.map τ) = (xs.foldl (fun l x => f x l) l).map τ := by
    intro f hf xs
    induction xs with
    | nil => intro l; rfl
    | cons x xs ih => intro l; rw [List.map_cons, List.foldl_cons, List.foldl_cons, hf, ih]
  unfold orderAfter
  rw [h, hq.new, hq.updated, hq.removed, ← List.map_append, fold toEnd toEnd_map, fold swapOut swapOut_map]

theorem appendTo_map {new new2 : Ident → List NodeIndex} (h : ∀ d, new2 d = (new d).map τ) (e : Ident) (i : NodeIndex) (d : Ident) :
    appendTo new2 e (τ i) d = (appendTo new e i d).map τ := by
  unfold appendTo
  split <;> simp [h]

theorem appendAll_map {ns ns2 : List Node} (hn : List.Forall₂ (Node.Renamed τ) ns ns2) : ∀ (l : List NodeIndex) {new new2 : Ident → List NodeIndex},
    (∀ d, new2 d = (new d).map τ) → ∀ d, appendAll ns2 (l.map τ) new2 d = (appendAll ns l new d).map τ := by
  induction hn with
  | nil => intro l new new2 h d; cases l <;> exact h d
  | cons h1 _ ih =>
    intro l new new2 h d
    cases l with
    | nil => exact h d
    | cons i l =>
      rw [List.map_cons, appendAll, appendAll]
      refine ih l ?_ d
      intro d'
      rw [h1.1]
      exact appendTo_map h _ i d'

/-- The effect of a method on the orders. -/
theorem orderEffect_alike {o o2 : TOp} {l : List NodeIndex} {p p2 : Pending} {q q' q2 q2' : Orders} (ho : AlikeOp τ o o2) (hp : AlikePending τ p p2)
    (hq : AlikeOrders τ q q2) (h : OrderEffect o l p q q') (h2 : OrderEffect o2 (l.map τ) p2 q2 q2') : AlikeOrders τ q' q2' := by
  have none_iff : ∀ i, p2.new (τ i) = none ↔ p.new i = none := fun i => hp.new.none_iff i
  cases o with
  | insert n =>
    cases o2 <;> try exact ho.elim
    obtain ⟨i, rfl, rfl⟩ := h
    obtain ⟨j, e, rfl⟩ := h2
    simp only [List.map_cons, List.map_nil, List.cons.injEq, and_true] at e
    subst e
    have hd := ho.1
    refine ⟨fun d => ?_, hq.updated, hq.removed⟩
    rw [hd]
    exact appendTo_map hq.new _ i d
  | extend ns =>
    cases o2 <;> try exact ho.elim
    simp only [OrderEffect] at h h2
    subst h h2
    exact ⟨fun d => appendAll_map ho l hq.new d, hq.updated, hq.removed⟩
  | alloc d =>
    cases o2 <;> try exact ho.elim
    simp only [OrderEffect] at h h2
    subst h h2
    exact hq
  | allocUntyped =>
    cases o2 <;> try exact ho.elim
    simp only [OrderEffect] at h h2
    subst h h2
    exact hq
  | fillBack i n =>
    cases o2 <;> try exact ho.elim
    obtain ⟨rfl, hn⟩ := ho
    simp only [OrderEffect] at h h2
    subst h h2
    refine ⟨fun d => ?_, hq.updated, hq.removed⟩
    rw [hn.1]
    exact appendTo_map hq.new _ i d
  | fillBackUntyped i n =>
    cases o2 <;> try exact ho.elim
    obtain ⟨rfl, hn⟩ := ho
    simp only [OrderEffect] at h h2
    subst h h2
    refine ⟨fun d => ?_, hq.updated, hq.removed⟩
    rw [hn.1]
    exact appendTo_map hq.new _ i d
  | remove i =>
    cases o2 <;> try exact ho.elim
    obtain rfl := ho
    rcases h with ⟨a1, rfl⟩ | ⟨a1, a2, rfl⟩ | ⟨a1, a2, a3, rfl⟩ <;> rcases h2 with ⟨b1, rfl⟩ | ⟨b1, b2, rfl⟩ | ⟨b1, b2, b3, rfl⟩ <;>
      first
      | exact absurd ((none_iff _).1 b1) a1
      | exact absurd ((none_iff _).2 a1) b1
      | skip
    · exact ⟨fun d => by simp only [hq.new]; exact swapOut_map i _, hq.updated, hq.removed⟩
    · exact hq
    · rw [hp.unfilled, hp.removed] at *
      exact absurd a2 (not_or.2 ⟨b2, b3⟩)
    · rw [hp.unfilled, hp.removed] at b2
      exact absurd b2 (not_or.2 ⟨a2, a3⟩)
    · exact ⟨hq.new, hq.updated, by simp [hq.removed]⟩
  | mutate i f =>
    cases o2 <;> try exact ho.elim
    simp only [OrderEffect] at h h2
    subst h h2
    exact hq
  | update i f =>
    cases o2 <;> try exact ho.elim
    obtain ⟨rfl, _⟩ := ho
    rcases h with ⟨a1, rfl⟩ | ⟨a1, rfl⟩ <;> rcases h2 with ⟨b1, rfl⟩ | ⟨b1, rfl⟩
    · exact ⟨fun d => by simp only [hq.new]; exact toEnd_map i _, hq.updated, hq.removed⟩
    · exact absurd ((none_iff _).1 b1) a1
    · exact absurd ((none_iff _).2 a1) b1
    · exact ⟨hq.new, by simp [hq.updated], hq.removed⟩
  | redirectAllLinks a b =>
    cases o2 <;> try exact ho.elim
    simp only [OrderEffect] at h h2
    subst h h2
    exact hq
  | redirectLinks a b =>
    cases o2 <;> try exact ho.elim
    simp only [OrderEffect] at h h2
    subst h h2
    exact hq

theorem ofVariant_map (d : Ident) {l l2 : List (NodeIndex × Node)} (h : List.Forall₂ (AlikeEntry τ) l l2) :
    Arena.ofVariant d l2 = (Arena.ofVariant d l).map τ := by
  induction h with
  | nil => rfl
  | cons h1 _ ih =>
    have hd := h1.2.1
    unfold Arena.ofVariant at ih ⊢
    simp only [List.filter_cons, hd]
    split
    · rw [List.map_cons, List.map_cons, List.map_cons, ih, h1.1]
    · exact ih

/-- The nodes of two graphs in the order of iteration. -/
theorem iters_alike {S : Schema} {e0 e0' : Prop} {g g2 : Graph} (h : g.Inv S e0) (h2 : g2.Inv S e0') (hv : Alike τ g.get? g2.get?)
    (ho : ∀ d, g2.order d = (g.order d).map τ) : (∀ d, List.Forall₂ (AlikeEntry τ) (g.iterType d) (g2.iterType d)) ∧
      List.Forall₂ (AlikeEntry τ) (g.iter S) (g2.iter S) := by
  have one : ∀ l l2 : List (NodeIndex × Node), l2.map Prod.fst = (l.map Prod.fst).map τ → (∀ e ∈ l, g.get? e.1 = some e.2) →
      (∀ e ∈ l2, g2.get? e.1 = some e.2) → List.Forall₂ (AlikeEntry τ) l l2 := by
    intro l
    induction l with
    | nil => intro l2 e _ _; cases l2 with
      | nil => exact .nil
      | cons => simp at e
    | cons p l ih =>
      intro l2 e h1 h2
      cases l2 with
      | nil => simp at e
      | cons p2 l2 =>
        simp only [List.map_cons, List.cons.injEq] at e
        refine .cons ⟨e.1, ?_⟩ (ih l2 e.2 (fun x hx => h1 x (by simp [hx])) fun x hx => h2 x (by simp [hx]))
        obtain ⟨n, hn, hr⟩ := hv.some (h1 p (by simp))
        rw [← e.1, h2 p2 (by simp), Option.some.injEq] at hn
        rwa [hn]
  have two : ∀ d, List.Forall₂ (AlikeEntry τ) (g.iterType d) (g2.iterType d) := by
    intro d
    refine one _ _ (ho d) ?_ ?_
    · rintro ⟨i, n⟩ he
      exact h.arena.get? (OrderMap.get?_eq_some.2 he)
    · rintro ⟨i, n⟩ he
      exact h2.arena.get? (OrderMap.get?_eq_some.2 he)
  have all : ∀ ds : List Ident, List.Forall₂ (AlikeEntry τ) (ds.flatMap fun d => (g.nodes.cont d).entries) (ds.flatMap fun d => (g2.nodes.cont d).entries) := by
    intro ds
    induction ds with
    | nil => exact .nil
    | cons d ds ih =>
      rw [List.flatMap_cons, List.flatMap_cons]
      exact List.rel_append (two d) ih
  exact ⟨two, all S.discs⟩

theorem iter_alike {S : Schema} {e0 e0' : Prop} {g g2 : Graph} (h : g.Inv S e0) (h2 : g2.Inv S e0') (hv : Alike τ g.get? g2.get?)
    (ho : ∀ d, g2.order d = (g.order d).map τ) : List.Forall₂ (AlikeEntry τ) (g.iter S) (g2.iter S) :=
  (iters_alike h h2 hv ho).2

theorem group_alike {p : Ident → Bool} {l l2 : List (NodeIndex × Node)} (h : List.Forall₂ (AlikeEntry τ) l l2) :
    List.Forall₂ (AlikeEntry τ) (l.filter fun e => p e.2.disc) (l2.filter fun e => p e.2.disc) := by
  induction h with
  | nil => exact .nil
  | @cons e e2 _ _ h1 _ ih =>
    have hd : e2.2.disc = e.2.disc := h1.2.1
    rw [List.filter_cons, List.filter_cons, hd]
    split
    · exact .cons h1 ih
    · exact ih

theorem iter_fst_alike {l l2 : List (NodeIndex × Node)} (h : List.Forall₂ (AlikeEntry τ) l l2) : l2.map Prod.fst = (l.map Prod.fst).map τ := by
  induction h with
  | nil => rfl
  | cons h1 _ ih => rw [List.map_cons, List.map_cons, List.map_cons, ih, h1.1]

theorem numbered_alike {τ' : Equiv.Perm NodeIndex} {l l2 : List (NodeIndex × Node)} (h : List.Forall₂ (AlikeEntry τ) l l2) :
    ∀ (c c2 : Nat) (_ : ∀ p, p < l.length → c2 + 1 + p = τ' (c + 1 + p)) (d : Ident),
      Arena.ofVariant d (Arena.numbered c2 l2) = (Arena.ofVariant d (Arena.numbered c l)).map τ' := by
  induction h with
  | nil => intro c c2 _ d; rfl
  | cons h1 _ ih =>
    intro c c2 hc d
    have hd := h1.2.1
    have h0 := hc 0 (by simp)
    have := ih (c + 1) (c2 + 1) (fun p hp => by
      have := hc (p + 1) (by simpa using hp)
      rw [show c2 + 1 + 1 + p = c2 + 1 + (p + 1) by omega, show c + 1 + 1 + p = c + 1 + (p + 1) by omega]
      exact this) d
    unfold Arena.ofVariant at this ⊢
    simp only [Arena.numbered, List.filter_cons, hd]
    split
    · rw [List.map_cons, List.map_cons, List.map_cons, this]
      simp only [Nat.add_zero] at h0
      rw [h0]
    · exact this

end lists

section worlds
variable [SetImpl] {S : Schema} {dbg : Bool} {σ : Nat → Equiv.Perm NodeIndex} {G T : Nat → Prop}

/-- The orders correspond. -/
structure OrdInv (σ : Nat → Equiv.Perm NodeIndex) (G T : Nat → Prop) (w w2 : World) : Prop where
  graph : ∀ h c c2 g g2, G h → w.graph h = some (c, g) → w2.graph h = some (c2, g2) → ∀ d, g2.order d = (g.order d).map (σ c)
  trans : ∀ k c c2 t t2, T k → w.trans k = some (c, t) → w2.trans k = some (c2, t2) → AlikeOrders (σ c) t.orders t2.orders

omit [SetImpl] in
theorem OrdInv.set {w w2 w' w2' : World} (h : OrdInv σ G T w w2) {k gh : Nat}
    {v v2 : Option (Nat × Trans)} {u u2 : Option (Nat × Graph)}
    (e2 : w'.graph = w.graph ∧ w2'.graph = w2.graph ∨ w'.graph = World.put w.graph gh u ∧ w2'.graph = World.put w2.graph gh u2)
    (e3 : w'.trans = w.trans ∧ w2'.trans = w2.trans ∨ w'.trans = World.put w.trans k v ∧ w2'.trans = World.put w2.trans k v2)
    (hv : T k → ∀ c c2 t t2, v = some (c, t) → v2 = some (c2, t2) → AlikeOrders (σ c) t.orders t2.orders)
    (hu : G gh → ∀ c c2 g g2, u = some (c, g) → u2 = some (c2, g2) → ∀ d, g2.order d = (g.order d).map (σ c)) : OrdInv σ G T w' w2' where
  graph := by
    intro j c c2 t t2 hj ht ht2
    rcases e2 with ⟨f1, f2⟩ | ⟨f1, f2⟩
    · rw [f1] at ht
      rw [f2] at ht2
      exact h.graph j c c2 t t2 hj ht ht2
    rw [f1] at ht
    rw [f2] at ht2
    by_cases e : j = gh
    · simp only [World.put, if_pos e] at ht ht2
      exact hu (e ▸ hj) _ _ _ _ ht ht2
    · simp only [World.put, if_neg e] at ht ht2
      exact h.graph j c c2 t t2 hj ht ht2
  trans := by
    intro j c c2 t t2 hj ht ht2
    rcases e3 with ⟨f1, f2⟩ | ⟨f1, f2⟩
    · rw [f1] at ht
      rw [f2] at ht2
      exact h.trans j c c2 t t2 hj ht ht2
    rw [f1] at ht
    rw [f2] at ht2
    by_cases e : j = k
    · simp only [World.put, if_pos e] at ht ht2
      exact hv (e ▸ hj) _ _ _ _ ht ht2
    · simp only [World.put, if_neg e] at ht ht2
      exact h.trans j c c2 t t2 hj ht ht2

theorem OrdInv.commit {w w2 : World} (h : TwinInv S S σ G T w w2) (ho : OrdInv σ G T w w2) {k gh c c2 : Nat}
    {t t2 : Trans} {g g2 g' g2' : Graph} (hT : T k) (hG : G gh) (ht : w.trans k = some (c, t)) (hg : w.graph gh = some (c, g))
    (ht2 : w2.trans k = some (c2, t2)) (hg2 : w2.graph gh = some (c2, g2)) (hc : g.commit S dbg t = .ok g') (hc2 : g2.commit S dbg t2 = .ok g2')
    (d : Ident) : g2'.order d = (g'.order d).map (σ c) := by
  obtain ⟨_, _, _, _, a4, a5, _, a7, _⟩ := h.left.pair ht hg
  obtain ⟨_, _, _, _, b4, b5, _, b7, _⟩ := h.right.pair ht2 hg2
  have e1 := Graph.commit_order a5.arena a4.good.inv a7 hc d
  have e2 := Graph.commit_order b5.arena b4.good.inv b7 hc2 d
  show (g2'.nodes.cont d).keys = ((g'.nodes.cont d).keys).map (σ c)
  rw [e1, e2]
  exact orderAfter_map d (ho.graph _ _ _ _ _ hG hg hg2 d) (ho.trans _ _ _ _ _ hT ht ht2)

theorem OrdInv.both (hw : WellNamed S) {w w2 : World} (h : TwinInv S S σ G T w w2) (ho : OrdInv σ G T w w2) {a b : Call}
    (ha : a.Allowed S w) (hb : b.Allowed S w2) (hi : Inside G T a) (hab : AlikeCall S S σ w w2 a b) :
    OrdInv σ G T (w.exec S dbg a) (w2.exec S dbg b) := by
  have no {α : Type} {P : Prop} {x : α} (e : (none : Option α) = some x) : P := absurd e (by simp)
  cases a with
  | newContext c u => cases b <;> first | exact hab.elim | exact ⟨ho.graph, ho.trans⟩
  | defaultContext c => cases b <;> first | exact hab.elim | exact ⟨ho.graph, ho.trans⟩
  | newGraph g c =>
    cases b <;> try exact hab.elim
    rename_i g c
    obtain ⟨rfl, rfl⟩ := hab
    simp only [Call.Allowed] at ha hb
    refine ho.set (gh := g) (k := 0) (u := (w.ctx c).map fun x => (c, Graph.new x.uuid)) (u2 := (w2.ctx c).map fun x => (c, Graph.new x.uuid))
      (v := none) (v2 := none) (.inr ⟨?_, ?_⟩) (.inl ⟨?_, ?_⟩) (fun _ _ _ _ _ e => no e) ?_
    · simp only [World.exec]
      cases w.ctx c with
      | none => funext j; by_cases e : j = g <;> simp [World.put, e, ha]
      | some x => rfl
    · simp only [World.exec]
      cases w2.ctx c with
      | none => funext j; by_cases e : j = g <;> simp [World.put, e, hb]
      | some x => rfl
    · simp only [World.exec]; cases w.ctx c <;> rfl
    · simp only [World.exec]; cases w2.ctx c <;> rfl
    · intro _ c1 c2 g1 g2 e1 e2 d
      obtain ⟨x, _, e1⟩ := Option.map_eq_some_iff.1 e1
      obtain ⟨x2, _, e2⟩ := Option.map_eq_some_iff.1 e2
      simp only [Prod.mk.injEq] at e1 e2
      obtain ⟨rfl, rfl⟩ := e1
      obtain ⟨rfl, rfl⟩ := e2
      rfl
  | newTrans k c =>
    cases b <;> try exact hab.elim
    rename_i k c
    obtain ⟨rfl, rfl⟩ := hab
    simp only [Call.Allowed] at ha hb
    refine ho.set (gh := 0) (k := k) (u := none) (u2 := none) (v := (w.ctx c).map fun x => (c, Trans.new x.uuid)) (v2 := (w2.ctx c).map fun x => (c, Trans.new x.uuid))
      (.inl ⟨?_, ?_⟩) (.inr ⟨?_, ?_⟩) ?_ (fun _ _ _ _ _ e => no e)
    · simp only [World.exec]; cases w.ctx c <;> rfl
    · simp only [World.exec]; cases w2.ctx c <;> rfl
    · simp only [World.exec]
      cases w.ctx c with
      | none => funext j; by_cases e : j = k <;> simp [World.put, e, ha]
      | some x => rfl
    · simp only [World.exec]
      cases w2.ctx c with
      | none => funext j; by_cases e : j = k <;> simp [World.put, e, hb]
      | some x => rfl
    · intro _ c1 c2 g1 g2 e1 e2
      obtain ⟨x, _, e1⟩ := Option.map_eq_some_iff.1 e1
      obtain ⟨x2, _, e2⟩ := Option.map_eq_some_iff.1 e2
      simp only [Prod.mk.injEq] at e1 e2
      obtain ⟨rfl, rfl⟩ := e1
      obtain ⟨rfl, rfl⟩ := e2
      exact ⟨fun _ => rfl, rfl, rfl⟩
  | op k o =>
    cases b <;> try exact hab.elim
    rename_i k2 o2
    obtain ⟨rfl, n1, n2, hop⟩ := hab
    obtain ⟨⟨c, t⟩, ht⟩ := Option.ne_none_iff_exists'.1 n1
    obtain ⟨⟨c2, t2⟩, ht2⟩ := Option.ne_none_iff_exists'.1 n2
    obtain ⟨x, hx, _, hr⟩ := h.left.trans _ _ _ ht
    obtain ⟨x2, hx2, _, hr2⟩ := h.right.trans _ _ _ ht2
    obtain ⟨hop1, hop2⟩ := hop c t ht
    obtain ⟨rfl, hpend⟩ := h.trans k2 _ _ _ _ hi ht ht2
    have hord := ho.trans k2 _ _ _ _ hi ht ht2
    have bd : ∀ {v : World} {c : Nat} {t : Trans} {x : Ctx}, World.WInv S v → v.trans k2 = some (c, t) → v.ctx c = some x →
        ∀ i : Nat, t.Owns i → i ≠ emptyIdx ∧ i ≤ x.cnt := by
      intro v c t x hv ht hx i hi
      obtain ⟨x', hx', hb⟩ := hv.bound (.inr k2) c i ⟨t, ht, hi⟩
      rw [hx, Option.some.injEq] at hx'
      subst hx'
      exact hb
    refine ho.set (gh := 0) (k := k2) (u := none) (u2 := none) (v := (o.run t x.cnt).toOption.map fun r => (c2, r.1))
      (v2 := (o2.run t2 x2.cnt).toOption.map fun r => (c2, r.1)) (.inl ⟨?_, ?_⟩) (.inr ⟨?_, ?_⟩) ?_ (fun _ _ _ _ _ e => no e)
    · simp only [World.exec, ht, hx]; cases o.run t x.cnt <;> rfl
    · simp only [World.exec, ht2, hx2]; cases o2.run t2 x2.cnt <;> rfl
    · simp only [World.exec, ht, hx]; cases o.run t x.cnt <;> rfl
    · simp only [World.exec, ht2, hx2]; cases o2.run t2 x2.cnt <;> rfl
    · intro _ c1 c1' g1 g1' f1 f2
      cases hrun : o.run t x.cnt with
      | error e => rw [hrun] at f1; exact no f1
      | ok r =>
      cases hrun2 : o2.run t2 x2.cnt with
      | error e => rw [hrun2] at f2; exact no f2
      | ok r2 =>
      rw [hrun] at f1
      rw [hrun2] at f2
      simp only [Except.toOption, Option.map_some, Option.some.injEq, Prod.mk.injEq] at f1 f2
      obtain ⟨rfl, rfl⟩ := f1
      obtain ⟨rfl, rfl⟩ := f2
      obtain ⟨t', cnt, l⟩ := r
      obtain ⟨t2', cnt2, l2⟩ := r2
      have el := hop2 l l2 ⟨t, x, t', cnt, ht, hx, hrun⟩ ⟨t2, x2, t2', cnt2, ht2, hx2, hrun2⟩
      subst el
      exact orderEffect_alike hop1 hpend hord (Trans.order_effect hr (bd h.left ht hx) (ha _ _ ht) hrun)
        (Trans.order_effect hr2 (bd h.right ht2 hx2) (hb _ _ ht2) hrun2)
  | merge k g =>
    cases b <;> try exact hab.elim
    rename_i k2 g2
    obtain ⟨rfl, rfl, n1, n2, n3, n4⟩ := hab
    obtain ⟨⟨c, t⟩, ht⟩ := Option.ne_none_iff_exists'.1 n1
    obtain ⟨⟨c2, t2⟩, ht2⟩ := Option.ne_none_iff_exists'.1 n2
    obtain ⟨⟨c', gr⟩, hg⟩ := Option.ne_none_iff_exists'.1 n3
    obtain ⟨⟨c2', gr2⟩, hg2⟩ := Option.ne_none_iff_exists'.1 n4
    obtain rfl := ha _ _ _ _ ht hg
    obtain rfl := hb _ _ _ _ ht2 hg2
    obtain ⟨_, _, a2, a3, a4, a5, _, a7, _⟩ := h.left.pair ht hg
    obtain ⟨_, _, b2, b3, b4, b5, _, b7, _⟩ := h.right.pair ht2 hg2
    obtain ⟨rfl, _⟩ := h.graph _ _ _ _ _ hi.2 hg hg2
    have e1 := ho.graph _ _ _ _ _ hi.2 hg hg2
    have e2 := ho.trans _ _ _ _ _ hi.1 ht ht2
    have ex : w.exec S dbg (.merge k2 g2) = (w.setTrans k2 (some (c2, { t with inc := t.inc.merge gr.nodes }))).setGraph g2 none := by
      simp only [World.exec, ht, hg, Trans.merge, a2, a3, if_true]
    have ex2 : w2.exec S dbg (.merge k2 g2) = (w2.setTrans k2 (some (c2, { t2 with inc := t2.inc.merge gr2.nodes }))).setGraph g2 none := by
      simp only [World.exec, ht2, hg2, Trans.merge, b2, b3, if_true]
    rw [ex, ex2]
    refine ho.set (gh := g2) (k := k2) (u := none) (u2 := none) (v := some (c2, { t with inc := t.inc.merge gr.nodes }))
      (v2 := some (c2, { t2 with inc := t2.inc.merge gr2.nodes })) (.inr ⟨rfl, rfl⟩) (.inr ⟨rfl, rfl⟩) ?_ (fun _ _ _ _ _ e => no e)
    intro _ _ _ _ _ f1 f2
    simp only [Option.some.injEq, Prod.mk.injEq] at f1 f2
    obtain ⟨rfl, rfl⟩ := f1
    obtain ⟨rfl, rfl⟩ := f2
    have dis : ∀ {a b : Arena}, a.Disjoint b → b.Disjoint a := by
      intro a b hd i hi
      by_contra hc
      exact hi (hd i hc)
    refine ⟨fun d => ?_, e2.updated, e2.removed⟩
    have m1 := Arena.merge_order a4.good.inv.homes a5.arena.homes (dis a7) d
    have m2 := Arena.merge_order b4.good.inv.homes b5.arena.homes (dis b7) d
    simp only [Trans.orders]
    rw [m1, m2, List.map_append]
    exact congrArg₂ (· ++ ·) (e2.new d) (e1 d)
  | commit g k =>
    cases b <;> try exact hab.elim
    rename_i g2 k2
    obtain ⟨rfl, rfl, n1, n2, n3, n4⟩ := hab
    obtain ⟨⟨c, t⟩, ht⟩ := Option.ne_none_iff_exists'.1 n1
    obtain ⟨⟨c2, t2⟩, ht2⟩ := Option.ne_none_iff_exists'.1 n2
    obtain ⟨⟨c', gr⟩, hg⟩ := Option.ne_none_iff_exists'.1 n3
    obtain ⟨⟨c2', gr2⟩, hg2⟩ := Option.ne_none_iff_exists'.1 n4
    obtain rfl := ha _ _ _ _ ht hg
    obtain rfl := hb _ _ _ _ ht2 hg2
    refine ho.set (gh := g2) (k := k2) (u := (gr.commit S dbg t).toOption.map fun g' => (c, g'))
      (u2 := (gr2.commit S dbg t2).toOption.map fun g' => (c2, g')) (v := none) (v2 := none) (.inr ⟨?_, ?_⟩) (.inr ⟨?_, ?_⟩) (fun _ _ _ _ _ e => no e) ?_
    · simp only [World.exec, ht, hg]; cases gr.commit S dbg t <;> rfl
    · simp only [World.exec, ht2, hg2]; cases gr2.commit S dbg t2 <;> rfl
    · simp only [World.exec, ht, hg]; cases gr.commit S dbg t <;> rfl
    · simp only [World.exec, ht2, hg2]; cases gr2.commit S dbg t2 <;> rfl
    · intro _ c1 c1' g1 g1' f1 f2
      cases hc : gr.commit S dbg t with
      | error e => rw [hc] at f1; exact no f1
      | ok g' =>
      cases hc2 : gr2.commit S dbg t2 with
      | error e => rw [hc2] at f2; exact no f2
      | ok g2' =>
      rw [hc] at f1
      rw [hc2] at f2
      simp only [Except.toOption, Option.map_some, Option.some.injEq, Prod.mk.injEq] at f1 f2
      obtain ⟨rfl, rfl⟩ := f1
      obtain ⟨rfl, rfl⟩ := f2
      exact OrdInv.commit h ho hi.1 hi.2 ht hg ht2 hg2 hc hc2
  | commitChecked g k ch =>
    cases b <;> try exact hab.elim
    rename_i g2 k2 ch2
    obtain ⟨rfl, rfl, n1, n2, n3, n4⟩ := hab
    obtain ⟨⟨c, t⟩, ht⟩ := Option.ne_none_iff_exists'.1 n1
    obtain ⟨⟨c2, t2⟩, ht2⟩ := Option.ne_none_iff_exists'.1 n2
    obtain ⟨⟨c', gr⟩, hg⟩ := Option.ne_none_iff_exists'.1 n3
    obtain ⟨⟨c2', gr2⟩, hg2⟩ := Option.ne_none_iff_exists'.1 n4
    obtain rfl := ha _ _ _ _ ht hg
    obtain rfl := hb _ _ _ _ ht2 hg2
    refine ho.set (gh := g2) (k := k2) (u := (gr.commitChecked S dbg t ch).toOption.map fun g' => (c, g'))
      (u2 := (gr2.commitChecked S dbg t2 ch2).toOption.map fun g' => (c2, g')) (v := none) (v2 := none) (.inr ⟨?_, ?_⟩) (.inr ⟨?_, ?_⟩) (fun _ _ _ _ _ e => no e) ?_
    · simp only [World.exec, ht, hg]; cases gr.commitChecked S dbg t ch <;> rfl
    · simp only [World.exec, ht2, hg2]; cases gr2.commitChecked S dbg t2 ch2 <;> rfl
    · simp only [World.exec, ht, hg]; cases gr.commitChecked S dbg t ch <;> rfl
    · simp only [World.exec, ht2, hg2]; cases gr2.commitChecked S dbg t2 ch2 <;> rfl
    · intro _ c1 c1' g1 g1' f1 f2
      cases hc : gr.commitChecked S dbg t ch with
      | error e => rw [hc] at f1; exact no f1
      | ok g' =>
      cases hc2 : gr2.commitChecked S dbg t2 ch2 with
      | error e => rw [hc2] at f2; exact no f2
      | ok g2' =>
      rw [hc] at f1
      rw [hc2] at f2
      simp only [Except.toOption, Option.map_some, Option.some.injEq, Prod.mk.injEq] at f1 f2
      obtain ⟨rfl, rfl⟩ := f1
      obtain ⟨rfl, rfl⟩ := f2
      exact OrdInv.commit h ho hi.1 hi.2 ht hg ht2 hg2 (Graph.commit_of_checked hc) (Graph.commit_of_checked hc2)
  | dropTrans k =>
    cases b <;> try exact hab.elim
    obtain rfl := hab
    exact ho.set (gh := 0) (u := none) (u2 := none) (v := none) (v2 := none) (.inl ⟨rfl, rfl⟩) (.inr ⟨rfl, rfl⟩) (fun _ _ _ _ _ e => no e) (fun _ _ _ _ _ e => no e)
  | dropGraph k =>
    cases b <;> try exact hab.elim
    obtain rfl := hab
    exact ho.set (k := 0) (u := none) (u2 := none) (v := none) (v2 := none) (.inr ⟨rfl, rfl⟩) (.inl ⟨rfl, rfl⟩) (fun _ _ _ _ _ e => no e) (fun _ _ _ _ _ e => no e)
  | commitCaught => cases b <;> exact hab.elim
  | switchContext g c =>
    cases b <;> try exact hab.elim
    obtain ⟨rfl, rfl, ⟨c0, gr, x, hg, hx, hI, hC⟩, ⟨c02, gr2, x2, hg2, hx2, hI2, hC2⟩, hm⟩ := hab
    rename_i g c
    obtain ⟨rfl, e1⟩ := h.graph _ _ _ _ _ hi hg hg2
    obtain ⟨_, _, _, hinv⟩ := h.left.graph _ _ _ hg
    obtain ⟨_, _, _, hinv2⟩ := h.right.graph _ _ _ hg2
    obtain ⟨a0, idMap, a, s1, _⟩ := Graph.switchNodes_ok hw.variants hinv x.cnt
    obtain ⟨b0, idMap2, b, t1, _⟩ := Graph.switchNodes_ok hw.variants hinv2 x2.cnt
    have hit := iter_alike hinv hinv2 e1 (ho.graph _ _ _ _ _ hi hg hg2)
    refine ho.set (gh := g) (k := 0) (u := (gr.switchContext S x.uuid x.cnt).toOption.map fun r => (c, r.1))
      (u2 := (gr2.switchContext S x2.uuid x2.cnt).toOption.map fun r => (c, r.1)) (v := none) (v2 := none) (.inr ⟨?_, ?_⟩) (.inl ⟨?_, ?_⟩) (fun _ _ _ _ _ e => no e) ?_
    · simp only [World.exec, hg, hx, s1]; cases gr.switchContext S x.uuid x.cnt <;> rfl
    · simp only [World.exec, hg2, hx2, t1]; cases gr2.switchContext S x2.uuid x2.cnt <;> rfl
    · simp only [World.exec, hg, hx, s1]; cases gr.switchContext S x.uuid x.cnt <;> rfl
    · simp only [World.exec, hg2, hx2, t1]; cases gr2.switchContext S x2.uuid x2.cnt <;> rfl
    · intro _ c1 c1' g1 g1' f1 f2 d
      cases hc : gr.switchContext S x.uuid x.cnt with
      | error e => rw [hc] at f1; exact no f1
      | ok g' =>
      cases hc2 : gr2.switchContext S x2.uuid x2.cnt with
      | error e => rw [hc2] at f2; exact no f2
      | ok g2' =>
      rw [hc] at f1
      rw [hc2] at f2
      simp only [Except.toOption, Option.map_some, Option.some.injEq, Prod.mk.injEq] at f1 f2
      obtain ⟨rfl, rfl⟩ := f1
      obtain ⟨rfl, rfl⟩ := f2
      have decl : ∀ {v : Graph}, v.Inv S False → ∀ e ∈ v.iter S, e.2.disc ∈ S.discs := by
        rintro v hv ⟨i, n⟩ he
        exact (hv.wt i n ((Arena.mem_entries hv.arena).1 he)).disc
      show (g2'.1.nodes.cont d).keys = ((g'.1.nodes.cont d).keys).map (σ c)
      rw [Graph.switchContext_order (decl hinv) hc d, Graph.switchContext_order (decl hinv2) hc2 d]
      refine numbered_alike hit _ _ (fun p hp => ?_) d
      have hp' : ((gr.iter S).map Prod.fst)[p]? = some ((gr.iter S)[p]).1 := by rw [List.getElem?_map, List.getElem?_eq_getElem hp]; rfl
      have hp2 : ((gr2.iter S).map Prod.fst)[p]? = some (σ c02 ((gr.iter S)[p]).1) := by
        rw [iter_fst_alike hit, List.getElem?_map, hp']; rfl
      exact hm _ _ _ _ _ hg ⟨_, _, _, p, hg, hx, hp', rfl⟩ ⟨_, _, _, p, hg2, hx2, hp2, rfl⟩
  | deserialize g c f =>
    cases b <;> try exact hab.elim
    rename_i g c f2
    obtain ⟨rfl, rfl, hf⟩ := hab
    obtain ⟨ha1, _, hin⟩ := ha
    obtain ⟨hb1, _, hin2⟩ := hb
    refine ho.set (gh := g) (k := 0) (u := (Graph.deserializeGraph S f).toOption.map fun r => (c, r.2))
      (u2 := (Graph.deserializeGraph S f2).toOption.map fun r => (c, r.2)) (v := none) (v2 := none) (.inr ⟨?_, ?_⟩) (.inl ⟨?_, ?_⟩) (fun _ _ _ _ _ e => no e) ?_
    · simp only [World.exec]
      cases Graph.deserializeGraph S f with
      | error e => funext j; by_cases e : j = g <;> simp [World.put, e, ha1, Except.toOption]
      | ok r => rfl
    · simp only [World.exec]
      cases Graph.deserializeGraph S f2 with
      | error e => funext j; by_cases e : j = g <;> simp [World.put, e, hb1, Except.toOption]
      | ok r => rfl
    · simp only [World.exec]; cases Graph.deserializeGraph S f <;> rfl
    · simp only [World.exec]; cases Graph.deserializeGraph S f2 <;> rfl
    · intro _ c1 c1' g1 g1' k1 k2 d
      cases hc : Graph.doDeserialize S f.ctxId f.nodes with
      | error e => simp only [Graph.deserializeGraph, hc] at k1; exact no k1
      | ok r =>
      cases hc2 : Graph.doDeserialize S f2.ctxId f2.nodes with
      | error e => simp only [Graph.deserializeGraph, hc2] at k2; exact no k2
      | ok r2 =>
      simp only [Graph.deserializeGraph, hc, hc2, Except.toOption, Option.map_some, Option.some.injEq, Prod.mk.injEq] at k1 k2
      obtain ⟨rfl, rfl⟩ := k1
      obtain ⟨rfl, rfl⟩ := k2
      show (r2.nodes.cont d).keys = ((r.nodes.cont d).keys).map (σ c)
      rw [Graph.doDeserialize_order hc d, Graph.doDeserialize_order hc2 d]
      exact ofVariant_map d hf

theorem Spec.TwinsFrom.ordersFrom {u u2 : World} (h0 : TwinInv S S σ G T u u2) (h1 : OrdInv σ G T u u2) (hσ : ∀ c, σ c emptyIdx = emptyIdx) (hw : WellNamed S) {R : World → Call → Prop}
    (hst : ∀ w c, R w c → SteadyBidirCalls S w c) {w w2 : World} (h : TwinsFrom S S dbg R σ G T u u2 w w2) : OrdInv σ G T w w2 := by
  induction h with
  | start => exact h1
  | both ht ha hb _ _ hi hab ih => exact ih.both hw (ht.invFrom h0 hσ hw hw (.refl S) hst) ha hb hi hab
  | left _ ha he ih =>
    refine ⟨?_, ?_⟩
    · intro k c c2 g g2 hk
      rw [he.keeps.1 k hk]
      exact ih.graph k c c2 g g2 hk
    · intro k c c2 g g2 hk
      rw [he.keeps.2 k hk]
      exact ih.trans k c c2 g g2 hk
  | right _ ha he ih =>
    refine ⟨?_, ?_⟩
    · intro k c c2 g g2 hk
      rw [he.keeps.1 k hk]
      exact ih.graph k c c2 g g2 hk
    · intro k c c2 g g2 hk
      rw [he.keeps.2 k hk]
      exact ih.trans k c c2 g g2 hk

theorem Spec.Twins.orders (hσ : ∀ c, σ c emptyIdx = emptyIdx) (hw : WellNamed S) {R : World → Call → Prop}
    (hst : ∀ w c, R w c → SteadyBidirCalls S w c) {w w2 : World} (h : Twins S S dbg R σ G T w w2) : OrdInv σ G T w w2 :=
  h.ordersFrom ⟨World.init_inv S, World.init_inv S, fun _ _ _ _ _ _ h => absurd h (by simp [World.init]), fun _ _ _ _ _ _ h => absurd h (by simp [World.init])⟩
    ⟨fun _ _ _ _ _ _ h => absurd h (by simp [World.init]), fun _ _ _ _ _ _ h => absurd h (by simp [World.init])⟩ hσ hw hst

end worlds
end TTGraph
