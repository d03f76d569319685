import Verif.Lemmas.Phase

/-!
Lemmas about moving links: removing a node (its links go to the empty index) and redirecting one node to another.
-/

set_option autoImplicit false

namespace TTGraph

theorem Schema.wt_of_shape {S : Schema} {n n' : Node} (h : n'.shape = n.shape) (hw : S.WT n) : S.WT n' := by
  obtain ⟨sd, h1, h2, h3⟩ := hw
  simp only [Node.shape, Prod.mk.injEq] at h
  obtain ⟨e1, e2, e3⟩ := h
  refine ⟨sd, by rw [e1]; exact h1, ?_, by rw [e2]; exact h3⟩
  rw [← h2]
  have hk : LinkVal.kind = Prod.fst ∘ LinkVal.shape := by
    funext v; cases v <;> rfl
  rw [hk, ← List.map_map, ← List.map_map, e3]

/-- Two views have the same nodes up to the indices held by their links. -/
def View.SameShape (v v' : View) : Prop := ∀ x, (v' x).map Node.shape = (v x).map Node.shape

theorem View.SameShape.refl (v : View) : View.SameShape v v := fun _ => rfl
theorem View.SameShape.trans {v v' v'' : View} (h : View.SameShape v v') (h' : View.SameShape v' v'') : View.SameShape v v'' :=
  fun x => (h' x).trans (h x)
theorem View.SameShape.symm {v v' : View} (h : View.SameShape v v') : View.SameShape v' v := fun x => (h x).symm

theorem View.SameShape.none {v v' : View} (h : View.SameShape v v') (x : NodeIndex) : v' x = none ↔ v x = none := by
  have := h x
  cases h1 : v x <;> cases h2 : v' x <;> simp_all

theorem View.SameShape.some {v v' : View} (h : View.SameShape v v') {x : NodeIndex} {n' : Node} (hx : v' x = some n') :
    ∃ n, v x = some n ∧ n'.shape = n.shape := by
  have := h x
  cases h1 : v x with
  | none => simp_all
  | some n => rw [hx, h1] at this; simp at this; exact ⟨n, rfl, this⟩

theorem View.SameShape.some' {v v' : View} (h : View.SameShape v v') {x : NodeIndex} {n : Node} (hx : v x = .some n) :
    ∃ n', v' x = .some n' ∧ n'.shape = n.shape := by
  obtain ⟨n', h1, h2⟩ := h.symm.some hx
  exact ⟨n', h1, h2.symm⟩

/-- The places `P`, which held `old`, now hold `new` (or nothing, if `new` is the empty index). -/
structure View.Moved (old new : NodeIndex) (P : NodeIndex × Source → Prop) (v v' : View) : Prop where
  shape : View.SameShape v v'
  holds : ∀ y t w, v'.Holds y t w ↔ (v.Holds y t w ∧ ¬ (w = old ∧ P (y, t))) ∨ (w = new ∧ new ≠ emptyIdx ∧ P (y, t))

theorem View.Moved.nil (old new : NodeIndex) (v : View) : View.Moved old new (· ∈ []) v v :=
  ⟨View.SameShape.refl v, by simp⟩

/-- One link moved. -/
theorem moved_step [SetImpl] {S : Schema} {a : Arena} {v0 : View} {P : List (NodeIndex × Source)} {old new : NodeIndex}
    {e : NodeIndex × Source} (hw : ∀ x n, v0 x = some n → S.WT n) (hm : View.Moved old new (· ∈ P) v0 a.get?)
    (he : v0.Holds e.1 e.2 old) (hnew : e ∉ P) (hne : old ≠ new) :
    ∃ a' add, a.modifyAt e.1 (fun n => n.modifyLink e.2 old new) = .ok (a', true, add) ∧
      View.Moved old new (· ∈ P ++ [e]) v0 a'.get? ∧ a'.disp = a.disp ∧ (a.Inv S → a'.Inv S) ∧ (a.Typed → a'.Typed) ∧
      (S.kind? e.2.mirror = some .vec → (add = true ↔ new ≠ emptyIdx)) ∧
      (S.kind? e.2.mirror ≠ some .vec → (add = true ↔ new ≠ emptyIdx ∧ ¬ v0.Link e.1 e.2.mirror new)) := by
  obtain ⟨y, t⟩ := e
  have hh : View.Holds a.get? y t old := by
    rw [hm.holds]
    exact Or.inl ⟨he, fun hc => hnew hc.2⟩
  obtain ⟨n, hn, hnh⟩ := hh
  obtain ⟨n0, hn0, hn0h⟩ := he
  have hsh : n.shape = n0.shape := by
    obtain ⟨m, hm1, hm2⟩ := hm.shape.some hn
    have hm1' : v0 y = some m := hm1
    have hn0' : v0 y = some n0 := hn0
    rw [hn0'] at hm1'; simp only [Option.some.injEq] at hm1'; subst hm1'; exact hm2
  obtain ⟨n', rem, add, h1, h2, h3, h4, h5, h6⟩ := Node.modifyLink_spec (new := new) hnh
  have hrem := h4 hne
  subst hrem
  obtain ⟨a', m1, m2, m3, m4, m5⟩ := Arena.modifyAt_ok (S := S) (f := fun n => n.modifyLink t old new) hn h1
  have hd : n'.disc = n.disc := by
    have := congrArg Prod.fst h2; exact this
  have hkind : n.kindAt t.pos = S.kind? t.mirror := by
    rw [Node.kindAt_of_shape hsh, Node.kindAt_wt (hw y n0 hn0)]
    have : t.disc = n0.disc := hn0h.1
    simp only [Source.mirror, this]
  refine ⟨a', add, m1, ⟨?_, ?_⟩, m3, m4, fun ht => m5 ht hd, ?_, ?_⟩
  · intro x
    rw [m2]
    split
    · rename_i hx; have hx : y = x := hx
      subst hx
      rw [← hm.shape y, hn]
      simp [h2]
    · exact hm.shape x
  · intro z s w
    simp only [View.Holds, m2]
    by_cases hz : y = z
    · subst hz
      simp only [if_true, Option.some.injEq, exists_eq_left', h3]
      have hcur : n.Holds s w ↔ View.Holds a.get? y s w := by
        constructor
        · exact fun h => ⟨n, hn, h⟩
        · rintro ⟨m, hm1, hm2⟩
          have hm1' : a.get? y = some m := hm1
          have hn' : a.get? y = some n := hn
          rw [hn'] at hm1'; simp only [Option.some.injEq] at hm1'; subst hm1'; exact hm2
      rw [hcur, hm.holds]
      simp only [List.mem_append, List.mem_singleton, Prod.mk.injEq, true_and, View.Holds]
      by_cases hs : s = t
      · subst hs
        have : ¬ (y, s) ∈ P := hnew
        simp only [this, true_and, and_false, or_false, not_false_eq_true, and_true, or_true]
      · simp only [hs, false_and, or_false, not_false_eq_true, and_true]
    · simp only [hz, if_false]
      have h' := hm.holds z s w
      simp only [View.Holds] at h'
      rw [h']
      have hz' : ¬ z = y := fun h => hz h.symm
      simp [hz']
  · intro hk
    exact h5 hne (by rw [hkind]; exact hk)
  · intro hk
    rw [h6 hne (by rw [hkind]; exact hk)]
    have key : n.HasLink t.mirror new ↔ v0.Link y t.mirror new := by
      have ht0 : t.slot = 0 := View.slot_zero hw ⟨n0, hn0, hn0h⟩ hk
      have hd' : View.Holds a.get? y t new ↔ v0.Holds y t new := by
        rw [hm.holds]
        have h1 : ¬ (y, t) ∈ P := hnew
        have h2 : ¬ new = old := fun h => hne h.symm
        simp [h1]
      constructor
      · rintro ⟨k, hk'⟩
        have hk0 : k = 0 := by
          have hw' : S.WT n := Schema.wt_of_shape hsh (hw y n0 hn0)
          exact View.slot_zero (S := S) (v := fun _ => some n) (x := 0) (s := ⟨t.mirror.disc, t.mirror.pos, k⟩)
            (by intro x m hm; simp at hm; subst hm; exact hw') ⟨n, rfl, hk'⟩ hk
        subst hk0
        have : (⟨t.mirror.disc, t.mirror.pos, 0⟩ : Source) = t := by
          obtain ⟨t1, t2, t3⟩ := t; simp only at ht0; subst ht0; rfl
        rw [this] at hk'
        obtain ⟨m, hm1, hm2⟩ := hd'.1 ⟨n, hn, hk'⟩
        exact ⟨m, hm1, Node.hasLink_of_holds hm2⟩
      · rintro ⟨m, hm1, ⟨k, hk'⟩⟩
        have hk0 : k = 0 := View.slot_zero hw (s := ⟨t.mirror.disc, t.mirror.pos, k⟩) ⟨m, hm1, hk'⟩ hk
        subst hk0
        have : (⟨t.mirror.disc, t.mirror.pos, 0⟩ : Source) = t := by
          obtain ⟨t1, t2, t3⟩ := t; simp only at ht0; subst ht0; rfl
        rw [this] at hk'
        obtain ⟨m', hm1', hm2'⟩ := hd'.2 ⟨m, hm1, hk'⟩
        have hm1'' : a.get? y = some m' := hm1'
        have hn' : a.get? y = some n := hn
        rw [hn'] at hm1''; simp only [Option.some.injEq] at hm1''; subst hm1''
        exact Node.hasLink_of_holds hm2'
    rw [key]

/-- The links after a move, as a set. -/
theorem View.Moved.link {old new : NodeIndex} {P : NodeIndex × Source → Prop} {v v' : View} (h : View.Moved old new P v v')
    (hP : ∀ e, P e ↔ v.Holds e.1 e.2 old) (hne : old ≠ new) (c : Change) :
    View.L v' c ↔ (View.L v c ∧ ¬ ∃ e, P e ∧ c = (e.1, old, e.2.mirror)) ∨ (new ≠ emptyIdx ∧ ∃ e, P e ∧ c = (e.1, new, e.2.mirror)) := by
  obtain ⟨x, y, m⟩ := c
  have hL : ∀ u : View, View.L u (x, y, m) ↔ ∃ k, u.Holds x ⟨m.disc, m.pos, k⟩ y := by
    intro u
    constructor
    · rintro ⟨n, hn, k, hk⟩; exact ⟨k, n, hn, hk⟩
    · rintro ⟨k, n, hn, hk⟩; exact ⟨n, hn, k, hk⟩
  rw [hL, hL]
  simp only [h.holds, Prod.mk.injEq]
  constructor
  · rintro ⟨k, ⟨h1, h2⟩ | ⟨h1, h2, h3⟩⟩
    · refine Or.inl ⟨⟨k, h1⟩, ?_⟩
      rintro ⟨e, he, rfl, rfl, rfl⟩
      exact h2 ⟨rfl, (hP _).2 h1⟩
    · exact Or.inr ⟨h2, _, h3, rfl, h1, rfl⟩
  · rintro (⟨⟨k, h1⟩, h2⟩ | ⟨h1, e, he, rfl, rfl, rfl⟩)
    · refine ⟨k, Or.inl ⟨h1, ?_⟩⟩
      rintro ⟨rfl, h4⟩
      exact h2 ⟨_, h4, rfl, rfl, rfl⟩
    · exact ⟨e.2.slot, Or.inr ⟨rfl, h1, he⟩⟩

namespace Graph

/-! ### remove_node -/

theorem removeBackLinks_spec (x : NodeIndex) (srcs : List (NodeIndex × Source)) (b : Back) (hk : ∀ p ∈ srcs, b.Known p.1) :
    ∃ b', removeBackLinks b x srcs = .ok b' ∧
      (∀ y e, b'.Rec y e ↔ b.Rec y e ∧ ¬ (e.1 = x ∧ (y, e.2) ∈ srcs)) ∧ (∀ y, b'.Known y ↔ b.Known y) := by
  induction srcs generalizing b with
  | nil => exact ⟨b, rfl, by simp, by simp⟩
  | cons p srcs ih =>
    obtain ⟨b1, h1, h2, h3⟩ := Back.unlink_ok (hk p (by simp)) (x, p.2)
    obtain ⟨b2, h4, h5, h6⟩ := ih b1 (fun q hq => (h3 q.1).2 (hk q (by simp [hq])))
    refine ⟨b2, ?_, ?_, ?_⟩
    · simp only [removeBackLinks, foldE, h1] at h4 ⊢
      exact h4
    · intro y e
      rw [h5, h2]
      obtain ⟨e1, e2⟩ := e
      obtain ⟨p1, p2⟩ := p
      simp only [List.mem_cons, Prod.mk.injEq]
      tauto
    · intro y; rw [h6, h3]

theorem removeNode_missing [SetImpl] {g : Graph} {x : NodeIndex} {r : Lcr} (h : g.get? x = none) :
    removeNode g x r = .error .removeMissing := by
  have h1 : (g.nodes.remove x).1 = none := by rw [Arena.remove_fst]; exact h
  unfold removeNode
  cases hr : g.nodes.remove x with
  | mk o a => rw [hr] at h1; simp only at h1; subst h1; rfl

/-- `remove_node` on a node that exists: it is gone, and so are all links to it. -/
theorem removeNode_ok [SetImpl] {S : Schema} {e0 : Prop} {g : Graph} {x : NodeIndex} {n : Node} {r : Lcr}
    (h : g.Inv S e0) (hn : g.get? x = some n) (L0 : Change → Prop) :
    ∃ g' r', removeNode g x r = .ok (g', r') ∧ g'.Inv S e0 ∧ g'.ctxId = g.ctxId ∧
      (∀ j, g'.nodes.disp.get? j = if x = j then none else g.nodes.disp.get? j) ∧
      (∀ y, (g'.get? y).map Node.shape = if x = y then none else (g.get? y).map Node.shape) ∧
      (∀ y s w, View.Holds g'.get? y s w ↔ View.Holds g.get? y s w ∧ y ≠ x ∧ w ≠ x) ∧
      (∀ y, g'.back.Known y ↔ g.back.Known y ∧ y ≠ x) ∧ (g.nodes.Typed → g'.nodes.Typed) ∧
      Lcr.Keeps S L0 g.get? r g'.get? r' := by
  have hx0 : x ≠ emptyIdx := by
    intro e; subst e; rw [h.noEmpty] at hn; exact absurd hn (by simp)
  obtain ⟨b1, u1, u2, u3⟩ := removeBackLinks_spec x n.iterSources g.back (by
    rintro ⟨y, s⟩ hp
    exact (h.recd x s y ⟨n, hn, Node.mem_iterSources.1 hp⟩).known)
  obtain ⟨bl, hbl⟩ := (u3 x).2 (h.known x n hn)
  -- the view after the node is taken out of the arena
  let a1 := (g.nodes.remove x).2
  let v1 : View := a1.get?
  have hv1 : ∀ j, v1 j = if x = j then none else g.get? j := fun j => Arena.remove_get? g.nodes x j
  have hw1 : ∀ z m, v1 z = some m → S.WT m := by
    intro z m hz
    rw [hv1] at hz
    split at hz
    · exact absurd hz (by simp)
    · exact h.wt z m hz
  have hh1 : ∀ z s w, v1.Holds z s w ↔ View.Holds g.get? z s w ∧ z ≠ x := by
    intro z s w
    simp only [View.Holds, hv1]
    by_cases hz : x = z
    · simp [hz]
    · simp [hz, Ne.symm hz]
  have hrec1 : ∀ y e, (y ≠ emptyIdx ∨ e0) → (b1.Rec y e ↔ v1.Holds e.1 e.2 y) := by
    intro y e hy
    rw [u2, hh1, Node.mem_iterSources]
    constructor
    · rintro ⟨hr, hnn⟩
      have hh := h.exact e.1 e.2 y hy hr
      refine ⟨hh, ?_⟩
      intro ex
      obtain ⟨m, hm1, hm2⟩ := hh
      rw [ex] at hm1
      have hm1' : g.get? x = some m := hm1
      rw [hn] at hm1'; simp only [Option.some.injEq] at hm1'; subst hm1'
      exact hnn ⟨ex, hm2⟩
    · rintro ⟨hh, hne⟩
      exact ⟨h.recd _ _ _ hh, fun hc => hne hc.1⟩
  have hrec1' : ∀ y e, v1.Holds e.1 e.2 y → b1.Rec y e := by
    intro y e hh
    rw [u2]
    rw [hh1] at hh
    exact ⟨h.recd _ _ _ hh.1, fun hc => hh.2 hc.1⟩
  have hbl1 : ∀ e, e ∈ bl ↔ v1.Holds e.1 e.2 x := by
    intro e
    rw [← hrec1 x e (Or.inl hx0)]
    simp only [Back.Rec, hbl, Option.some.injEq, exists_eq_left']
  -- the loop
  let r1 := n.iterSources.foldl (fun r p => r.removeLink x p.1 p.2.mirror) r
  have hloop : ∃ st', foldE (clearLink x) (a1, r1) bl.elems = .ok st' ∧
      (View.Moved x emptyIdx (· ∈ bl.elems) v1 st'.1.get? ∧ st'.1.disp = a1.disp ∧ st'.1.Inv S ∧ (a1.Typed → st'.1.Typed) ∧
        (∀ D : Change → Prop, (∀ c, D c → c.2.1 ≠ emptyIdx ∧ View.Once v1 c.1 c.2.2 c.2.1) → Lcr.Ok D L0 (View.L v1) r1 →
          Lcr.Ok D L0 (fun c => View.L v1 c ∧ ¬ ∃ e ∈ bl.elems, c = (e.1, x, e.2.mirror)) st'.2)) := by
    refine foldE_total (P := fun P (st : Arena × Lcr) => View.Moved x emptyIdx (· ∈ P) v1 st.1.get? ∧ st.1.disp = a1.disp ∧ st.1.Inv S ∧
      (a1.Typed → st.1.Typed) ∧
        (∀ D : Change → Prop, (∀ c, D c → c.2.1 ≠ emptyIdx ∧ View.Once v1 c.1 c.2.2 c.2.1) → Lcr.Ok D L0 (View.L v1) r1 →
          Lcr.Ok D L0 (fun c => View.L v1 c ∧ ¬ ∃ e ∈ P, c = (e.1, x, e.2.mirror)) st.2)) ?_ ?_
    · exact ⟨View.Moved.nil _ _ _, rfl, Arena.remove_inv h.arena x, id, fun _ _ hok => hok.congr (by simp)⟩
    · rintro pre e post ⟨a, q⟩ hsplit ⟨hmv, hdisp, hai, hat, hq⟩
      have hnd := bl.nodup
      have hmem : ∀ p, p ∈ pre ++ e :: post → v1.Holds p.1 p.2 x := by
        intro p hp
        rw [← hsplit] at hp
        exact (hbl1 p).1 hp
      have hep : e ∉ pre := by
        rw [hsplit, List.nodup_append] at hnd
        intro hc
        exact hnd.2.2 e hc e (by simp) rfl
      obtain ⟨a', add, m1, m2, m3, m4, m5, _, _⟩ := moved_step (S := S) hw1 hmv (hmem e (by simp)) hep hx0
      refine ⟨(a', q.removeLink e.1 x e.2.mirror), ?_, m2, m3.trans hdisp, m4 hai, fun ht => m5 (hat ht), ?_⟩
      · simp only [clearLink, m1]
      · intro D hD hok
        refine ((hq D hD hok).remove (fun c hc => (hD c hc).1) ?_).congr ?_
        · intro hd
          obtain ⟨m, hm1, hm2⟩ := hmem e (by simp)
          refine ⟨⟨m, hm1, Node.hasLink_of_holds hm2⟩, ?_⟩
          rintro ⟨p, hp, hpe⟩
          simp only [Prod.mk.injEq, true_and] at hpe
          have h1 := hmem e (by simp)
          have h2 := hmem p (by simp [hp])
          have h3 := (hD _ hd).2
          obtain ⟨e1, e2, e3, e4⟩ := e
          obtain ⟨p1, p2, p3, p4⟩ := p
          simp only [Source.mirror, Mirror.mk.injEq] at hpe
          obtain ⟨rfl, rfl, rfl⟩ := hpe
          obtain rfl : e4 = p4 := h3 _ _ h1 h2
          exact hep hp
        · intro c
          simp only [List.mem_append, List.mem_singleton]
          constructor
          · rintro ⟨h1, h2⟩
            exact ⟨⟨h1, fun ⟨q, hq, e⟩ => h2 ⟨q, Or.inl hq, e⟩⟩, fun he => h2 ⟨e, Or.inr rfl, he⟩⟩
          · rintro ⟨⟨h1, h2⟩, h3⟩
            refine ⟨h1, ?_⟩
            rintro ⟨q, hq | rfl, he⟩
            · exact h2 ⟨q, hq, he⟩
            · exact h3 he
  obtain ⟨⟨a2, r2⟩, hf, hmv, hdisp, hai, hat, hlcr⟩ := hloop
  have hmv' : View.Moved x emptyIdx (· ∈ bl.elems) v1 a2.get? := hmv
  let g' : Graph := { g with nodes := a2, back := b1.swapRemove x }
  have hg'h : ∀ y s w, View.Holds g'.get? y s w ↔ View.Holds g.get? y s w ∧ y ≠ x ∧ w ≠ x := by
    intro y s w
    show View.Holds a2.get? y s w ↔ _
    rw [hmv'.holds]
    simp only [ne_eq, not_true_eq_false, false_and, and_false, or_false]
    constructor
    · rintro ⟨h1, h2⟩
      have h1' := (hh1 y s w).1 h1
      refine ⟨h1'.1, h1'.2, ?_⟩
      intro hw; subst hw
      exact h2 ⟨rfl, (hbl1 (y, s)).2 h1⟩
    · rintro ⟨h1, h2, h3⟩
      exact ⟨(hh1 y s w).2 ⟨h1, h2⟩, fun hc => h3 hc.1⟩
  have hg's : ∀ y, (g'.get? y).map Node.shape = if x = y then none else (g.get? y).map Node.shape := by
    intro y
    have := hmv'.shape y
    rw [hv1] at this
    refine this.trans ?_
    split <;> rfl
  have hg'some : ∀ y m, g'.get? y = some m → x ≠ y ∧ ∃ m0, g.get? y = some m0 ∧ m.shape = m0.shape := by
    intro y m hm
    have := hg's y
    rw [hm] at this
    split at this
    · exact absurd this (by simp)
    · rename_i hxy
      refine ⟨hxy, ?_⟩
      cases hg : g.get? y with
      | none => rw [hg] at this; exact absurd this (by simp)
      | some m0 => rw [hg] at this; simp at this; exact ⟨m0, rfl, this⟩
  refine ⟨g', r2, ?_, ⟨hai, ?_, ?_, ?_, ?_, ?_⟩, rfl, ?_, hg's, hg'h, ?_, ?_, ?_⟩
  · unfold removeNode
    have hfst : (g.nodes.remove x).1 = some n := by rw [Arena.remove_fst]; exact hn
    have hpair : g.nodes.remove x = (some n, a1) := by
      rw [← hfst]
    simp only [hpair, u1, hbl]
    simp only [show n.iterSources.foldl (fun r p => r.removeLink x p.1 p.2.mirror) r = r1 from rfl, hf]
    rfl
  · intro y m hm
    obtain ⟨hxy, m0, hm0, _⟩ := hg'some y m hm
    show Back.Known (b1.swapRemove x) y
    rw [Back.known_swapRemove, u3]
    exact ⟨h.known y m0 hm0, Ne.symm hxy⟩
  · intro y s w hh
    rw [hg'h] at hh
    show Back.Rec (b1.swapRemove x) w (y, s)
    rw [Back.rec_swapRemove]
    exact ⟨hrec1' w (y, s) ((hh1 y s w).2 ⟨hh.1, hh.2.1⟩), hh.2.2⟩
  · intro y s w hw hr
    have hr' : Back.Rec (b1.swapRemove x) w (y, s) := hr
    rw [Back.rec_swapRemove, hrec1 w (y, s) hw] at hr'
    rw [hg'h]
    have := (hh1 y s w).1 hr'.1
    exact ⟨this.1, this.2, hr'.2⟩
  · have := hg's emptyIdx
    rw [h.noEmpty] at this
    simp only [Option.map_none, ite_self] at this
    cases hh : g'.get? emptyIdx with
    | none => rfl
    | some m => rw [hh] at this; exact absurd this (by simp)
  · intro y m hm
    obtain ⟨_, m0, hm0, hs⟩ := hg'some y m hm
    exact Schema.wt_of_shape hs (h.wt y m0 hm0)
  · intro j
    show a2.disp.get? j = _
    have : a2.disp = a1.disp := hdisp
    rw [this]
    exact Arena.remove_disp g.nodes x j
  · intro y
    show Back.Known (b1.swapRemove x) y ↔ _
    rw [Back.known_swapRemove, u3]
  · intro ht
    exact hat (Arena.remove_typed ht x)
  · intro D hD hok
    have hok1 : Lcr.Ok D L0 (View.L v1) r1 := by
      refine (hok.removeAll (fun c hc => (hD c hc).1) x n.iterSources ?_ ?_).congr ?_
      · rintro ⟨y, s⟩ hp _
        exact ⟨n, hn, Node.hasLink_of_holds (Node.mem_iterSources.1 hp)⟩
      · exact fun pr q po heq hd => Node.iterSources_distinct hn heq ((hD _ hd).left h.wt)
      · rintro ⟨cx, cy, cm⟩
        simp only [View.L, View.Link, hv1]
        by_cases hc : x = cx
        · subst hc
          simp only [if_true]
          constructor
          · rintro ⟨m, hm, _⟩; exact absurd hm (by simp)
          · rintro ⟨⟨m, hm, hl⟩, h2⟩
            rw [hn] at hm; simp only [Option.some.injEq] at hm; subst hm
            obtain ⟨q, hq, e1, e2⟩ := Node.hasLink_iff_sources.1 hl
            exact absurd ⟨q, hq, by simp only [Prod.mk.injEq, true_and]; exact ⟨e1.symm, e2.symm⟩⟩ h2
        · have hc' : ¬ cx = x := fun h => hc h.symm
          simp [hc, hc']
    have hD1 : ∀ c, D c → c.2.1 ≠ emptyIdx ∧ v1.Once c.1 c.2.2 c.2.1 := fun c hc =>
      ⟨(hD c hc).1, fun k k' h1 h2 => (hD c hc).left h.wt k k' ((hh1 _ _ _).1 h1).1 ((hh1 _ _ _).1 h2).1⟩
    refine (hlcr D hD1 hok1).congr ?_
    intro c
    have := hmv'.link (c := c) (fun e => hbl1 e) hx0
    refine this.trans ?_
    simp

end Graph
end TTGraph
