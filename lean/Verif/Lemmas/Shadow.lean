import Verif.Lemmas.Effects
import Verif.Lemmas.World
import Verif.Spec.Pending

/-!
# Programs with effectful closures and their shadows
-/

set_option autoImplicit false

namespace TTGraph
open Spec

variable {σ : Type}

/-! ### Resolving closures -/

/-- What the closures do in the state `s`. -/
def Pend.at (l : List (NodeIndex × EClosure σ)) (s : σ) : List (NodeIndex × Closure) := l.map fun e => (e.1, fun n => (e.2 n s).1)

theorem Pend.at_behaves (l : List (NodeIndex × EClosure σ)) (s : σ) :
    List.Forall₂ (fun e p => p.1 = e.1 ∧ Behaves e.2 p.2) l (Pend.at l s) := by
  induction l with
  | nil => exact .nil
  | cons e l ih => exact .cons ⟨rfl, fun n => ⟨s, rfl⟩⟩ ih

theorem Spec.Poses.ex (v : Option (Nat × Trans)) (p : Pend σ) (s : σ) : ∃ v', Poses v p v' := by
  match v with
  | none => exact ⟨none, trivial⟩
  | some (c, t) => exact ⟨some (c, { t with muts := Pend.at p.muts s, upds := Pend.at p.upds s }), rfl, _, _, rfl, Pend.at_behaves _ _, Pend.at_behaves _ _⟩

theorem Spec.Poses.nil {p : Pend σ} {v' : Option (Nat × Trans)} (h : Poses none p v') : v' = none := by
  match v', h with
  | .none, _ => rfl

theorem Spec.Poses.get {c : Nat} {t : Trans} {p : Pend σ} {v' : Option (Nat × Trans)} (h : Poses (some (c, t)) p v') :
    ∃ ms us, v' = some (c, { t with muts := ms, upds := us }) ∧
      List.Forall₂ (fun e p => p.1 = e.1 ∧ Behaves e.2 p.2) p.muts ms ∧ List.Forall₂ (fun e p => p.1 = e.1 ∧ Behaves e.2 p.2) p.upds us := by
  match v', h with
  | .some (_, _), ⟨rfl, ms, us, rfl, h1, h2⟩ => exact ⟨ms, us, rfl, h1, h2⟩

/-- The state before a step that only touches transaction `k`. -/
def EWorld.back (ew : EWorld σ) (w' : World) (k : Nat) (v : Option (Nat × Trans)) : World :=
  ⟨ew.world.ctx, ew.world.graph, World.put w'.trans k v, ew.world.issued⟩

theorem EWorld.back_shadow {ew : EWorld σ} {w' : World} {k : Nat} {v : Option (Nat × Trans)}
    (h1 : ∀ j, j ≠ k → Poses (ew.world.trans j) (ew.pend j) (w'.trans j)) (h2 : Poses (ew.world.trans k) (ew.pend k) v) :
    Shadow ew (ew.back w' k v) := by
  refine ⟨rfl, rfl, rfl, fun j => ?_⟩
  simp only [EWorld.back, World.put]
  split
  · next h => subst h; exact h2
  · next h => exact h1 j h

theorem World.ext' {w w' : World} (h1 : w.ctx = w'.ctx) (h2 : w.graph = w'.graph) (h3 : w.trans = w'.trans) (h4 : w.issued = w'.issued) : w = w' := by
  obtain ⟨_, _, _, _⟩ := w
  obtain ⟨_, _, _, _⟩ := w'
  simp only at h1 h2 h3 h4
  subst h1 h2 h3 h4
  rfl

theorem World.put_put {α : Type} (f : Nat → α) (k : Nat) (a b : α) : World.put (World.put f k a) k b = World.put f k b := by
  funext j
  simp only [World.put]
  split <;> rfl

theorem World.put_same {α : Type} (f : Nat → α) (k : Nat) (a : α) (h : f k = a) : World.put f k a = f := by
  funext j
  simp only [World.put]
  split
  · next e => rw [e, h]
  · rfl

theorem World.put_at {α : Type} (f : Nat → α) (k : Nat) (a : α) : World.put f k a k = a := if_pos rfl

theorem World.put_ne {α : Type} (f : Nat → α) {k j : Nat} (a : α) (h : j ≠ k) : World.put f k a j = f j := if_neg h

/-! ### Calls that do not take closures -/

/-- A method that does not take a closure. -/
def TOp.NoClosure : TOp → Prop
  | .mutate _ _ => False
  | .update _ _ => False
  | _ => True

/-- Put other closures in place. -/
def Trans.withLists (t : Trans) (ms us : List (NodeIndex × Closure)) : Trans := { t with muts := ms, upds := us }

theorem Trans.insert_lists (t : Trans) (ms us : List (NodeIndex × Closure)) (cnt : Nat) (n : Node) :
    (t.withLists ms us).insert cnt n = (t.insert cnt n).map fun r => (r.1, r.2.1.withLists ms us, r.2.2) := by
  simp only [Trans.insert, Trans.withLists]
  cases t.inc.insert cnt n <;> rfl

theorem TOp.run_lists (t : Trans) (ms us : List (NodeIndex × Closure)) (cnt : Nat) (o : TOp) (h : o.NoClosure) :
    o.run (t.withLists ms us) cnt = (o.run t cnt).map fun r => (r.1.withLists ms us, r.2) := by
  cases o with
  | insert n =>
    simp only [TOp.run, Trans.insert_lists]
    cases t.insert cnt n <;> rfl
  | extend l =>
    simp only [TOp.run, Trans.extend]
    have key : ∀ (l : List Node) (t : Trans) (cnt : Nat) (acc : List NodeIndex),
        foldE (fun (st : Trans × Nat × List NodeIndex) n =>
          match st.1.insert st.2.1 n with
          | .error e => .error e
          | .ok (i, t', cnt') => .ok (t', cnt', st.2.2 ++ [i])) (t.withLists ms us, cnt, acc) l =
        (foldE (fun (st : Trans × Nat × List NodeIndex) n =>
          match st.1.insert st.2.1 n with
          | .error e => .error e
          | .ok (i, t', cnt') => .ok (t', cnt', st.2.2 ++ [i])) (t, cnt, acc) l).map fun r => (r.1.withLists ms us, r.2) := by
      intro l
      induction l with
      | nil => intro t cnt acc; rfl
      | cons n l ih =>
        intro t cnt acc
        simp only [foldE, Trans.insert_lists]
        cases t.insert cnt n with
        | error e => rfl
        | ok r => exact ih r.2.1 r.2.2 _
    exact key l t cnt []
  | alloc d =>
    simp only [TOp.run, Trans.alloc, Trans.withLists]
    cases t.inc.alloc cnt d <;> rfl
  | allocUntyped => rfl
  | fillBack i n =>
    simp only [TOp.run, Trans.fillBack, Trans.withLists]
    cases t.inc.fillBack i n <;> rfl
  | fillBackUntyped i n =>
    simp only [TOp.run, Trans.fillBackUntyped, Trans.withLists]
    cases t.inc.fillBackUntyped i n <;> rfl
  | remove i =>
    simp only [TOp.run, Trans.remove, Trans.withLists]
    cases (t.inc.remove i).1 with
    | some m => rfl
    | none =>
      simp only
      by_cases hm : i ∈ t.allocs <;> simp [hm, Except.map]
  | mutate i f => exact h.elim
  | update i f => exact h.elim
  | redirectAllLinks a b => rfl
  | redirectLinks a b => rfl

/-! ### Every transaction has a context -/

/-- The context of each transaction exists. -/
def World.Owned (w : World) : Prop := ∀ k c t, w.trans k = some (c, t) → w.ctx c ≠ none

section
variable [SetImpl] {S : Schema} {dbg : Bool}

omit [SetImpl] in
theorem World.put_isSome {α : Type} (f : Nat → Option α) (k : Nat) (v : α) (c : Nat) (h : f c ≠ none) : World.put f k (some v) c ≠ none := by
  simp only [World.put]
  split
  · simp
  · exact h

theorem World.exec_ctx_mono (w : World) (call : Call) (c : Nat) (h : w.ctx c ≠ none) : (w.exec S dbg call).ctx c ≠ none := by
  cases call <;> simp only [World.exec]
  case newContext => exact World.put_isSome _ _ _ _ h
  case defaultContext => exact World.put_isSome _ _ _ _ h
  case newGraph => split <;> exact h
  case newTrans => split <;> exact h
  case op =>
    split
    · split
      · split
        · exact World.put_isSome _ _ _ _ h
        · exact h
      · exact h
    · exact h
  case merge =>
    split
    · split <;> exact h
    · exact h
  case commit =>
    split
    · split <;> exact h
    · exact h
  case commitChecked =>
    split
    · split <;> exact h
    · exact h
  case commitCaught => split <;> exact h
  case dropTrans => exact h
  case dropGraph => exact h
  case switchContext =>
    split
    · split
      · exact h
      · split <;> exact World.put_isSome _ _ _ _ h
    · exact h
  case deserialize =>
    split
    · exact World.put_isSome _ _ _ _ h
    · exact h

omit [SetImpl] in
theorem World.setTrans_owned {w : World} (h : w.Owned) (k : Nat) (v : Option (Nat × Trans)) (hv : ∀ c t, v = some (c, t) → w.ctx c ≠ none) :
    (w.setTrans k v).Owned := by
  intro j c t hj
  simp only [World.setTrans, World.put] at hj ⊢
  split at hj
  · exact hv c t hj
  · exact h j c t hj

theorem World.Owned.exec {w : World} (h : w.Owned) (call : Call) : (w.exec S dbg call).Owned := by
  have mono := World.exec_ctx_mono (S := S) (dbg := dbg) w call
  have keep : ((w.exec S dbg call).trans = w.trans) → (w.exec S dbg call).Owned := fun e k c t hk => mono c (h k c t (by rw [← e]; exact hk))
  have drop : ∀ k, ((w.exec S dbg call).trans = World.put w.trans k none) → (w.exec S dbg call).Owned := by
    intro k e j c t hj
    rw [e, World.put] at hj
    split at hj
    · simp at hj
    · exact mono c (h j c t hj)
  have set : ∀ k c0 t0, w.ctx c0 ≠ none → ((w.exec S dbg call).trans = World.put w.trans k (some (c0, t0))) → (w.exec S dbg call).Owned := by
    intro k c0 t0 h0 e j c t hj
    rw [e, World.put] at hj
    split at hj
    · simp only [Option.some.injEq, Prod.mk.injEq] at hj
      exact mono c (hj.1 ▸ h0)
    · exact mono c (h j c t hj)
  cases call with
  | newContext => exact keep rfl
  | defaultContext => exact keep rfl
  | newGraph g c => exact keep (by simp only [World.exec]; split <;> rfl)
  | newTrans k c =>
    cases hc : w.ctx c with
    | none => exact keep (by simp only [World.exec, hc])
    | some x => exact set k c (Trans.new x.uuid) (by simp [hc]) (by simp only [World.exec, hc, World.setTrans])
  | op k o =>
    cases hk : w.trans k with
    | none => exact keep (by simp only [World.exec, hk])
    | some p =>
      obtain ⟨c, t⟩ := p
      cases hc : w.ctx c with
      | none => exact keep (by simp only [World.exec, hk, hc])
      | some x =>
        cases hr : o.run t x.cnt with
        | error e => exact drop k (by simp only [World.exec, hk, hc, hr, World.setTrans])
        | ok r => exact set k c r.1 (by simp [hc]) (by simp only [World.exec, hk, hc, hr, World.setTrans, World.issue])
  | merge k g =>
    cases hk : w.trans k with
    | none => exact keep (by simp only [World.exec, hk])
    | some p =>
      obtain ⟨c, t⟩ := p
      cases hg : w.graph g with
      | none => exact keep (by simp only [World.exec, hk, hg])
      | some q =>
        cases hr : t.merge q.2 with
        | error e => exact drop k (by simp only [World.exec, hk, hg, hr, World.setTrans, World.setGraph])
        | ok r => exact set k c r (h k c t hk) (by simp only [World.exec, hk, hg, hr, World.setTrans, World.setGraph])
  | commit g k =>
    cases hk : w.trans k with
    | none => exact keep (by simp only [World.exec, hk])
    | some p =>
      cases hg : w.graph g with
      | none => exact keep (by simp only [World.exec, hk, hg])
      | some q => exact drop k (by simp only [World.exec, hk, hg]; split <;> rfl)
  | commitChecked g k cs =>
    cases hk : w.trans k with
    | none => exact keep (by simp only [World.exec, hk])
    | some p =>
      cases hg : w.graph g with
      | none => exact keep (by simp only [World.exec, hk, hg])
      | some q => exact drop k (by simp only [World.exec, hk, hg]; split <;> rfl)
  | commitCaught g k =>
    cases hk : w.trans k with
    | none => exact keep (by simp only [World.exec, hk])
    | some p =>
      cases hg : w.graph g with
      | none => exact keep (by simp only [World.exec, hk, hg])
      | some q => exact drop k (by simp only [World.exec, hk, hg]; rfl)
  | dropTrans k => exact drop k rfl
  | dropGraph g => exact keep rfl
  | switchContext g c =>
    refine keep ?_
    simp only [World.exec]
    split
    · split
      · rfl
      · split <;> rfl
    · rfl
  | deserialize g c input => exact keep (by simp only [World.exec]; split <;> rfl)

theorem EWorld.exec_owned {ew : EWorld σ} (h : ew.world.Owned) (e : ECall σ) : (ew.exec S dbg e).world.Owned := by
  have ran : ∀ k c t p, ew.world.trans k = some (c, t) → (ew.ran k c t p).world.Owned := by
    intro k c t p hk
    obtain ⟨_ | a, s⟩ := p
    · exact World.setTrans_owned h k none (fun _ _ hv => by simp at hv)
    · refine World.setTrans_owned h k _ fun c' t' hv => ?_
      simp only [Option.some.injEq, Prod.mk.injEq] at hv
      exact hv.1 ▸ h k c t hk
  have com : ∀ g k c p, (ew.committed g k c p).world.Owned := by
    intro g k c p
    obtain ⟨_ | a, s⟩ := p <;> exact World.setTrans_owned h k none (fun _ _ hv => by simp at hv)
  cases e with
  | think f => exact h
  | plain c => exact h.exec c
  | mutate k i f =>
    simp only [EWorld.exec]
    split
    · next c t hk => split; exacts [ran k c t _ hk, h]
    · exact h
  | update k i f =>
    simp only [EWorld.exec]
    split
    · next c t hk => split; exacts [ran k c t _ hk, h]
    · exact h
  | commit g k =>
    simp only [EWorld.exec]
    split
    · exact com _ _ _ _
    · exact h
  | commitChecked g k cs =>
    simp only [EWorld.exec]
    split
    · exact com _ _ _ _
    · exact h

theorem Spec.EReaches.owned {R : EWorld σ → ECall σ → Prop} {s : σ} {ew : EWorld σ} (h : EReaches S dbg R s ew) : ew.world.Owned := by
  induction h with
  | init => exact fun _ _ _ h => by simp [EWorld.init, World.init] at h
  | step _ _ _ ih => exact EWorld.exec_owned ih _

/-! ### One step -/

/-- The step of a shadow. -/
def Mirrored (S : Schema) (dbg : Bool) (ew : EWorld σ) (e : ECall σ) (w' : World) : Prop :=
  Shadow ew w' ∨ ∃ w c, Shadow ew w ∧ Image e c ∧ c.Allowed S w ∧ w.exec S dbg c = w'

omit [SetImpl] in
theorem Spec.Poses.congr {v v2 : Option (Nat × Trans)} {p p2 : Pend σ} {v' : Option (Nat × Trans)} (h : Poses v p v') (h1 : v = v2) (h2 : p = p2) :
    Poses v2 p2 v' := by subst h1 h2; exact h

/-- A call that does not concern transactions. -/
theorem mirror_other {ew : EWorld σ} {w' : World} {c : Call} (hf : EWorld.fresh ew.pend c = ew.pend)
    (ht : ∀ T : Nat → Option (Nat × Trans), ({ ew.world with trans := T } : World).exec S dbg c = { ew.world.exec S dbg c with trans := T })
    (ha : ∀ T : Nat → Option (Nat × Trans), c.Allowed S { ew.world with trans := T }) (h : Shadow (ew.exec S dbg (.plain c)) w') :
    Mirrored S dbg ew (.plain c) w' := by
  have h0 : (ew.world.exec S dbg c).trans = ew.world.trans :=
    (congrArg World.trans (ht ew.world.trans) :)
  refine Or.inr ⟨{ ew.world with trans := w'.trans }, c, ⟨rfl, rfl, rfl, fun k => ?_⟩, .plain c, ha _, ?_⟩
  · exact (h.trans k).congr (by simp only [EWorld.exec, h0]) (by simp only [EWorld.exec, hf])
  · rw [ht]
    exact World.ext' h.ctx.symm h.graph.symm rfl h.issued.symm

/-- A call on the transaction `k`. -/
theorem mirror_trans {ew : EWorld σ} {w' : World} {e : ECall σ} {c : Call} {k : Nat} {v : Option (Nat × Trans)}
    (h : Shadow (ew.exec S dbg e) w') (hp : ∀ j, j ≠ k → (ew.exec S dbg e).pend j = ew.pend j)
    (ht : ∀ j, j ≠ k → (ew.exec S dbg e).world.trans j = ew.world.trans j) (hv : Poses (ew.world.trans k) (ew.pend k) v)
    (hi : Image e c) (ha : c.Allowed S (ew.back w' k v)) (hx : (ew.back w' k v).exec S dbg c = w') : Mirrored S dbg ew e w' :=
  Or.inr ⟨ew.back w' k v, c, EWorld.back_shadow (fun j hj => (h.trans j).congr (ht j hj) (hp j hj)) hv, hi, ha, hx⟩

omit [SetImpl] in
theorem TOp.allowed_lists {t : Trans} {ms us : List (NodeIndex × Closure)} {o : TOp} (h : o.Allowed S t) : o.Allowed S (t.withLists ms us) := by
  cases o <;> exact h

omit [SetImpl] in
theorem Trans.merge_lists (t : Trans) (ms us : List (NodeIndex × Closure)) (g : Graph) :
    (t.withLists ms us).merge g = (t.merge g).map fun t' => t'.withLists ms us := by
  simp only [Trans.merge, Trans.withLists]
  by_cases h : t.ctxId = g.ctxId <;> simp [h, Except.map]

theorem mirror_plain {ew : EWorld σ} {w' : World} {c : Call} (hc : c.Plain) (ha : c.Allowed S ew.world)
    (h : Shadow (ew.exec S dbg (.plain c)) w') : Mirrored S dbg ew (.plain c) w' := by
  have keepP : EWorld.fresh ew.pend c = ew.pend → ∀ k j, j ≠ k → (ew.exec S dbg (.plain c)).pend j = ew.pend j := fun e k j _ => by
    simp only [EWorld.exec, e]
  cases c with
  | newContext c u => exact mirror_other rfl (fun T => rfl) (fun T => ha) h
  | defaultContext c => exact mirror_other rfl (fun T => rfl) (fun T => ha) h
  | newGraph g c =>
    refine mirror_other rfl (fun T => ?_) (fun T => ha) h
    simp only [World.exec]
    cases ew.world.ctx c <;> rfl
  | dropGraph g => exact mirror_other rfl (fun T => rfl) (fun T => ha) h
  | switchContext g c =>
    refine mirror_other rfl (fun T => ?_) (fun T => ha) h
    simp only [World.exec]
    cases ew.world.graph g with
    | none => rfl
    | some p =>
      cases ew.world.ctx c with
      | none => rfl
      | some x =>
        simp only
        cases p.2.switchInsert S x.cnt with
        | error e => rfl
        | ok r =>
          simp only
          cases p.2.switchContext S x.uuid x.cnt <;> rfl
  | deserialize g c input =>
    refine mirror_other rfl (fun T => ?_) (fun T => ha) h
    simp only [World.exec]
    cases Graph.deserializeGraph S input <;> rfl
  | newTrans k c =>
    have h1 : ew.world.trans k = none := ha
    have h2 := h.trans k
    refine mirror_trans (k := k) (v := none) h (fun j hj => World.put_ne _ _ hj) (fun j hj => ?_) (by rw [h1]; trivial) (.plain _) (World.put_at _ _ _) ?_
    · simp only [EWorld.exec, World.exec]
      cases ew.world.ctx c with
      | none => rfl
      | some x => exact World.put_ne _ _ hj
    · have h3 := h.ctx
      have h4 := h.graph
      have h5 := h.issued
      simp only [EWorld.exec, EWorld.fresh, World.put_at, World.exec] at h2 h3 h4 h5
      simp only [World.exec, EWorld.back]
      cases hx : ew.world.ctx c with
      | none =>
        simp only [hx] at h2 h3 h4 h5 ⊢
        rw [h1] at h2
        exact World.ext' h3.symm h4.symm (World.put_same _ _ _ h2.nil) h5.symm
      | some x =>
        simp only [hx, World.setTrans, World.put_at] at h2 h3 h4 h5 ⊢
        obtain ⟨ms, us, h6, h7, h8⟩ := h2.get
        cases h7
        cases h8
        exact World.ext' h3.symm h4.symm (by rw [World.put_put]; exact World.put_same _ _ _ h6) h5.symm
  | op k o =>
    have ho : o.NoClosure := by cases o <;> exact hc
    cases hk : ew.world.trans k with
    | none =>
      have : (ew.exec S dbg (.plain (.op k o))) = ew := by simp only [EWorld.exec, World.exec, hk, EWorld.fresh]
      exact Or.inl (this ▸ h)
    | some p =>
      obtain ⟨c, t⟩ := p
      cases hx : ew.world.ctx c with
      | none =>
        have : (ew.exec S dbg (.plain (.op k o))) = ew := by simp only [EWorld.exec, World.exec, hk, hx, EWorld.fresh]
        exact Or.inl (this ▸ h)
      | some x =>
        have h2 := h.trans k
        have h3 := h.ctx
        have h4 := h.graph
        have h5 := h.issued
        have hal := ha c t hk
        cases hr : o.run t x.cnt with
        | error e =>
          simp only [EWorld.exec, World.exec, hk, hx, hr, World.setTrans, World.put_at] at h2 h3 h4 h5
          obtain ⟨v, hv⟩ := Poses.ex (some (c, t)) (ew.pend k) ew.env
          obtain ⟨ms, us, rfl, _, _⟩ := hv.get
          refine mirror_trans (k := k) (v := some (c, t.withLists ms us)) h (keepP rfl k) (fun j hj => ?_) (by rw [hk]; exact hv) (.plain _) ?_ ?_
          · simp only [EWorld.exec, World.exec, hk, hx, hr, World.setTrans, World.put_ne _ _ hj]
          · intro c' t' ht'
            simp only [EWorld.back, World.put_at, Option.some.injEq, Prod.mk.injEq] at ht'
            rw [← ht'.2]
            exact TOp.allowed_lists hal
          · simp only [World.exec, EWorld.back, World.put_at, hx, TOp.run_lists _ _ _ _ _ ho, hr, Except.map]
            exact World.ext' h3.symm h4.symm (by simp only [World.setTrans, World.put_put]; exact World.put_same _ _ _ h2.nil) h5.symm
        | ok r =>
          obtain ⟨t', cnt, l⟩ := r
          simp only [EWorld.exec, World.exec, hk, hx, hr, World.setTrans, World.issue, World.put_at] at h2 h3 h4 h5
          obtain ⟨ms, us, h6, h7, h8⟩ := h2.get
          refine mirror_trans (k := k) (v := some (c, t.withLists ms us)) h (keepP rfl k) (fun j hj => ?_)
            (by rw [hk]; exact ⟨rfl, ms, us, rfl, h7, h8⟩) (.plain _) ?_ ?_
          · simp only [EWorld.exec, World.exec, hk, hx, hr, World.setTrans, World.issue, World.put_ne _ _ hj]
          · intro c' t' ht'
            simp only [EWorld.back, World.put_at, Option.some.injEq, Prod.mk.injEq] at ht'
            rw [← ht'.2]
            exact TOp.allowed_lists hal
          · simp only [World.exec, EWorld.back, World.put_at, hx, TOp.run_lists _ _ _ _ _ ho, hr, Except.map]
            exact World.ext' h3.symm h4.symm (by simp only [World.setTrans, World.issue, World.put_put]; exact World.put_same _ _ _ h6) h5.symm
  | merge k g =>
    cases hk : ew.world.trans k with
    | none =>
      have : (ew.exec S dbg (.plain (.merge k g))) = ew := by simp only [EWorld.exec, World.exec, hk, EWorld.fresh]
      exact Or.inl (this ▸ h)
    | some p =>
      obtain ⟨c, t⟩ := p
      cases hg : ew.world.graph g with
      | none =>
        have : (ew.exec S dbg (.plain (.merge k g))) = ew := by simp only [EWorld.exec, World.exec, hk, hg, EWorld.fresh]
        exact Or.inl (this ▸ h)
      | some q =>
        obtain ⟨c2, gr⟩ := q
        have h2 := h.trans k
        have h3 := h.ctx
        have h4 := h.graph
        have h5 := h.issued
        have hal := ha c t c2 gr hk hg
        have allowed : ∀ ms us, Call.Allowed S (ew.back w' k (some (c, t.withLists ms us))) (.merge k g) := by
          intro ms us a b c' gr' h6 h7
          simp only [EWorld.back, World.put_at, Option.some.injEq, Prod.mk.injEq, hg] at h6 h7
          rw [← h6.1, ← h7.1]
          exact hal
        cases hr : t.merge gr with
        | error e =>
          simp only [EWorld.exec, World.exec, hk, hg, hr, World.setTrans, World.setGraph, World.put_at] at h2 h3 h4 h5
          obtain ⟨v, hv⟩ := Poses.ex (some (c, t)) (ew.pend k) ew.env
          obtain ⟨ms, us, rfl, _, _⟩ := hv.get
          refine mirror_trans (k := k) (v := some (c, t.withLists ms us)) h (keepP rfl k) (fun j hj => ?_) (by rw [hk]; exact hv) (.plain _) (allowed _ _) ?_
          · simp only [EWorld.exec, World.exec, hk, hg, hr, World.setTrans, World.setGraph, World.put_ne _ _ hj]
          · simp only [World.exec, EWorld.back, World.put_at, hg, Trans.merge_lists, hr, Except.map]
            exact World.ext' h3.symm h4.symm (by simp only [World.setTrans, World.setGraph, World.put_put]; exact World.put_same _ _ _ h2.nil) h5.symm
        | ok t' =>
          simp only [EWorld.exec, World.exec, hk, hg, hr, World.setTrans, World.setGraph, World.put_at] at h2 h3 h4 h5
          obtain ⟨ms, us, h6, h7, h8⟩ := h2.get
          refine mirror_trans (k := k) (v := some (c, t.withLists ms us)) h (keepP rfl k) (fun j hj => ?_)
            (by rw [hk]; exact ⟨rfl, ms, us, rfl, h7, h8⟩) (.plain _) (allowed _ _) ?_
          · simp only [EWorld.exec, World.exec, hk, hg, hr, World.setTrans, World.setGraph, World.put_ne _ _ hj]
          · simp only [World.exec, EWorld.back, World.put_at, hg, Trans.merge_lists, hr, Except.map]
            exact World.ext' h3.symm h4.symm (by simp only [World.setTrans, World.setGraph, World.put_put]; exact World.put_same _ _ _ h6) h5.symm
  | commit g k => exact hc.elim
  | commitChecked g k cs => exact hc.elim
  | commitCaught g k => exact hc.elim
  | dropTrans k =>
    have h2 := h.trans k
    simp only [EWorld.exec, World.exec, World.setTrans, World.put_at] at h2
    obtain ⟨v, hv⟩ := Poses.ex (ew.world.trans k) (ew.pend k) ew.env
    refine mirror_trans (k := k) h (keepP rfl k) (fun j hj => World.put_ne _ _ hj) hv (.plain _) trivial ?_
    exact World.ext' h.ctx.symm h.graph.symm (by simp only [World.exec, EWorld.back, World.setTrans, World.put_put]; exact World.put_same _ _ _ h2.nil) h.issued.symm

/-! ### Steps with closures -/

omit [SetImpl] in
theorem Trans.mutate_lists {t : Trans} {i : NodeIndex} (ms us : List (NodeIndex × Closure)) (p : Closure) (h : t.inc.contains i = true) :
    (t.withLists ms us).mutate i p =
      ((t.inc.modifyAt i (fun n => (p n).map (·, ()))).map Prod.fst).map fun inc => ({ t with inc } : Trans).withLists ms us := by
  simp only [Trans.mutate, Trans.withLists, h, if_true]
  cases t.inc.modifyAt i (fun n => (p n).map (·, ())) <;> rfl

omit [SetImpl] in
theorem Trans.update_lists {t : Trans} {i : NodeIndex} (ms us : List (NodeIndex × Closure)) (p : Closure) (h : t.inc.contains i = true) :
    (t.withLists ms us).update i p = (t.inc.updateWith i p).map fun inc => ({ t with inc } : Trans).withLists ms us := by
  simp only [Trans.update, Trans.withLists, h, if_true]
  cases t.inc.updateWith i p <;> rfl

omit [SetImpl] in
theorem OneRun.now {α : Type} {f : EClosure σ} {pure : Closure → Except Panic α} {s : σ} {res : Except Panic α × σ} (h : OneRun f pure s res) :
    pure (fun n => (f n s).1) = res.1 := by
  rcases h with ⟨n, _, h⟩ | ⟨_, _, h⟩
  · exact h _ rfl
  · exact h _

omit [SetImpl] in
theorem behaves_now (f : EClosure σ) (s : σ) : Behaves f (fun n => (f n s).1) := fun _ => ⟨s, rfl⟩

omit [SetImpl] in
theorem Spec.Behaves.typed {f : EClosure σ} {p : Closure} (h : Behaves f p) (ht : ETyped S f) : p.Typed S := by
  intro n n' hn hp
  obtain ⟨s, hs⟩ := h n
  exact ht n n' s hn (hs ▸ hp)

omit [SetImpl] in
theorem forall₂_snoc {α β : Type} {R : α → β → Prop} {l : List α} {a : α} {l' : List β} (h : List.Forall₂ R (l ++ [a]) l') :
    ∃ m b, l' = m ++ [b] ∧ List.Forall₂ R l m ∧ R a b := by
  induction l generalizing l' with
  | nil =>
    cases h with
    | cons h1 h2 =>
      cases h2
      exact ⟨[], _, rfl, .nil, h1⟩
  | cons x l ih =>
    cases h with
    | cons h1 h2 =>
      obtain ⟨m, b, rfl, h3, h4⟩ := ih h2
      exact ⟨_ :: m, b, rfl, .cons h1 h3, h4⟩

/-- A method of transaction `k` that hands out no index. -/
theorem exec_op_quiet {ew : EWorld σ} {w' : World} {k c : Nat} {x : Ctx} {o : TOp} {t : Trans} (hx : ew.world.ctx c = some x) :
    (ew.back w' k (some (c, t))).exec S dbg (.op k o) = match o.run t x.cnt with
      | .ok (t', cnt, l) => ⟨World.put ew.world.ctx c (some { x with cnt }), ew.world.graph, World.put w'.trans k (some (c, t')), World.put ew.world.issued c (ew.world.issued c ++ l)⟩
      | .error _ => ⟨ew.world.ctx, ew.world.graph, World.put w'.trans k none, ew.world.issued⟩ := by
  simp only [World.exec, EWorld.back, World.put_at, hx]
  cases o.run t x.cnt with
  | error e => simp only [World.setTrans, World.put_put]
  | ok r => simp only [World.setTrans, World.issue, World.put_put]

omit [SetImpl] in
theorem ctx_same {w : World} {c : Nat} {x : Ctx} (hx : w.ctx c = some x) : World.put w.ctx c (some { x with cnt := x.cnt }) = w.ctx :=
  World.put_same _ _ _ hx

omit [SetImpl] in
theorem issued_same (w : World) (c : Nat) : World.put w.issued c (w.issued c ++ []) = w.issued := World.put_same _ _ _ (by simp)

/-- A closure that runs at once. -/
theorem mirror_ran {ew : EWorld σ} {w' : World} {e : ECall σ} {k c : Nat} {t : Trans} {x : Ctx} {o : TOp} {q : Except Panic Arena × σ}
    (hk : ew.world.trans k = some (c, t)) (hx : ew.world.ctx c = some x) (he : ew.exec S dbg e = ew.ran k c t q) (hi : Image e (.op k o))
    (ho : ∀ t', o.Allowed S t')
    (hr : ∀ ms us, o.run (t.withLists ms us) x.cnt = (q.1.map fun inc => (({ t with inc } : Trans).withLists ms us, x.cnt, []))) (h : Shadow (ew.exec S dbg e) w') :
    Mirrored S dbg ew e w' := by
  have h2 := h.trans k
  have h3 := h.ctx
  have h4 := h.graph
  have h5 := h.issued
  have allowed : ∀ v, Call.Allowed S (ew.back w' k v) (.op k o) := fun v a t' _ => ho t'
  rw [he] at h2 h3 h4 h5
  obtain ⟨_ | inc, s'⟩ := q
  · simp only [EWorld.ran, World.setTrans, World.put_at] at h2 h3 h4 h5
    obtain ⟨v, hv⟩ := Poses.ex (some (c, t)) (ew.pend k) ew.env
    obtain ⟨ms, us, rfl, _, _⟩ := hv.get
    refine mirror_trans (k := k) (v := some (c, t.withLists ms us)) h (fun j _ => by rw [he]; rfl) (fun j hj => ?_) (by rw [hk]; exact hv) hi (allowed _) ?_
    · rw [he]
      exact World.put_ne _ _ hj
    · rw [exec_op_quiet hx, hr]
      exact World.ext' h3.symm h4.symm (World.put_same _ _ _ h2.nil) h5.symm
  · simp only [EWorld.ran, World.setTrans, World.put_at] at h2 h3 h4 h5
    obtain ⟨ms, us, h6, h7, h8⟩ := h2.get
    refine mirror_trans (k := k) (v := some (c, t.withLists ms us)) h (fun j _ => by rw [he]; rfl) (fun j hj => ?_)
      (by rw [hk]; exact ⟨rfl, ms, us, rfl, h7, h8⟩) hi (allowed _) ?_
    · rw [he]
      exact World.put_ne _ _ hj
    · rw [exec_op_quiet hx, hr]
      simp only [Except.map, ctx_same hx, issued_same]
      exact World.ext' h3.symm h4.symm (World.put_same _ _ _ h6) h5.symm

theorem mirror_mutate {ew : EWorld σ} {w' : World} {k : Nat} {i : NodeIndex} {f : EClosure σ} (hw : ew.world.Owned) (hf : ETyped S f)
    (h : Shadow (ew.exec S dbg (.mutate k i f)) w') : Mirrored S dbg ew (.mutate k i f) w' := by
  cases hk : ew.world.trans k with
  | none =>
    have : ew.exec S dbg (.mutate k i f) = ew := by simp only [EWorld.exec, hk]
    exact Or.inl (this ▸ h)
  | some p =>
    obtain ⟨c, t⟩ := p
    obtain ⟨x, hx⟩ := Option.ne_none_iff_exists'.1 (hw k c t hk)
    by_cases hc : t.inc.contains i = true
    · refine mirror_ran (o := .mutate i fun n => (f n ew.env).1) (q := t.inc.modifyAtE i f ew.env) hk hx (by simp only [EWorld.exec, hk, hc, if_true])
        (.mutate (behaves_now f _)) (fun _ => Behaves.typed (behaves_now f _) hf) (fun ms us => ?_) h
      have := (Arena.modifyAtE_run t.inc i f ew.env).now
      simp only at this
      simp only [TOp.run, Trans.mutate_lists ms us _ hc, this]
      cases (t.inc.modifyAtE i f ew.env).1 <;> rfl
    · have he : ew.exec S dbg (.mutate k i f) = { ew with pend := World.put ew.pend k { ew.pend k with muts := (ew.pend k).muts ++ [(i, f)] } } := by
        simp only [EWorld.exec, hk, hc, if_false, Bool.false_eq_true]
      have h2 := h.trans k
      have h3 := h.ctx
      have h4 := h.graph
      have h5 := h.issued
      rw [he] at h2 h3 h4 h5
      simp only [World.put_at, hk] at h2 h3 h4 h5
      obtain ⟨ms', us, h6, h7, h8⟩ := h2.get
      obtain ⟨ms, ⟨i', p⟩, rfl, h9, h10⟩ := forall₂_snoc h7
      obtain ⟨rfl, hp⟩ : i' = i ∧ Behaves f p := h10
      refine mirror_trans (k := k) (v := some (c, t.withLists ms us)) h (fun j hj => by rw [he]; exact World.put_ne _ _ hj) (fun j _ => by rw [he])
        (by rw [hk]; exact ⟨rfl, ms, us, rfl, h9, h8⟩) (.mutate hp) (fun _ _ _ => Behaves.typed hp hf) ?_
      rw [exec_op_quiet hx]
      simp only [TOp.run, Trans.mutate, Trans.withLists, hc, if_false, Except.map, ctx_same hx, issued_same, Bool.false_eq_true]
      exact World.ext' h3.symm h4.symm (World.put_same _ _ _ h6) h5.symm

theorem mirror_update {ew : EWorld σ} {w' : World} {k : Nat} {i : NodeIndex} {f : EClosure σ} (hw : ew.world.Owned) (hf : ETyped S f)
    (h : Shadow (ew.exec S dbg (.update k i f)) w') : Mirrored S dbg ew (.update k i f) w' := by
  cases hk : ew.world.trans k with
  | none =>
    have : ew.exec S dbg (.update k i f) = ew := by simp only [EWorld.exec, hk]
    exact Or.inl (this ▸ h)
  | some p =>
    obtain ⟨c, t⟩ := p
    obtain ⟨x, hx⟩ := Option.ne_none_iff_exists'.1 (hw k c t hk)
    by_cases hc : t.inc.contains i = true
    · refine mirror_ran (o := .update i fun n => (f n ew.env).1) (q := t.inc.updateWithE i f ew.env) hk hx (by simp only [EWorld.exec, hk, hc, if_true])
        (.update (behaves_now f _)) (fun _ => Behaves.typed (behaves_now f _) hf) (fun ms us => ?_) h
      have := (Arena.updateWithE_run t.inc i f ew.env).now
      simp only [TOp.run, Trans.update_lists ms us _ hc, this]
      cases (t.inc.updateWithE i f ew.env).1 <;> rfl
    · have he : ew.exec S dbg (.update k i f) = { ew with pend := World.put ew.pend k { ew.pend k with upds := (ew.pend k).upds ++ [(i, f)] } } := by
        simp only [EWorld.exec, hk, hc, if_false, Bool.false_eq_true]
      have h2 := h.trans k
      have h3 := h.ctx
      have h4 := h.graph
      have h5 := h.issued
      rw [he] at h2 h3 h4 h5
      simp only [World.put_at, hk] at h2 h3 h4 h5
      obtain ⟨ms, us', h6, h7, h8⟩ := h2.get
      obtain ⟨us, ⟨i', p⟩, rfl, h9, h10⟩ := forall₂_snoc h8
      obtain ⟨rfl, hp⟩ : i' = i ∧ Behaves f p := h10
      refine mirror_trans (k := k) (v := some (c, t.withLists ms us)) h (fun j hj => by rw [he]; exact World.put_ne _ _ hj) (fun j _ => by rw [he])
        (by rw [hk]; exact ⟨rfl, ms, us, rfl, h7, h9⟩) (.update hp) (fun _ _ _ => Behaves.typed hp hf) ?_
      rw [exec_op_quiet hx]
      simp only [TOp.run, Trans.update, Trans.withLists, hc, if_false, Except.map, ctx_same hx, issued_same, Bool.false_eq_true]
      exact World.ext' h3.symm h4.symm (World.put_same _ _ _ h6) h5.symm

/-! ### Commits -/

/-- What the closures do in the states in which they are called. -/
def chosen : List (EClosure σ) → List (Ran σ) → σ → List Closure
  | [], _, _ => []
  | f :: fs, [], s => (fun n => (f n s).1) :: chosen fs [] s
  | f :: fs, r :: l, s => (fun n => (f n s).1) :: chosen fs l (f r.node s).2

omit [SetImpl] in
theorem chosen_behaves (fs : List (EClosure σ)) : ∀ (l : List (Ran σ)) (s : σ), List.Forall₂ Behaves fs (chosen fs l s) := by
  induction fs with
  | nil => exact fun _ _ => .nil
  | cons f fs ih =>
    intro l s
    cases l with
    | nil => exact .cons (behaves_now f s) (ih _ _)
    | cons r l => exact .cons (behaves_now f s) (ih _ _)

omit [SetImpl] in
theorem chosen_reproduces (fs : List (EClosure σ)) : ∀ (l : List (Ran σ)) (s s' : σ), l.map (·.fn) <+: fs → Played l s s' → Reproduces (chosen fs l s) l := by
  induction fs with
  | nil =>
    intro l s s' h1 h2
    cases l with
    | nil => trivial
    | cons r l => simp at h1
  | cons f fs ih =>
    intro l s s' h1 h2
    cases l with
    | nil => trivial
    | cons r l =>
      simp only [List.map_cons, List.cons_prefix_cons] at h1
      obtain ⟨rfl, h1⟩ := h1
      obtain ⟨s1, h3, h4⟩ := h2
      refine ⟨by simp only [h3], ?_⟩
      have : (r.fn r.node s).2 = s1 := by rw [h3]
      rw [this]
      exact ih l s1 s' h1 h4

omit [SetImpl] in
theorem zip_behaves {l : List (NodeIndex × EClosure σ)} {ps : List Closure} (h : List.Forall₂ Behaves (l.map Prod.snd) ps) :
    List.Forall₂ (fun e p => p.1 = e.1 ∧ Behaves e.2 p.2) l ((l.map Prod.fst).zip ps) := by
  induction l generalizing ps with
  | nil => exact .nil
  | cons e l ih =>
    cases h with
    | cons h1 h2 => exact .cons ⟨rfl, h1⟩ (ih h2)

omit [SetImpl] in
/-- Behaviours with which the commit does the same. -/
theorem CommitCalls.pick {α : Type} {p : Pend σ} {pure : List Closure → List Closure → Except Panic α} {s : σ} {res : Except Panic α × σ}
    {l : List (Ran σ)} (h : CommitCalls p pure s res l) : ∃ ms us, pure ms us = res.1 ∧
      List.Forall₂ (fun e p => p.1 = e.1 ∧ Behaves e.2 p.2) p.muts ((p.muts.map Prod.fst).zip ms) ∧
      List.Forall₂ (fun e p => p.1 = e.1 ∧ Behaves e.2 p.2) p.upds ((p.upds.map Prod.fst).zip us) := by
  have h1 := chosen_reproduces _ l s _ h.called h.played
  have h2 := chosen_behaves ((p.muts ++ p.upds).map Prod.snd) l s
  generalize chosen ((p.muts ++ p.upds).map Prod.snd) l s = ps at h1 h2
  have hl := h2.length_eq
  simp only [List.length_map, List.length_append] at hl
  rw [List.map_append] at h2
  obtain ⟨ms, us, h3, h4, rfl⟩ : ∃ ms us, List.Forall₂ Behaves (p.muts.map Prod.snd) ms ∧ List.Forall₂ Behaves (p.upds.map Prod.snd) us ∧ ps = ms ++ us := by
    have e := List.take_append_drop p.muts.length ps
    have h3 := List.forall₂_take p.muts.length h2
    have h4 := List.forall₂_drop p.muts.length h2
    rw [List.take_left' (by simp)] at h3
    rw [List.drop_left' (by simp)] at h4
    exact ⟨_, _, h3, h4, e.symm⟩
  exact ⟨ms, us, h.same ms us (by simpa using h3.length_eq.symm) (by simpa using h4.length_eq.symm) h1, zip_behaves h3, zip_behaves h4⟩

/-- A commit. -/
theorem mirror_committed {ew : EWorld σ} {w' : World} {e : ECall σ} {call : Call} {g k a c : Nat} {t : Trans}
    {com : Trans → Except Panic Graph} {q : Except Panic Graph × σ} {l : List (Ran σ)}
    (hk : ew.world.trans k = some (a, t)) (he : ew.exec S dbg e = ew.committed g k c q) (hi : Image e call)
    (hc : CommitCalls (ew.pend k) (fun ms us => com (withClosures t (ew.pend k) ms us)) ew.env q l)
    (ha : ∀ t', Call.Allowed S (ew.back w' k (some (a, t'))) call)
    (hx : ∀ t', (ew.back w' k (some (a, t'))).exec S dbg call = match com t' with
      | .ok gr' => ((ew.back w' k (some (a, t'))).setTrans k none).setGraph g (some (c, gr'))
      | .error _ => ((ew.back w' k (some (a, t'))).setTrans k none).setGraph g none)
    (h : Shadow (ew.exec S dbg e) w') : Mirrored S dbg ew e w' := by
  obtain ⟨ms, us, h1, h6, h7⟩ := hc.pick
  have h2 := h.trans k
  have h3 := h.ctx
  have h4 := h.graph
  have h5 := h.issued
  rw [he] at h2 h3 h4 h5
  have others : ∀ j, j ≠ k → (ew.exec S dbg e).world.trans j = ew.world.trans j := by
    intro j hj
    rw [he]
    obtain ⟨_ | _, _⟩ := q <;> exact World.put_ne _ _ hj
  have pends : ∀ j, (ew.exec S dbg e).pend j = ew.pend j := by
    intro j
    rw [he]
    obtain ⟨_ | _, _⟩ := q <;> rfl
  refine mirror_trans (k := k) (v := some (a, withClosures t (ew.pend k) ms us)) h (fun j _ => pends j) others
    (by rw [hk]; exact ⟨rfl, _, _, rfl, h6, h7⟩) hi (ha _) ?_
  rw [hx, h1]
  obtain ⟨_ | gr', s'⟩ := q
  · simp only [EWorld.committed, World.setTrans, World.setGraph, World.put_at] at h2 h3 h4 h5
    exact World.ext' h3.symm h4.symm (by simp only [World.setTrans, World.setGraph, EWorld.back, World.put_put]; exact World.put_same _ _ _ h2.nil) h5.symm
  · simp only [EWorld.committed, World.setTrans, World.setGraph, World.put_at] at h2 h3 h4 h5
    exact World.ext' h3.symm h4.symm (by simp only [World.setTrans, World.setGraph, EWorld.back, World.put_put]; exact World.put_same _ _ _ h2.nil) h5.symm

theorem mirror_step {ew : EWorld σ} {w' : World} {e : ECall σ} (hw : ew.world.Owned) (ha : EAllowed S ew e) (h : Shadow (ew.exec S dbg e) w') :
    Mirrored S dbg ew e w' := by
  cases e with
  | think f => exact Or.inl ⟨h.ctx, h.graph, h.issued, h.trans⟩
  | plain c => exact mirror_plain ha.1 ha.2 h
  | mutate k i f => exact mirror_mutate hw ha h
  | update k i f => exact mirror_update hw ha h
  | commit g k =>
    cases hk : ew.world.trans k with
    | none =>
      have : ew.exec S dbg (.commit g k) = ew := by simp only [EWorld.exec, hk]
      exact Or.inl (this ▸ h)
    | some p =>
      obtain ⟨a, t⟩ := p
      cases hg : ew.world.graph g with
      | none =>
        have : ew.exec S dbg (.commit g k) = ew := by simp only [EWorld.exec, hk, hg]
        exact Or.inl (this ▸ h)
      | some q =>
        obtain ⟨c, gr⟩ := q
        obtain ⟨l, hl⟩ := Graph.commitE_calls S dbg gr t (ew.pend k) ew.env
        refine mirror_committed (com := fun t' => gr.commit S dbg t') (g := g) (c := c) hk (by simp only [EWorld.exec, hk, hg]) (.commit g k) hl (fun t' => ?_) (fun t' => ?_) h
        · intro a1 t1 c1 gr1 h1 h2
          simp only [EWorld.back, World.put_at, Option.some.injEq, Prod.mk.injEq, hg] at h1 h2
          exact h1.1 ▸ h2.1 ▸ ha a t c gr hk hg
        · have h1 : (ew.back w' k (some (a, t'))).trans k = some (a, t') := World.put_at _ _ _
          have h2 : (ew.back w' k (some (a, t'))).graph g = some (c, gr) := hg
          simp only [World.exec, h1, h2]
          cases gr.commit S dbg t' <;> rfl
  | commitChecked g k cs =>
    cases hk : ew.world.trans k with
    | none =>
      have : ew.exec S dbg (.commitChecked g k cs) = ew := by simp only [EWorld.exec, hk]
      exact Or.inl (this ▸ h)
    | some p =>
      obtain ⟨a, t⟩ := p
      cases hg : ew.world.graph g with
      | none =>
        have : ew.exec S dbg (.commitChecked g k cs) = ew := by simp only [EWorld.exec, hk, hg]
        exact Or.inl (this ▸ h)
      | some q =>
        obtain ⟨c, gr⟩ := q
        obtain ⟨l, hl⟩ := Graph.commitCheckedE_calls S dbg gr t (ew.pend k) cs ew.env
        refine mirror_committed (com := fun t' => gr.commitChecked S dbg t' cs) (g := g) (c := c) hk (by simp only [EWorld.exec, hk, hg]) (.commitChecked g k cs) hl (fun t' => ?_) (fun t' => ?_) h
        · intro a1 t1 c1 gr1 h1 h2
          simp only [EWorld.back, World.put_at, Option.some.injEq, Prod.mk.injEq, hg] at h1 h2
          exact h1.1 ▸ h2.1 ▸ ha a t c gr hk hg
        · have h1 : (ew.back w' k (some (a, t'))).trans k = some (a, t') := World.put_at _ _ _
          have h2 : (ew.back w' k (some (a, t'))).graph g = some (c, gr) := hg
          simp only [World.exec, h1, h2]
          cases gr.commitChecked S dbg t' cs <;> rfl

/-- The shadows of a program with effectful closures are states of programs with closures that are functions. -/
theorem Spec.EReaches.shadow {R : World → Call → Prop} {s : σ} {ew : EWorld σ} (h : EReaches S dbg (Whatever R) s ew) :
    ∀ w, Shadow ew w → Reaches S dbg R w := by
  induction h with
  | init =>
    intro w hw
    have : w = World.init := by
      refine World.ext' hw.ctx hw.graph (funext fun k => ?_) hw.issued
      exact (hw.trans k).nil
    rw [this]
    exact .init
  | @step ew e hr ha hR ih =>
    intro w' hw'
    rcases mirror_step (EReaches.owned hr) ha hw' with h | ⟨w, c, h1, h2, h3, h4⟩
    · exact ih w' h
    · rw [← h4]
      exact .step (ih w h1) h3 (hR w c h1 h2)

omit [SetImpl] in
theorem Spec.Shadow.ex (ew : EWorld σ) : ∃ w, Shadow ew w := by
  have h : ∀ k, ∃ v, Poses (ew.world.trans k) (ew.pend k) v := fun k => Poses.ex _ _ ew.env
  exact ⟨⟨ew.world.ctx, ew.world.graph, fun k => (h k).choose, ew.world.issued⟩, rfl, rfl, rfl, fun k => (h k).choose_spec⟩

/-! ### Closures that run at once -/

omit [SetImpl] in
theorem Arena.modifyAtE_at {a : Arena} {i : NodeIndex} {n : Node} (h : a.get? i = some n) (f : EClosure σ) (s : σ) :
    (a.modifyAtE i f s).2 = (f n s).2 ∧ match (f n s).1 with
      | .ok n' => ∃ a', (a.modifyAtE i f s).1 = .ok a' ∧ ∀ j, a'.get? j = if i = j then some n' else a.get? j
      | .error e => (a.modifyAtE i f s).1 = .error e := by
  obtain ⟨d, hd, hc⟩ := Arena.get?_eq_some.1 h
  simp only [Arena.modifyAtE, hd, hc]
  rcases f n s with ⟨_ | n', s'⟩
  · exact ⟨rfl, rfl⟩
  · refine ⟨rfl, _, rfl, Arena.setCont_get? hd fun j => ?_⟩
    rw [OrderMap.get?_insert]

omit [SetImpl] in
theorem Arena.updateWithE_at {a : Arena} {i : NodeIndex} {n : Node} (h : a.get? i = some n) (f : EClosure σ) (s : σ) :
    (a.updateWithE i f s).2 = (f n s).2 ∧ match (f n s).1 with
      | .ok n' => ∃ a', (a.updateWithE i f s).1 = .ok a' ∧ ∀ j, a'.get? j = if i = j then some n' else a.get? j
      | .error e => (a.updateWithE i f s).1 = .error e := by
  obtain ⟨d, hd, hc⟩ := Arena.get?_eq_some.1 h
  simp only [Arena.updateWithE, hd, hc]
  rcases f n s with ⟨_ | n', s'⟩
  · exact ⟨rfl, rfl⟩
  · refine ⟨rfl, _, rfl, Arena.setCont_get? hd fun j => ?_⟩
    rw [OrderMap.get?_insert, OrderMap.get?_swapRemove]
    by_cases e : i = j <;> simp [e]

omit [SetImpl] in
theorem EWorld.ran_at {ew : EWorld σ} {k c : Nat} {t : Trans} {q : Except Panic Arena × σ} {f : EClosure σ} {n : Node} {i : NodeIndex}
    (h1 : q.2 = (f n ew.env).2)
    (h2 : match (f n ew.env).1 with
      | .ok n' => ∃ a', q.1 = .ok a' ∧ ∀ j, a'.get? j = if i = j then some n' else t.inc.get? j
      | .error e => q.1 = .error e) :
    (ew.ran k c t q).env = (f n ew.env).2 ∧ (ew.ran k c t q).pend = ew.pend ∧ match (f n ew.env).1 with
      | .ok n' => ∃ t', (ew.ran k c t q).world = ew.world.setTrans k (some (c, t')) ∧ t'.pending = { t.pending with new := upd t.pending.new i (some n') }
      | .error _ => (ew.ran k c t q).world = ew.world.setTrans k none := by
  obtain ⟨q1, q2⟩ := q
  simp only at h1 h2
  subst h1
  rcases hf : f n ew.env with ⟨e | n', s'⟩
  · rw [hf] at h2
    simp only at h2
    subst h2
    exact ⟨rfl, rfl, rfl⟩
  · rw [hf] at h2
    obtain ⟨a', rfl, ha⟩ := h2
    refine ⟨rfl, rfl, _, rfl, ?_⟩
    simp only [Trans.pending]
    congr 1
    funext j
    rw [ha, upd]
    by_cases e : i = j <;> simp [e, eq_comm]

end

end TTGraph
