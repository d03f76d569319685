import Verif.Spec.Parts

/-!
# Calls of one part do not touch the others
-/

set_option autoImplicit false

namespace TTGraph
open Spec

/-- Graphs and transactions belong to the part of their context. -/
structure Apart (o : Parts) (w : World) : Prop where
  graph : ∀ k c g, w.graph k = some (c, g) → o.ctx c = o.graph k
  trans : ∀ k c t, w.trans k = some (c, t) → o.ctx c = o.trans k

theorem Apart.init (o : Parts) : Apart o World.init := ⟨fun _ _ _ h => absurd h (by simp [World.init]), fun _ _ _ h => absurd h (by simp [World.init])⟩

theorem put_apart {α : Type} {f : Nat → Option (Nat × α)} {p q : Nat → Nat} (h : ∀ k c g, f k = some (c, g) → p c = q k) (j : Nat)
    {v : Option (Nat × α)} (hv : ∀ c g, v = some (c, g) → p c = q j) (k c : Nat) (g : α) (e : World.put f j v k = some (c, g)) : p c = q k := by
  by_cases ek : k = j
  · subst ek
    simp only [World.put, if_true] at e
    exact hv _ _ e
  · simp only [World.put, ek, if_false] at e
    exact h _ _ _ e

theorem put_part {α : Type} {f f2 : Nat → α} {q : Nat → Nat} {i : Nat} (h : ∀ k, q k = i → f2 k = f k) (j : Nat) (v : α) (k : Nat) (hk : q k = i) :
    World.put f2 j v k = World.put f j v k := by
  simp only [World.put, h k hk]

theorem put_other {α : Type} {f : Nat → α} {q : Nat → Nat} {i j : Nat} (hj : q j ≠ i) (v : α) (k : Nat) (hk : q k = i) : World.put f j v k = f k := by
  have : k ≠ j := by rintro rfl; exact hj hk
  simp only [World.put, this, if_false]

theorem Spec.SamePart.refl (o : Parts) (i : Nat) (w : World) : SamePart o i w w := ⟨fun _ _ => rfl, fun _ _ => rfl, fun _ _ => rfl, fun _ _ => rfl⟩

theorem Spec.SamePart.symm {o : Parts} {i : Nat} {w w2 : World} (h : SamePart o i w w2) : SamePart o i w2 w :=
  ⟨fun c e => (h.ctx c e).symm, fun c e => (h.issued c e).symm, fun c e => (h.graph c e).symm, fun c e => (h.trans c e).symm⟩

theorem Spec.SamePart.comp {o : Parts} {i : Nat} {w w2 w3 : World} (h : SamePart o i w w2) (h' : SamePart o i w2 w3) : SamePart o i w w3 :=
  ⟨fun c e => (h'.ctx c e).trans (h.ctx c e), fun c e => (h'.issued c e).trans (h.issued c e), fun c e => (h'.graph c e).trans (h.graph c e),
    fun c e => (h'.trans c e).trans (h.trans c e)⟩

section
variable {o : Parts} {i : Nat} {w w2 : World}

theorem Spec.SamePart.setGraph (h : SamePart o i w w2) (g : Nat) (v : Option (Nat × Graph)) : SamePart o i (w.setGraph g v) (w2.setGraph g v) :=
  ⟨h.ctx, h.issued, put_part h.graph g v, h.trans⟩

theorem Spec.SamePart.setTrans (h : SamePart o i w w2) (g : Nat) (v : Option (Nat × Trans)) : SamePart o i (w.setTrans g v) (w2.setTrans g v) :=
  ⟨h.ctx, h.issued, h.graph, put_part h.trans g v⟩

theorem Spec.SamePart.addCtx (h : SamePart o i w w2) (c u n : Nat) : SamePart o i (w.addCtx c u n) (w2.addCtx c u n) :=
  ⟨put_part h.ctx c _, h.issued, h.graph, h.trans⟩

theorem Spec.SamePart.issue (h : SamePart o i w w2) {c : Nat} (hc : o.ctx c = i) (x : Ctx) (n : Nat) (l : List NodeIndex) :
    SamePart o i (w.issue c x n l) (w2.issue c x n l) :=
  ⟨put_part h.ctx c _, by
    intro k hk
    simp only [World.issue, h.issued c hc]
    exact put_part h.issued c _ k hk, h.graph, h.trans⟩

theorem other_setGraph {g : Nat} (hg : o.graph g ≠ i) (v : Option (Nat × Graph)) (w : World) : SamePart o i w (w.setGraph g v) :=
  ⟨fun _ _ => rfl, fun _ _ => rfl, put_other hg v, fun _ _ => rfl⟩

theorem other_setTrans {k : Nat} (hk : o.trans k ≠ i) (v : Option (Nat × Trans)) (w : World) : SamePart o i w (w.setTrans k v) :=
  ⟨fun _ _ => rfl, fun _ _ => rfl, fun _ _ => rfl, put_other hk v⟩

theorem other_addCtx {c : Nat} (hc : o.ctx c ≠ i) (u n : Nat) (w : World) : SamePart o i w (w.addCtx c u n) :=
  ⟨put_other hc _, fun _ _ => rfl, fun _ _ => rfl, fun _ _ => rfl⟩

theorem other_issue {c : Nat} (hc : o.ctx c ≠ i) (x : Ctx) (n : Nat) (l : List NodeIndex) (w : World) : SamePart o i w (w.issue c x n l) :=
  ⟨put_other hc _, put_other hc _, fun _ _ => rfl, fun _ _ => rfl⟩
end

section
variable [SetImpl] {S : Schema} {dbg : Bool} {o : Parts} {i : Nat} {w w2 : World}

/-- A call of the part has the same effect on the part, whatever the other parts are. -/
theorem Spec.SamePart.call (h : SamePart o i w w2) (ha : Apart o w) {a : Call} (hc : Within o i a) : SamePart o i (w.exec S dbg a) (w2.exec S dbg a) := by
  cases a with
  | newContext c u => exact h.addCtx c u 0
  | defaultContext c => exact h.addCtx c 0 0
  | newGraph g c =>
    simp only [World.exec, h.ctx c hc.2]
    split
    · exact h.setGraph _ _
    · exact h
  | newTrans k c =>
    simp only [World.exec, h.ctx c hc.2]
    split
    · exact h.setTrans _ _
    · exact h
  | op k op =>
    simp only [World.exec, h.trans k hc]
    split
    · rename_i c t ht
      have e : o.ctx c = i := (ha.trans _ _ _ ht).trans hc
      simp only [h.ctx c e]
      split
      · split
        · exact (h.issue e _ _ _).setTrans _ _
        · exact h.setTrans _ _
      · exact h
    · exact h
  | merge k g =>
    simp only [World.exec, h.trans k hc.1, h.graph g hc.2]
    split
    · split
      · exact (h.setTrans _ _).setGraph _ _
      · exact (h.setTrans _ _).setGraph _ _
    · exact h
  | commit g k =>
    simp only [World.exec, h.trans k hc.2, h.graph g hc.1]
    split
    · split
      · exact (h.setTrans _ _).setGraph _ _
      · exact (h.setTrans _ _).setGraph _ _
    · exact h
  | commitChecked g k ch =>
    simp only [World.exec, h.trans k hc.2, h.graph g hc.1]
    split
    · split
      · exact (h.setTrans _ _).setGraph _ _
      · exact (h.setTrans _ _).setGraph _ _
    · exact h
  | commitCaught g k =>
    simp only [World.exec, h.trans k hc.2, h.graph g hc.1]
    split
    · exact (h.setTrans _ _).setGraph _ _
    · exact h
  | dropTrans k => exact h.setTrans _ _
  | dropGraph g => exact h.setGraph _ _
  | switchContext g c =>
    simp only [World.exec, h.graph g hc.1, h.ctx c hc.2]
    split
    · split
      · exact h.setGraph _ _
      · split
        · exact (h.issue hc.2 _ _ _).setGraph _ _
        · exact (h.issue hc.2 _ _ _).setGraph _ _
    · exact h
  | deserialize g c f =>
    simp only [World.exec]
    split
    · exact (h.addCtx _ _ _).setGraph _ _
    · exact h

/-- A call of another part does not touch the part. -/
theorem other_call (ha : Apart o w) {a : Call} {j : Nat} (hc : Within o j a) (hj : j ≠ i) : SamePart o i w (w.exec S dbg a) := by
  cases a with
  | newContext c u => exact other_addCtx (by rw [show o.ctx c = j from hc]; exact hj) _ _ _
  | defaultContext c => exact other_addCtx (by rw [show o.ctx c = j from hc]; exact hj) _ _ _
  | newGraph g c =>
    simp only [World.exec]
    split
    · exact other_setGraph (by rw [hc.1]; exact hj) _ _
    · exact .refl _ _ _
  | newTrans k c =>
    simp only [World.exec]
    split
    · exact other_setTrans (by rw [hc.1]; exact hj) _ _
    · exact .refl _ _ _
  | op k op =>
    have hk : o.trans k ≠ i := by rw [show o.trans k = j from hc]; exact hj
    simp only [World.exec]
    split
    · rename_i c t ht
      split
      · split
        · exact (other_issue (by rw [ha.trans _ _ _ ht]; exact hk) _ _ _ _).comp (other_setTrans hk _ _)
        · exact other_setTrans hk _ _
      · exact .refl _ _ _
    · exact .refl _ _ _
  | merge k g =>
    have hk : o.trans k ≠ i := by rw [hc.1]; exact hj
    have hg : o.graph g ≠ i := by rw [hc.2]; exact hj
    simp only [World.exec]
    split
    · split <;> exact (other_setTrans hk _ _).comp (other_setGraph hg _ _)
    · exact .refl _ _ _
  | commit g k =>
    have hk : o.trans k ≠ i := by rw [hc.2]; exact hj
    have hg : o.graph g ≠ i := by rw [hc.1]; exact hj
    simp only [World.exec]
    split
    · split <;> exact (other_setTrans hk _ _).comp (other_setGraph hg _ _)
    · exact .refl _ _ _
  | commitChecked g k ch =>
    have hk : o.trans k ≠ i := by rw [hc.2]; exact hj
    have hg : o.graph g ≠ i := by rw [hc.1]; exact hj
    simp only [World.exec]
    split
    · split <;> exact (other_setTrans hk _ _).comp (other_setGraph hg _ _)
    · exact .refl _ _ _
  | commitCaught g k =>
    have hk : o.trans k ≠ i := by rw [hc.2]; exact hj
    have hg : o.graph g ≠ i := by rw [hc.1]; exact hj
    simp only [World.exec]
    split
    · exact (other_setTrans hk _ _).comp (other_setGraph hg _ _)
    · exact .refl _ _ _
  | dropTrans k => exact other_setTrans (by rw [show o.trans k = j from hc]; exact hj) _ _
  | dropGraph g => exact other_setGraph (by rw [show o.graph g = j from hc]; exact hj) _ _
  | switchContext g c =>
    have hg : o.graph g ≠ i := by rw [hc.1]; exact hj
    have hx : o.ctx c ≠ i := by rw [hc.2]; exact hj
    simp only [World.exec]
    split
    · split
      · exact other_setGraph hg _ _
      · split <;> exact (other_issue hx _ _ _ _).comp (other_setGraph hg _ _)
    · exact .refl _ _ _
  | deserialize g c f =>
    have hg : o.graph g ≠ i := by rw [hc.1]; exact hj
    have hx : o.ctx c ≠ i := by rw [hc.2]; exact hj
    simp only [World.exec]
    split
    · exact (other_addCtx hx _ _ _).comp (other_setGraph hg _ _)
    · exact .refl _ _ _

/-- Graphs and transactions stay in the part of their context. -/
theorem Apart.call (h : Apart o w) {a : Call} (hc : Within o i a) : Apart o (w.exec S dbg a) := by
  have no : ∀ {α : Type} {k : Nat} {q : Nat → Nat}, ∀ c (g : α), (none : Option (Nat × α)) = some (c, g) → o.ctx c = q k := fun _ _ e => absurd e (by simp)
  have set : ∀ {α : Type} {c0 : Nat} {g0 : α} {m : Nat}, o.ctx c0 = m → ∀ c (g : α), some (c0, g0) = some (c, g) → o.ctx c = m := by
    intro α c0 g0 m e c g e2
    simp only [Option.some.injEq, Prod.mk.injEq] at e2
    rw [← e2.1]
    exact e
  cases a with
  | newContext c u => exact ⟨h.graph, h.trans⟩
  | defaultContext c => exact ⟨h.graph, h.trans⟩
  | newGraph g c =>
    simp only [World.exec]
    split
    · exact ⟨put_apart h.graph _ (set (hc.2.trans hc.1.symm)), h.trans⟩
    · exact h
  | newTrans k c =>
    simp only [World.exec]
    split
    · exact ⟨h.graph, put_apart h.trans _ (set (hc.2.trans hc.1.symm))⟩
    · exact h
  | op k op =>
    simp only [World.exec]
    split
    · rename_i c t ht
      split
      · split
        · exact ⟨h.graph, put_apart h.trans _ (set (h.trans _ _ _ ht))⟩
        · exact ⟨h.graph, put_apart h.trans _ no⟩
      · exact h
    · exact h
  | merge k g =>
    simp only [World.exec]
    split
    · rename_i ht hg
      split
      · exact ⟨put_apart h.graph _ no, put_apart h.trans _ (set (h.trans _ _ _ ht))⟩
      · exact ⟨put_apart h.graph _ no, put_apart h.trans _ no⟩
    · exact h
  | commit g k =>
    simp only [World.exec]
    split
    · rename_i ht hg
      split
      · exact ⟨put_apart h.graph _ (set (h.graph _ _ _ hg)), put_apart h.trans _ no⟩
      · exact ⟨put_apart h.graph _ no, put_apart h.trans _ no⟩
    · exact h
  | commitChecked g k ch =>
    simp only [World.exec]
    split
    · rename_i ht hg
      split
      · exact ⟨put_apart h.graph _ (set (h.graph _ _ _ hg)), put_apart h.trans _ no⟩
      · exact ⟨put_apart h.graph _ no, put_apart h.trans _ no⟩
    · exact h
  | commitCaught g k =>
    simp only [World.exec]
    split
    · rename_i ht hg
      refine ⟨put_apart h.graph _ fun c' g' e => ?_, put_apart h.trans _ no⟩
      obtain ⟨x, _, e⟩ := Option.map_eq_some_iff.1 e
      rw [Prod.mk.injEq] at e
      rw [← e.1]
      exact h.graph _ _ _ hg
    · exact h
  | dropTrans k => exact ⟨h.graph, put_apart h.trans _ no⟩
  | dropGraph g => exact ⟨put_apart h.graph _ no, h.trans⟩
  | switchContext g c =>
    simp only [World.exec]
    split
    · split
      · exact ⟨put_apart h.graph _ no, h.trans⟩
      · split
        · exact ⟨put_apart h.graph _ (set (hc.2.trans hc.1.symm)), h.trans⟩
        · exact ⟨put_apart h.graph _ no, h.trans⟩
    · exact h
  | deserialize g c f =>
    simp only [World.exec]
    split
    · exact ⟨put_apart h.graph _ (set (hc.2.trans hc.1.symm)), h.trans⟩
    · exact h

/-- Whether a call of the part returns does not depend on the other parts. -/
theorem Spec.SamePart.returns (h : SamePart o i w w2) (ha : Apart o w) {a : Call} (hc : Within o i a) (hr : Returns S dbg w a) : Returns S dbg w2 a := by
  cases a with
  | newGraph g c => obtain ⟨x, hx⟩ := hr; exact ⟨x, (h.ctx c hc.2).trans hx⟩
  | newTrans g c => obtain ⟨x, hx⟩ := hr; exact ⟨x, (h.ctx c hc.2).trans hx⟩
  | op k op =>
    obtain ⟨c, t, x, r, h1, h2, h3⟩ := hr
    exact ⟨c, t, x, r, (h.trans k hc).trans h1, (h.ctx c ((ha.trans _ _ _ h1).trans hc)).trans h2, h3⟩
  | merge k g =>
    obtain ⟨c, t, c', gr, r, h1, h2, h3⟩ := hr
    exact ⟨c, t, c', gr, r, (h.trans k hc.1).trans h1, (h.graph g hc.2).trans h2, h3⟩
  | commit g k =>
    obtain ⟨c, t, c', gr, r, h1, h2, h3⟩ := hr
    exact ⟨c, t, c', gr, r, (h.trans k hc.2).trans h1, (h.graph g hc.1).trans h2, h3⟩
  | commitChecked g k ch =>
    obtain ⟨c, t, c', gr, r, h1, h2, h3⟩ := hr
    exact ⟨c, t, c', gr, r, (h.trans k hc.2).trans h1, (h.graph g hc.1).trans h2, h3⟩
  | switchContext g c =>
    obtain ⟨c', gr, x, r, h1, h2, h3⟩ := hr
    exact ⟨c', gr, x, r, (h.graph g hc.1).trans h1, (h.ctx c hc.2).trans h2, h3⟩
  | _ => exact hr

theorem parts_run {l : List (Nat × Call)} : ∀ {w w2 : World}, (∀ e ∈ l, Within o e.1 e.2) → Apart o w → Apart o w2 → SamePart o i w w2 →
    SamePart o i (execAll S dbg w (l.map Prod.snd)) (execAll S dbg w2 (callsOf i l)) ∧ Apart o (execAll S dbg w (l.map Prod.snd)) ∧
      Apart o (execAll S dbg w2 (callsOf i l)) := by
  induction l with
  | nil => exact fun _ h h2 h3 => ⟨h3, h, h2⟩
  | cons e l ih =>
    intro w w2 hl h h2 h3
    have hc := hl e (by simp)
    have hl' : ∀ e ∈ l, Within o e.1 e.2 := fun e he => hl e (List.mem_cons_of_mem _ he)
    by_cases he : e.1 = i
    · have e1 : callsOf i (e :: l) = e.2 :: callsOf i l := by simp [callsOf, he]
      rw [e1]
      rw [he] at hc
      exact ih hl' (h.call hc) (h2.call hc) (h3.call h hc)
    · have e1 : callsOf i (e :: l) = callsOf i l := by simp [callsOf, he]
      rw [e1]
      exact ih hl' (h.call hc) h2 ((other_call h hc he).symm.comp h3)
end
end TTGraph
