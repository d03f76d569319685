import Verif.Spec.Form
import Verif.Spec.Undo
import Verif.Lemmas.Steady
import Verif.Lemmas.Pending
import Verif.Props.Transactions

/-!
# Building a transaction that inserts given nodes under given indices
-/

set_option autoImplicit false

namespace TTGraph
open Spec
variable [SetImpl] {S : Schema} {dbg : Bool} {R : World → Call → Prop}

/-- One call of a method that returns. -/
theorem reaches_op {w : World} {k c : Nat} {t t' : Trans} {x : Ctx} {cnt : Nat} {l : List NodeIndex} {o : TOp} (h : Reaches S dbg R w)
    (ht : w.trans k = some (c, t)) (hx : w.ctx c = some x) (ho : o.Allowed S t) (hR : R w (.op k o)) (hr : o.run t x.cnt = .ok (t', cnt, l)) :
    ∃ w', Reaches S dbg R w' ∧ w'.trans k = some (c, t') ∧ w'.ctx c = some { x with cnt } ∧ w'.graph = w.graph := by
  refine ⟨w.exec S dbg (.op k o), h.step (fun c' t1 h1 => ?_) hR, ?_⟩
  · rw [ht, Option.some.injEq, Prod.mk.injEq] at h1
    exact h1.2 ▸ ho
  · simp only [World.exec, ht, hx, hr]
    simp [World.setTrans, World.issue, World.put]

/-- The program has an empty graph and a transaction that inserts `new` and has allocated the indices after `lo` up to the counter. -/
structure Preparing (S : Schema) (dbg : Bool) (R : World → Call → Prop) (new : View) (lo cnt : Nat) (w : World) (t : Trans) : Prop where
  reaches : Reaches S dbg R w
  ctx : w.ctx 0 = some ⟨1, cnt⟩
  graph : w.graph 0 = some (0, Graph.new 1)
  trans : w.trans 0 = some (0, t)
  new : t.pending.new = new
  unfilled : ∀ i : Nat, t.pending.unfilled i ↔ lo < i ∧ i ≤ cnt
  only : OnlyInserts t.pending

/-- The calls that are made. -/
structure Permits (R : World → Call → Prop) : Prop where
  newContext : ∀ w, R w (.newContext 0 1)
  newGraph : ∀ w, R w (.newGraph 0 0)
  newTrans : ∀ w, R w (.newTrans 0 0)
  allocUntyped : ∀ w, R w (.op 0 .allocUntyped)
  fillBackUntyped : ∀ w i n, R w (.op 0 (.fillBackUntyped i n))
  remove : ∀ w i, R w (.op 0 (.remove i))

theorem preparing_start (hR : Permits R) : ∃ w t, Preparing S dbg R (fun _ => none) 0 0 w t := by
  refine ⟨_, Trans.new 1, ((Reaches.init.step (c := .newContext 0 1) ?_ (hR.newContext _)).step (c := .newGraph 0 0) ?_ (hR.newGraph _)).step
    (c := .newTrans 0 0) ?_ (hR.newTrans _), rfl, rfl, rfl, ?_, ?_, ?_⟩
  · exact ⟨rfl, by simp, fun _ _ h => absurd h (by simp [World.init])⟩
  · rfl
  · rfl
  · rfl
  · intro i
    constructor
    · intro h; exact absurd h (by simp [Trans.pending, Trans.new])
    · omega
  · exact ⟨fun i h => absurd h (by simp [Trans.pending, Trans.new]), rfl, rfl, rfl, rfl⟩

theorem Preparing.building {new : View} {lo cnt : Nat} {w : World} {t : Trans} (h : Preparing S dbg R new lo cnt w t) : Building S dbg R t cnt :=
  ⟨w, 0, 0, _, h.reaches, h.trans, h.ctx, rfl⟩

/-- A further index. -/
theorem Preparing.alloc (hw : WellNamed S) (hR : Permits R) {new : View} {lo cnt : Nat} {w : World} {t : Trans} (hlo : lo ≤ cnt)
    (h : Preparing S dbg R new lo cnt w t) : ∃ w' t', Preparing S dbg R new lo (cnt + 1) w' t' := by
  have hr : TOp.run t cnt .allocUntyped = .ok ((t.allocUntyped cnt).2.1, cnt + 1, [cnt + 1]) := rfl
  obtain ⟨w', h1, h2, h3, h4⟩ := reaches_op h.reaches h.trans h.ctx (show TOp.Allowed S t .allocUntyped from trivial) (hR.allocUntyped w) hr
  obtain ⟨i, hi, _, _, he⟩ := C45_effect hw h.building (show TOp.Allowed S t .allocUntyped from trivial) hr
  simp only [List.cons.injEq, and_true] at hi
  subst hi
  refine ⟨w', _, h1, h3, by rw [h4]; exact h.graph, h2, ?_, fun j => ?_, ?_⟩
  · rw [he]; exact h.new
  · rw [he]
    show j = cnt + 1 ∨ t.pending.unfilled j ↔ _
    rw [h.unfilled]
    omega
  · rw [he]
    exact ⟨h.only.removed, h.only.redir, h.only.redirAll, h.only.muts, h.only.upds⟩

theorem Preparing.allocs (hw : WellNamed S) (hR : Permits R) (N : Nat) : ∃ w t, Preparing S dbg R (fun _ => none) 0 N w t := by
  induction N with
  | zero => exact preparing_start hR
  | succ N ih =>
    obtain ⟨w, t, h⟩ := ih
    exact h.alloc hw hR (Nat.zero_le _)

omit [SetImpl] in
theorem upTo_succ (v : View) {i j : Nat} (e : i ≠ j + 1) : (if i ≤ j then v i else none) = if i ≤ j + 1 then v i else none := by
  by_cases h : i ≤ j
  · rw [if_pos h, if_pos (by omega)]
  · rw [if_neg h, if_neg (by omega)]

/-- The next allocated index is filled or given up. -/
theorem Preparing.fill (hw : WellNamed S) (hR : Permits R) {v : View} (hv : ∀ x n, v x = some n → S.WT n) {j N : Nat} {w : World} {t : Trans}
    (hj : j < N) (h : Preparing S dbg R (fun i : Nat => if i ≤ j then v i else none) j N w t) :
    ∃ w' t', Preparing S dbg R (fun i : Nat => if i ≤ j + 1 then v i else none) (j + 1) N w' t' := by
  have hu : t.pending.unfilled (j + 1) := (h.unfilled (j + 1)).2 ⟨by omega, by omega⟩
  have hn : t.pending.new (j + 1) = none := by rw [h.new]; exact if_neg (by omega)
  have hunf : ∀ i : Nat, (t.pending.unfilled i ∧ i ≠ j + 1) ↔ j + 1 < i ∧ i ≤ N := fun i => by
    rw [h.unfilled]; omega
  cases hx : v (j + 1) with
  | none =>
    have hr : TOp.run t N (.remove (j + 1)) = .ok (t.remove (j + 1), N, []) := rfl
    obtain ⟨w', h1, h2, h3, h4⟩ := reaches_op h.reaches h.trans h.ctx (show TOp.Allowed S t (.remove (j + 1)) from trivial) (hR.remove w _) hr
    obtain ⟨_, he⟩ := C45_effect hw h.building (show TOp.Allowed S t (.remove (j + 1)) from trivial) hr
    rcases he with ⟨hne, _⟩ | ⟨_, _, he⟩ | ⟨_, hne, _⟩
    · exact absurd hn hne
    · refine ⟨w', _, h1, h3, by rw [h4]; exact h.graph, h2, ?_, fun i => ?_, ?_⟩
      · rw [he]
        show t.pending.new = _
        rw [h.new]
        funext i
        by_cases e : @Eq Nat i (j + 1)
        · subst e
          rw [if_neg (by omega), if_pos (by omega), hx]
        · exact upTo_succ v e
      · rw [he]; exact hunf i
      · rw [he]
        exact ⟨h.only.removed, h.only.redir, h.only.redirAll, h.only.muts, h.only.upds⟩
    · exact absurd hu hne
  | some n =>
    have ha : TOp.Allowed S t (.fillBackUntyped (j + 1) n) := ⟨hv _ n hx, hu⟩
    cases hr : TOp.run t N (.fillBackUntyped (j + 1) n) with
    | error e =>
      rcases C45_panics hw h.building ha hr with ⟨_, _, h1, _⟩ | ⟨_, _, _, h1 | h1, _⟩ <;> exact absurd h1 (by simp)
    | ok r =>
      obtain ⟨t', cnt, l⟩ := r
      obtain rfl : cnt = N := by
        simp only [TOp.run] at hr
        cases hf : t.fillBackUntyped (j + 1) n with
        | error e => rw [hf] at hr; exact absurd hr (by simp [Except.map])
        | ok t1 =>
          rw [hf] at hr
          simp only [Except.map, Except.ok.injEq, Prod.mk.injEq] at hr
          exact hr.2.1.symm
      obtain ⟨w', h1, h2, h3, h4⟩ := reaches_op h.reaches h.trans h.ctx ha (hR.fillBackUntyped w _ _) hr
      obtain ⟨_, _, he⟩ := C45_effect hw h.building ha hr
      refine ⟨w', _, h1, h3, by rw [h4]; exact h.graph, h2, ?_, fun i => ?_, ?_⟩
      · rw [he]
        show upd t.pending.new (j + 1) (some n) = _
        rw [h.new]
        funext i
        by_cases e : @Eq Nat i (j + 1)
        · subst e
          rw [if_pos (by omega), hx]
          exact if_pos rfl
        · exact (if_neg e).trans (upTo_succ v e)
      · rw [he]; exact hunf i
      · rw [he]
        exact ⟨h.only.removed, h.only.redir, h.only.redirAll, h.only.muts, h.only.upds⟩

/-- A transaction that inserts the nodes of `v`, all of whose indices are filled. -/
theorem preparing_all (hw : WellNamed S) (hR : Permits R) {v : View} (hv : ∀ x n, v x = some n → S.WT n) {N : Nat}
    (hN : ∀ x : Nat, v x ≠ none → x ≠ emptyIdx ∧ x ≤ N) : ∃ w t, Preparing S dbg R v N N w t := by
  have key : ∀ j ≤ N, ∃ w t, Preparing S dbg R (fun i : Nat => if i ≤ j then v i else none) j N w t := by
    intro j
    induction j with
    | zero =>
      intro _
      obtain ⟨w, t, h⟩ := Preparing.allocs (S := S) (dbg := dbg) hw hR N
      refine ⟨w, t, ?_⟩
      have e : (fun i : Nat => if i ≤ 0 then v i else none) = fun _ => none := by
        funext i
        split
        · next h0 =>
          obtain rfl : i = 0 := by omega
          by_contra hne
          exact (hN 0 hne).1 rfl
        · rfl
      rw [e]
      exact h
    | succ j ih =>
      intro hj
      obtain ⟨w, t, h⟩ := ih (by omega)
      exact h.fill hw hR hv (by omega)
  obtain ⟨w, t, h⟩ := key N (Nat.le_refl N)
  have e : (fun i : Nat => if i ≤ N then v i else none) = v := by
    funext i
    split
    · rfl
    · next h0 =>
      by_contra hne
      exact h0 (hN i (Ne.symm hne)).2
  rw [e] at h
  exact ⟨w, t, h⟩

end TTGraph
