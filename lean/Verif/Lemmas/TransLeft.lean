import Verif.Model.TransLeft
import Verif.Props.Transactions

/-!
# What panicking methods of a transaction leave behind
-/

set_option autoImplicit false

namespace TTGraph
open Spec
variable [SetImpl] {S : Schema} {dbg : Bool} {R : World → Call → Prop}

omit [SetImpl] in
theorem OrderMap.insert_same {κ ν : Type} [DecidableEq κ] {m : OrderMap κ ν} {k : κ} {v : ν} (h : m.get? k = some v) : m.insert k v = m := by
  have key : ∀ l : List (κ × ν), alGet k l = some v → alSet k v l = l := by
    intro l
    induction l with
    | nil => exact fun h => absurd h (by simp [alGet])
    | cons e r ih =>
      obtain ⟨k', v'⟩ := e
      intro h
      by_cases hk : k' = k
      · subst hk
        simp only [alGet, if_true, Option.some.injEq] at h
        simp [alSet, h]
      · simp only [alGet, hk, if_false] at h
        simp [alSet, hk, ih h]
  obtain ⟨l, hl⟩ := m
  simp only [OrderMap.insert, OrderMap.mk.injEq]
  exact key l h

omit [SetImpl] in
/-- Filling an index that is taken leaves the transaction that replacing the node would leave. -/
theorem Trans.fill_left {t : Trans} {i : NodeIndex} {n m : Node} {d : Ident} (hd : t.inc.disp.get? i = some d)
    (hi : (t.inc.cont d).get? i = some n) :
    t.mutate i (fun _ => .ok m) = .ok { t with inc := t.inc.setCont d ((t.inc.cont d).insert i m) } := by
  have hg : t.inc.get? i = some n := by rw [Arena.get?_of_disp hd]; exact hi
  simp only [mutate, Arena.contains_eq, hg, Option.isSome_some, if_true, Arena.modifyAt, hd, hi, Except.map]

omit [SetImpl] in
theorem TOp.left_update (part : Node → Node) {t : Trans} {i : NodeIndex} {f : Closure} {n : Node} (hi : t.inc.get? i = some n) :
    (TOp.left part t (.update i f)).pending = { t.pending with new := upd t.pending.new i none } := by
  obtain ⟨d, hd, hc⟩ := Arena.get?_eq_some.1 hi
  simp only [TOp.left, hd, Trans.pending, Pending.mk.injEq, and_true]
  funext j
  simp only [upd, Arena.get?, Arena.setCont]
  by_cases hj : j = i
  · subst hj
    simp [hd, OrderMap.get?_swapRemove]
  · rw [if_neg hj]
    cases hdj : t.inc.disp.get? j with
    | none => simp
    | some d' =>
      simp only [Option.bind_some]
      by_cases hdd : d' = d
      · subst hdd
        simp only [if_true, OrderMap.get?_swapRemove]
        rw [if_neg (fun e => hj e.symm)]
      · simp only [hdd, if_false]

omit [SetImpl] in
/-- Which panics leave what: nothing has changed, or the transaction is the one that `mutate` with some node value leaves, or the node is gone. -/
theorem TOp.left_ready (part : Node → Node) {t : Trans} {cnt : Nat} {o : TOp} {e : Panic} (h1 : t.Ready S) (hr : o.run t cnt = .error e) :
    o.left part t = t ∨
    (∃ i n m, ((o = .fillBack i m ∨ o = .fillBackUntyped i m) ∨ (∃ f, o = .mutate i f) ∧ m = part n) ∧ t.pending.new i = some n ∧
      t.mutate i (fun _ => .ok m) = .ok (o.left part t)) ∨
    ∃ i f n, o = .update i f ∧ t.pending.new i = some n ∧ (o.left part t).pending = { t.pending with new := upd t.pending.new i none } := by
  have hinv := h1.good.inv
  cases o with
  | fillBack i n =>
    rcases Arena.fillBack_cases t.inc i n with ⟨hd, x⟩ | ⟨d, hd, hn, x⟩ | ⟨hd, hi, x⟩ | ⟨hd, hi, a', x, _⟩
    · exact .inl (by simp only [TOp.left, hd])
    · exact .inl (by simp only [TOp.left, hd]; rw [if_pos hn])
    · obtain ⟨m, hm⟩ := Option.ne_none_iff_exists'.1 hi
      refine .inr (.inl ⟨i, m, n, .inl (.inl rfl), hm, ?_⟩)
      rw [Arena.get?_of_disp hd] at hm
      rw [Trans.fill_left hd hm]
      simp only [TOp.left, hd, ne_eq, not_true_eq_false, if_false]
    · simp only [TOp.run, Trans.fillBack, x, Except.map] at hr
      exact absurd hr (by simp)
  | fillBackUntyped i n =>
    rcases Arena.fillBackUntyped_cases t.inc i n with ⟨hi, x⟩ | ⟨hi, x⟩
    · obtain ⟨m, hm⟩ := Option.ne_none_iff_exists'.1 hi
      have hd := hinv.home _ _ _ hm
      refine .inr (.inl ⟨i, m, n, .inl (.inr rfl), ?_, ?_⟩)
      · show t.inc.get? i = _
        rw [Arena.get?_of_disp hd]
        exact hm
      · rw [Trans.fill_left hd hm]
        simp only [TOp.left, OrderMap.insert_same hd]
    · simp only [TOp.run, Trans.fillBackUntyped, x, Except.map] at hr
      exact absurd hr (by simp)
  | mutate i f =>
    rcases Trans.mutate_cases t i f with ⟨_, x⟩ | ⟨n, e', hi, hf, x⟩ | ⟨_, _, _, _, _, x, _⟩
    · simp only [TOp.run, x, Except.map] at hr; exact absurd hr (by simp)
    · refine .inr (.inl ⟨i, n, part n, .inr ⟨⟨f, rfl⟩, rfl⟩, hi, ?_⟩)
      obtain ⟨d, hd, hc⟩ := Arena.get?_eq_some.1 hi
      rw [Trans.fill_left hd hc]
      simp only [TOp.left, Arena.modifyAt, hd, hc]
    · simp only [TOp.run, x, Except.map] at hr; exact absurd hr (by simp)
  | update i f =>
    rcases Trans.update_cases t i f with ⟨_, x⟩ | ⟨n, e', hi, hf, x⟩ | ⟨_, _, _, _, _, x, _⟩
    · simp only [TOp.run, x, Except.map] at hr; exact absurd hr (by simp)
    · exact .inr (.inr ⟨i, f, n, rfl, hi, TOp.left_update part hi⟩)
    · simp only [TOp.run, x, Except.map] at hr; exact absurd hr (by simp)
  | insert n => exact .inl rfl
  | extend ns => exact .inl rfl
  | alloc d => exact .inl rfl
  | allocUntyped => exact .inl rfl
  | remove i => exact .inl rfl
  | redirectAllLinks a b => exact .inl rfl
  | redirectLinks a b => exact .inl rfl

theorem TOp.left_cases (hw : WellNamed S) (part : Node → Node) {t : Trans} {cnt : Nat} {o : TOp} {e : Panic}
    (h : Building S dbg R t cnt) (hr : o.run t cnt = .error e) :
    o.left part t = t ∨
    (∃ i n m, ((o = .fillBack i m ∨ o = .fillBackUntyped i m) ∨ (∃ f, o = .mutate i f) ∧ m = part n) ∧ t.pending.new i = some n ∧
      t.mutate i (fun _ => .ok m) = .ok (o.left part t)) ∨
    ∃ i f n, o = .update i f ∧ t.pending.new i = some n ∧ (o.left part t).pending = { t.pending with new := upd t.pending.new i none } :=
  TOp.left_ready part (h.ready hw).1 hr

end TTGraph
