import Verif.Spec.Machine
import Verif.Lemmas.Protocol
import Verif.Lemmas.Switched
import Verif.Lemmas.Check
import Verif.Props.Alloc
import Verif.Props.Transactions
import Verif.Props.Valid
import Verif.Props.Worlds
import Verif.Props.Switch

/-!
# The model refines the abstract machine: helper lemmas
-/

set_option autoImplicit false

namespace TTGraph
open Spec

theorem removed_congr {xs ys : List NodeIndex} {v v' : View} (h : ∀ x, x ∈ xs ↔ x ∈ ys) (hr : Removed xs v v') : Removed ys v v' := by
  refine ⟨fun x hx => hr.1 x ((h x).2 hx), fun x hx => ?_⟩
  have h1 := hr.2 x fun e => hx ((h x).1 e)
  have h2 : (fun u => if u ∈ xs then emptyIdx else u) = fun u => if u ∈ ys then emptyIdx else u := by
    funext u
    by_cases hu : u ∈ ys
    · rw [if_pos ((h u).2 hu), if_pos hu]
    · rw [if_neg fun e => hu ((h u).1 e), if_neg hu]
  rw [h2] at h1
  exact h1

theorem machine_performed {t : Trans} {v v6 : View} : Machine.Performed t.pending v v6 ↔ Performed t v v6 := by
  constructor
  · rintro ⟨v1, v2, v3, v4, v5, xs, a, b, c, d, e, hxs, f⟩
    exact ⟨v1, v2, v3, v4, v5, a, b, c, d, e, removed_congr hxs f⟩
  · rintro ⟨v1, v2, v3, v4, v5, a, b, c, d, e, f⟩
    exact ⟨v1, v2, v3, v4, v5, t.dec.elems, a, b, c, d, e, fun _ => Iff.rfl, f⟩

theorem machine_permitted {S : Schema} {t : Trans} {o : TOp} (h : o.Allowed S t) : Machine.Permitted S t.pending o := by
  cases o <;> exact h

/-- The indices up to a counter. -/
def usedUpTo (cnt : Nat) : NodeIndex → Prop := fun i => i ≠ emptyIdx ∧ (i : Nat) ≤ cnt

theorem usedUpTo_zero : usedUpTo 0 = fun _ => False := by
  funext i
  refine propext ⟨fun h => ?_, False.elim⟩
  exact h.1 (Nat.le_zero.1 h.2)

theorem usedUpTo_iff {cnt i : Nat} : usedUpTo cnt i ↔ 0 < i ∧ i ≤ cnt :=
  ⟨fun h => ⟨Nat.pos_of_ne_zero h.1, h.2⟩, fun h => ⟨Nat.pos_iff_ne_zero.1 h.1, h.2⟩⟩

theorem fresh_range (cnt k : Nat) : Machine.Fresh (usedUpTo cnt) (List.range' (cnt + 1) k) := by
  refine ⟨List.nodup_range', fun (i : Nat) hi => ⟨fun e => ?_, fun h => ?_⟩⟩
  · have h1 := List.mem_range'_1.1 hi
    have h2 : i = 0 := e
    omega
  · have h1 := List.mem_range'_1.1 hi
    have h2 := usedUpTo_iff.1 h
    omega

theorem use_range (cnt k : Nat) : Machine.use (usedUpTo cnt) (List.range' (cnt + 1) k) = usedUpTo (cnt + k) := by
  have h : ∀ i : Nat, Machine.use (usedUpTo cnt) (List.range' (cnt + 1) k) i ↔ usedUpTo (cnt + k) i := by
    intro i
    have h1 : Machine.use (usedUpTo cnt) (List.range' (cnt + 1) k) i ↔ (0 < i ∧ i ≤ cnt) ∨ (cnt + 1 ≤ i ∧ i < cnt + 1 + k) :=
      or_congr usedUpTo_iff List.mem_range'_1
    rw [h1, usedUpTo_iff]
    omega
  funext i
  exact propext (h i)

/-! ### The meaning of a changed world -/

theorem map_put {α β : Type} (f : Nat → Option α) (F : α → β) (k : Nat) (v : Option α) :
    (fun j => (World.put f k v j).map F) = Machine.put (fun j => (f j).map F) k (v.map F) := by
  funext j
  by_cases hj : j = k
  · simp [World.put, Machine.put, hj]
  · simp [World.put, Machine.put, hj]

section
variable (w : World) (tr : Nat → List Event)

theorem meaning_ctx {w : World} {tr : Nat → List Event} {c : Nat} {x : Ctx} (h : w.ctx c = some x) : (w.meaning tr).used c = some (usedUpTo x.cnt) := by
  simp only [World.meaning, h]
  rfl

theorem meaning_graph {w : World} {tr : Nat → List Event} {k c : Nat} {g : Graph} (h : w.graph k = some (c, g)) :
    (w.meaning tr).graph k = some (c, g.get?) := by
  simp only [World.meaning, h]
  rfl

theorem meaning_trans {w : World} {tr : Nat → List Event} {k c : Nat} {t : Trans} (h : w.trans k = some (c, t)) :
    (w.meaning tr).trans k = some (c, t.pending, slotAfter (tr k)) := by
  simp only [World.meaning, h]
  rfl

theorem meaning_addCtx (c u cnt : Nat) : (w.addCtx c u cnt).meaning tr = { w.meaning tr with used := Machine.put (w.meaning tr).used c (some (usedUpTo cnt)) } := by
  simp only [World.meaning, World.addCtx]
  congr 1
  exact map_put w.ctx _ c _

theorem meaning_issue (c : Nat) (x : Ctx) (cnt : Nat) (l : List NodeIndex) :
    (w.issue c x cnt l).meaning tr = { w.meaning tr with used := Machine.put (w.meaning tr).used c (some (usedUpTo cnt)) } := by
  simp only [World.meaning, World.issue]
  congr 1
  exact map_put w.ctx _ c _

theorem meaning_setGraph (k : Nat) (v : Option (Nat × Graph)) :
    (w.setGraph k v).meaning tr = { w.meaning tr with graph := Machine.put (w.meaning tr).graph k (v.map fun e => (e.1, e.2.get?)) } := by
  simp only [World.meaning, World.setGraph]
  congr 1
  exact map_put w.graph _ k _

theorem meaning_setTrans_none (k : Nat) : (w.setTrans k none).meaning tr = { w.meaning tr with trans := Machine.put (w.meaning tr).trans k none } := by
  simp only [World.meaning, World.setTrans]
  congr 1
  funext j
  by_cases hj : j = k
  · simp [World.put, Machine.put, hj]
  · simp [World.put, Machine.put, hj]

theorem meaning_setTrans (k c : Nat) (t : Trans) (es : List Event) :
    (w.setTrans k (some (c, t))).meaning (World.put tr k es) =
      { w.meaning tr with trans := Machine.put (w.meaning tr).trans k (some (c, t.pending, slotAfter es)) } := by
  simp only [World.meaning, World.setTrans]
  congr 1
  funext j
  by_cases hj : j = k
  · simp [World.put, Machine.put, hj]
  · simp [World.put, Machine.put, hj]

theorem meaning_put_none {k : Nat} (h : w.trans k = none) (es : List Event) : w.meaning (World.put tr k es) = w.meaning tr := by
  simp only [World.meaning]
  congr 1
  funext j
  by_cases hj : j = k
  · subst hj
    simp [h]
  · simp [World.put, hj]
end

variable [SetImpl] {S : Schema} {dbg : Bool} {R : World → Call → Prop}

/-- Which methods of a transaction panic. -/
theorem machine_refused (hw : WellNamed S) (hR : ∀ w k g, R w (.merge k g) → dbg = true) {w : World} {tr : Nat → List Event}
    (h : Traced S dbg R w tr) {k c : Nat} {t : Trans} (hk : w.trans k = some (c, t)) {x : Ctx} (hc : w.ctx c = some x) {o : TOp} (ho : o.Allowed S t) :
    Machine.Refused t.pending (slotAfter (tr k)) o ↔ ∃ e, o.run t x.cnt = .error e := by
  have hb : Building S dbg R t x.cnt := ⟨w, k, c, x, h.reaches, hk, hc, rfl⟩
  constructor
  · intro hr
    cases o with
    | fillBack i n =>
      have h1 := C14_fill_back_partial hw hR h hk i n
      have h2 : slotAfter (tr k) i ≠ .reserved n.disc := hr
      have h3 : ∃ e, t.fillBack i n = .error e := by
        cases hs : slotAfter (tr k) i with
        | unknown => rw [hs] at h1; exact ⟨_, h1⟩
        | untyped => rw [hs] at h1; exact ⟨_, h1⟩
        | reserved d =>
          rw [hs] at h1 h2
          simp only at h1
          rw [if_neg (fun e => h2 (by rw [e]))] at h1
          exact ⟨_, h1⟩
        | filled =>
          rw [hs] at h1
          simp only at h1
          rcases h1 with h1 | h1 <;> exact ⟨_, h1⟩
      obtain ⟨e, he⟩ := h3
      exact ⟨e, by simp only [TOp.run, he]; rfl⟩
    | mutate i f =>
      obtain ⟨n, e, h1, h2⟩ := hr
      have h0 : t.inc.get? i = some n := h1
      rcases Trans.mutate_cases t i f with ⟨h3, _⟩ | ⟨n', e', h3, h4, h5⟩ | ⟨n', n'', _, h3, h4, _⟩
      · rw [h3] at h0
        exact absurd h0 (by simp)
      · exact ⟨e', by simp only [TOp.run, h5]; rfl⟩
      · rw [h0] at h3
        simp only [Option.some.injEq] at h3
        rw [← h3, h2] at h4
        exact absurd h4 (by simp)
    | update i f =>
      obtain ⟨n, e, h1, h2⟩ := hr
      have h0 : t.inc.get? i = some n := h1
      rcases Trans.update_cases t i f with ⟨h3, _⟩ | ⟨n', e', h3, h4, h5⟩ | ⟨n', n'', _, h3, h4, _⟩
      · rw [h3] at h0
        exact absurd h0 (by simp)
      · exact ⟨e', by simp only [TOp.run, h5]; rfl⟩
      · rw [h0] at h3
        simp only [Option.some.injEq] at h3
        rw [← h3, h2] at h4
        exact absurd h4 (by simp)
    | _ => exact hr.elim
  · rintro ⟨e, he⟩
    rcases C45_panics hw hb ho he with ⟨i, n, rfl, _⟩ | ⟨i, f, n, h1, h2, h3⟩
    · intro hs
      have h1 := C14_fill_back_partial hw hR h hk i n
      rw [hs] at h1
      simp only [if_true] at h1
      obtain ⟨t', ht', _⟩ := h1
      simp only [TOp.run, ht', Except.map] at he
      exact absurd he (by simp)
    · rcases h1 with rfl | rfl
      · exact ⟨n, e, h2, h3⟩
      · exact ⟨n, e, h2, h3⟩

theorem machine_commit_ok (hw : WellNamed S) {g g' : Graph} {t : Trans} (h : Meets S dbg R g t)
    (hc : g.commit S dbg t = .ok g') : Machine.Commits S dbg t.pending g.get? g'.get? := by
  obtain ⟨v6, h1⟩ := h.commit hw hc
  refine ⟨fun e i hi => ?_, v6, machine_performed.2 h1.performed, h1.same,
    fun hst => ⟨h1.noConflict hst, ⟨h1.noLeft hst, h1.noMissing hst⟩, h1.completion hst⟩,
    fun x m y n k1 k2 k3 => (Schema.checkLinkType_iff hw).1 (h1.types x m y n k1 k2 k3)⟩
  subst e
  exact perform_debug hc i hi

theorem machine_commit_err (hw : WellNamed S) {g : Graph} {t : Trans} (h : Meets S dbg R g t) {e : Panic}
    (hc : g.commit S dbg t = .error e) : ¬ Machine.Sensible S dbg t.pending g.get? := by
  rintro ⟨h1, h2, hst, h3⟩
  obtain ⟨g', hg'⟩ := C13_commit_succeeds hw hst h h1 h2 fun v6 h6 =>
    have ⟨k1, k2, kv, k3⟩ := h3 v6 (machine_performed.2 h6)
    ⟨k1, k2, kv, fun x m y n hl hn => k3 x m y n hl.1 hl.2 hn⟩
  rw [hc] at hg'
  exact absurd hg' (by simp)

theorem commitChecked_new (g : Graph) (t : Trans) : g.commitChecked S dbg t GraphCheck.new = g.commit S dbg t := by
  simp only [Graph.commitChecked, Graph.commit]
  cases Graph.doCommit S dbg g t with
  | error e => rfl
  | ok p =>
    obtain ⟨g', r⟩ := p
    simp only
    cases Graph.checkLinkType S g' r with
    | error e => rfl
    | ok _ =>
      simp only
      have : Graph.checkChange g' r GraphCheck.new = .ok [] := by
        rw [Graph.checkChange_nil]
        refine ⟨?_, ?_, ?_⟩ <;> intro c hc <;> exact absurd hc (by simp [GraphCheck.new, Sorted.empty])
      rw [this]

omit [SetImpl] in
theorem no_collision {v : View} {order : List NodeIndex} {cnt : Nat} (hv : ∀ i ∈ order, v i ≠ none)
    (h : ∀ i ∈ List.range' (cnt + 1) order.length, v i = none) : ¬ Collision v order cnt := by
  rintro ⟨p, q, a, b, h1, h2, h3, h4, _⟩
  have hq := (List.getElem?_eq_some_iff.1 h2).1
  refine hv b (List.mem_of_getElem? h2) (h b ?_)
  subst h4
  exact List.mem_range'_1.2 (by omega)

omit [SetImpl] in
theorem iter_order (hw : WellNamed S) {g : Graph} {e0 : Prop} (h : g.Inv S e0) : Machine.Enumerates ((g.iter S).map Prod.fst) g.get? := by
  refine ⟨Arena.entries_nodup hw.variants h.arena, fun i => ?_⟩
  constructor
  · intro hi
    obtain ⟨⟨i', n⟩, hm, rfl⟩ := List.mem_map.1 hi
    have h1 : g.get? i' = some n := (Arena.mem_entries h.arena).1 hm
    show g.get? i' ≠ none
    rw [h1]
    simp
  · intro hi
    obtain ⟨n, hn⟩ := Option.ne_none_iff_exists'.1 hi
    exact List.mem_map.2 ⟨(i, n), (Arena.mem_entries h.arena).2 hn, rfl⟩

omit [SetImpl] in
theorem Graph.SwitchIn.values {E : List (NodeIndex × Node)} {cnt : Nat} {st : Arena × OrderMap NodeIndex NodeIndex × Nat} (h : Graph.SwitchIn S E cnt st) :
    st.2.1.entries.map Prod.snd = List.range' (cnt + 1) E.length := by
  rw [h.map, List.map_map]
  have e2 : ((Prod.snd : NodeIndex × NodeIndex → NodeIndex) ∘ fun q : (NodeIndex × Node) × Nat => (q.1.1, Graph.newIndex cnt q.2)) =
      (Graph.newIndex cnt) ∘ Prod.snd := rfl
  rw [e2, ← List.map_map, List.zipIdx_map_snd]
  rw [List.range'_eq_map_range, List.range'_eq_map_range, List.map_map]
  refine List.map_congr_left fun a _ => ?_
  have h1 : ((Graph.newIndex cnt (0 + a) : NodeIndex) : Nat) = cnt + 1 + a := by
    show (cnt + 1 + (0 + a) : Nat) = _
    omega
  exact h1

theorem machine_switch_ok (hw : WellNamed S) {g g' : Graph} {u cnt cnt' : Nat} (h : g.Inv S False)
    (hs : g.switchContext S u cnt = .ok (g', cnt')) :
    Machine.Switches S ((g.iter S).map Prod.fst) (List.range' (cnt + 1) (g.iter S).length) g.get? g'.get? := by
  obtain ⟨a0, idMap, a, h1, h2, h3, h4, h5, h6, h7, _⟩ := switch_ok hw h hs
  have hval := h1.values
  have hord := iter_order hw h
  have hmem : ∀ j, j ∈ List.range' (cnt + 1) (g.iter S).length ↔ ∃ i, idMap.get? i = some j := by
    intro j
    rw [← hval]
    constructor
    · intro hj
      obtain ⟨⟨i, j'⟩, hm, rfl⟩ := List.mem_map.1 hj
      exact ⟨i, OrderMap.get?_eq_some.2 hm⟩
    · rintro ⟨i, hi⟩
      exact List.mem_map.2 ⟨(i, j), OrderMap.get?_eq_some.1 hi, rfl⟩
  have hren : ∀ x n, g.get? x = some n → ∃ x' n', idMap.get? x = some x' ∧ g'.get? x' = some n' ∧ n'.shape = n.shape := by
    intro x n hn
    obtain ⟨x', hx'⟩ := Option.ne_none_iff_exists'.1 ((h2 x).2 (by rw [hn]; simp))
    obtain ⟨n', k1, k2, _⟩ := h5.node x n x' hn hx'
    have := h6.same.1 x'
    rw [k1] at this
    cases hg : g'.get? x' with
    | none => rw [hg] at this; exact absurd this (by simp)
    | some n2 =>
      rw [hg] at this
      simp only [Option.map_some, Option.some.injEq] at this
      exact ⟨x', n2, hx', hg, this.trans k2⟩
  refine ⟨hord, Graph.rename idMap, ?_, ?_, ?_, ?_⟩
  · rw [← h1.keys, ← hval]
    show idMap.entries.map Prod.snd = (idMap.entries.map Prod.fst).map (Graph.rename idMap)
    rw [List.map_map]
    refine List.map_congr_left fun e he => ?_
    exact (Graph.rename_some (OrderMap.get?_eq_some.2 he)).symm
  · intro j
    rw [hmem]
    constructor
    · intro hj
      obtain ⟨i, n, _, k2⟩ := (h5.good h h1).1 j (fun e => hj ((LoadOut.none_iff h6 j).2 e))
      exact ⟨i, k2⟩
    · rintro ⟨i, hi⟩
      obtain ⟨n, hn⟩ := Option.ne_none_iff_exists'.1 ((h2 i).1 (by rw [hi]; simp))
      obtain ⟨x', n', k1, k2, _⟩ := hren i n hn
      rw [hi] at k1
      simp only [Option.some.injEq] at k1
      rw [k1, k2]
      simp
  · intro x n hn
    obtain ⟨x', n', k1, k2, k3⟩ := hren x n hn
    rw [Graph.rename_some k1]
    exact ⟨n', k2, k3⟩
  · intro hI ha hc
    have hcol : ¬ Collision g.get? ((g.iter S).map Prod.fst) cnt :=
      no_collision (fun i hi => (hord.2 i).1 hi) (by rw [List.length_map]; exact hc)
    have hiso := h5.isomorphic h h1 h2 h3 (by rw [← h7]; exact h4) hI hcol
    have hg := h5.good h h1
    exact hiso.same ((hiso.answered hI hg.2.1 ha).same hg.2.2.1 h6.completion)

omit [SetImpl] in
theorem lists_unique {nodes : List (NodeIndex × Node)} {v v' : View} (h : Machine.Lists nodes v) (h' : Machine.Lists nodes v') : v = v' := by
  funext i
  cases hi : v i with
  | none =>
    cases hi' : v' i with
    | none => rfl
    | some n =>
      have := (h i n).2 ((h' i n).1 hi')
      rw [hi] at this
      exact absurd this (by simp)
  | some n => exact ((h' i n).2 ((h i n).1 hi)).symm

end TTGraph
