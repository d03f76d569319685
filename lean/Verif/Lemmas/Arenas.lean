import Verif.Lemmas.Iter
import Verif.Lemmas.TransOps
import Verif.Spec.Arenas

/-!
# An arena is a map of slots
-/

set_option autoImplicit false

namespace TTGraph
open Spec
variable {S : Schema}

/-! ### iter_mut -/

theorem Iter.next_some {e : NodeIndex × Node} : ∀ {fuel : Nat} {it it' : Iter}, it.next S fuel = (some e, it') →
    ∃ d, it'.state = some d ∧ it.rest d = e :: it'.rest d ∧ ∀ d', d' ≠ d → it'.rest d' = it.rest d' := by
  intro fuel
  induction fuel with
  | zero => intro it it' h; simp [Iter.next] at h
  | succ fuel ih =>
    intro it it' h
    rw [Iter.next] at h
    split at h
    · simp at h
    · rename_i d hd
      split at h
      · rename_i e' r hr
        simp only [Prod.mk.injEq, Option.some.injEq] at h
        obtain ⟨rfl, rfl⟩ := h
        exact ⟨d, hd, by simp [hr], fun d' hne => by simp [hne]⟩
      · rename_i hr
        have := ih h
        exact this

namespace Arena

theorem iterMutLoop_spec (hS : S.discs.Nodup) (f : NodeIndex → Node → Node) : ∀ (fuel : Nat) {it : Iter} {suf : List Ident} {a : Arena},
    it.At S suf → (it.left suf).length < fuel → (∀ d, d ∉ suf → it.rest d = []) → (∀ d, ((it.rest d).map Prod.fst).Nodup) →
    (iterMutLoop S f fuel it a).disp = a.disp ∧
    ∀ d j, ((iterMutLoop S f fuel it a).cont d).get? j = (match alGet j (it.rest d) with | some n => some (f j n) | none => (a.cont d).get? j) := by
  intro fuel
  induction fuel with
  | zero => intro it suf a _ hl; exact absurd hl (Nat.not_lt_zero _)
  | succ fuel ih =>
    intro it suf a h hl hr hn
    rcases Iter.next_spec hS h h.le with ⟨h1, it', h2, _⟩ | ⟨e, r, it', suf', h1, h2, h3, h4, _⟩
    · have hnil : ∀ d, it.rest d = [] := by
        intro d
        by_cases hd : d ∈ suf
        · rw [Iter.left, List.flatMap_eq_nil_iff] at h1
          exact h1 d hd
        · exact hr d hd
      simp only [iterMutLoop, h2, hnil, alGet, implies_true, and_self]
    · obtain ⟨d, g1, g2, g3⟩ := Iter.next_some h2
      simp only [iterMutLoop, h2, g1]
      have hr' : ∀ d', d' ∉ suf' → it'.rest d' = [] := by
        intro d' hd'
        obtain ⟨pre, p1, p2⟩ := h3.split
        by_cases hm : d' ∈ S.discs
        · rw [p1, List.mem_append] at hm
          exact p2 d' (hm.resolve_right hd')
        · by_cases hdd : d' = d
          · subst hdd
            have : d' ∉ suf := by
              obtain ⟨pre', q1, _⟩ := h.split
              intro hx
              exact hm (by rw [q1]; simp [hx])
            have := hr d' this
            rw [g2] at this
            exact absurd this (by simp)
          · rw [g3 d' hdd]
            refine hr d' fun hx => hm ?_
            obtain ⟨pre', q1, _⟩ := h.split
            rw [q1]; simp [hx]
      have hn' : ∀ d', ((it'.rest d').map Prod.fst).Nodup := by
        intro d'
        by_cases hdd : d' = d
        · subst hdd
          have := hn d'
          rw [g2, List.map_cons, List.nodup_cons] at this
          exact this.2
        · rw [g3 d' hdd]; exact hn d'
      have hl' : (it'.left suf').length < fuel := by
        rw [h4]
        rw [h1, List.length_cons] at hl
        omega
      obtain ⟨i1, i2⟩ := ih (a := a.setCont d ((a.cont d).insert e.1 (f e.1 e.2))) h3 hl' hr' hn'
      refine ⟨i1, fun d' j => ?_⟩
      rw [i2]
      by_cases hdd : d' = d
      · subst hdd
        have hnd := hn d'
        rw [g2, List.map_cons, List.nodup_cons] at hnd
        rw [g2]
        obtain ⟨k, v⟩ := e
        simp only [alGet, setCont_cont, if_true, OrderMap.get?_insert]
        by_cases hk : k = j
        · subst hk
          rw [(alGet_eq_none_iff k _).2 hnd.1]
          simp
        · simp only [if_neg hk]
      · rw [g3 d' hdd]
        simp only [setCont_cont, if_neg hdd]

theorem iterMut_spec (hS : S.discs.Nodup) {a : Arena} (h : a.Inv S) (f : NodeIndex → Node → Node) :
    (a.iterMut S f).disp = a.disp ∧ ∀ d j, ((a.iterMut S f).cont d).get? j = ((a.cont d).get? j).map (f j) := by
  have hr : ∀ d, d ∉ S.discs → (Iter.start S a).rest d = [] := by
    intro d hd
    rw [List.eq_nil_iff_forall_not_mem]
    rintro ⟨i, n⟩ hm
    exact hd (h.decl i d (h.home d i n (OrderMap.get?_eq_some.2 hm)))
  obtain ⟨h1, h2⟩ := iterMutLoop_spec hS f (a.len S + 1) (a := a) (Iter.start_at S a) (by rw [Iter.start_left, len_eq]; omega) hr
    fun d => (a.cont d).nodup
  refine ⟨h1, fun d j => ?_⟩
  rw [iterMut, h2]
  show (match (a.cont d).get? j with | some n => some (f j n) | none => (a.cont d).get? j) = _
  cases (a.cont d).get? j <;> rfl

end Arena

/-! ### The relation between an arena and its slots -/

/-- The arena `a` has the slots `m`. -/
structure Arena.Has (S : Schema) (a : Arena) (m : Cells) : Prop where
  inv : a.Inv S
  typed : a.Typed
  node : ∀ i, a.get? i = m.node? i
  disp : ∀ i, a.disp.get? i = (m i).map Cell.variant

namespace Arena.Has

theorem put_node {a a' : Arena} {m : Cells} (h : a.Has S m) {i : NodeIndex} {n : Node} (hinv : a'.Inv S) (ht : a'.Typed)
    (hg : ∀ j, a'.get? j = if i = j then some n else a.get? j)
    (hd : ∀ j, a'.disp.get? j = if i = j then some n.disc else a.disp.get? j) : a'.Has S (m.put i (.node n)) := by
  refine ⟨hinv, ht, fun j => ?_, fun j => ?_⟩
  · rw [hg, h.node, Cells.node?, Cells.node?, Cells.put]
    split <;> rfl
  · rw [hd, h.disp, Cells.put]
    split <;> rfl

theorem free {a : Arena} {m : Cells} (h : a.Has S m) {i : NodeIndex} (hi : m.node? i = none) (d : Ident) : (a.cont d).get? i = none :=
  h.inv.cont_none_of_get? (by rw [h.node, hi]) d

theorem store {a : Arena} {m : Cells} (h : a.Has S m) {i : NodeIndex} {n : Node} (hn : n.disc ∈ S.discs) (hi : m.node? i = none) :
    (a.store i n).Has S (m.put i (.node n)) :=
  h.put_node (Arena.store_inv h.inv hn (h.free hi)) (Arena.store_typed h.typed i n) (Arena.store_get? a i n) (Arena.store_disp a i n)

end Arena.Has

theorem fromIter_has {l : List (NodeIndex × Node)} : (∀ e ∈ l, e.2.disc ∈ S.discs) → ∀ {a a' : Arena} {m : Cells}, a.Has S m →
    foldE Arena.newFromIterStep a l = .ok a' → a'.Has S (l.foldl (fun m e => m.put e.1 (.node e.2)) m) := by
  induction l with
  | nil =>
    intro _ a a' m h hr
    simp only [foldE, Except.ok.injEq] at hr
    subst hr
    exact h
  | cons e l ih =>
    intro hl a a' m h hr
    rw [foldE] at hr
    split at hr
    · rename_i a1 h1
      refine ih (fun e he => hl e (List.mem_cons_of_mem _ he)) ?_ hr
      simp only [Arena.newFromIterStep] at h1
      split at h1
      · exact absurd h1 (by simp)
      · rename_i hc
        split at h1
        · exact absurd h1 (by simp)
        · simp only [Except.ok.injEq] at h1
          subst h1
          have : m.node? e.1 = none := by
            rw [← h.node]
            refine Arena.get?_of_disp_none ?_
            cases hx : a.disp.get? e.1 with
            | none => rfl
            | some d => exact absurd (OrderMap.contains_iff.2 ⟨d, hx⟩) hc
          exact h.store (hl e (List.mem_cons_self ..)) this
    · exact absurd hr (by simp)

theorem Spec.Built.has (hS : S.discs.Nodup) {a : Arena} {m : Cells} (h : Built S a m) : a.Has S m := by
  induction h with
  | new => exact ⟨Arena.new_inv S, Arena.new_typed, fun _ => rfl, fun _ => rfl⟩
  | fromIter hl hr => exact fromIter_has hl ⟨Arena.new_inv S, Arena.new_typed, fun _ => rfl, fun _ => rfl⟩ hr
  | @alloc a a' m cnt cnt' i d hb hd hr ih =>
    have hno : a.disp.get? (cnt + 1) = none := by
      cases hx : a.disp.get? (cnt + 1) with
      | none => rfl
      | some d' =>
        have : a.disp.contains (cnt + 1) = true := OrderMap.contains_iff.2 ⟨d', hx⟩
        simp [Arena.alloc, idAlloc, this] at hr
    · rw [Arena.alloc_ok hno] at hr
      simp only [Except.ok.injEq, Prod.mk.injEq] at hr
      obtain ⟨rfl, rfl, _⟩ := hr
      have hc0 : ∀ d', (a.cont d').get? (cnt + 1) = none := ih.inv.cont_none hno
      refine ⟨Arena.withDisp_inv ih.inv hd fun d' hd' => absurd (hc0 d') hd', fun d' j n hn => ih.typed d' j n hn, fun j => ?_, fun j => ?_⟩
      · simp only [Cells.node?, Cells.put]
        by_cases hj : cnt + 1 = j
        · subst hj
          simp [Arena.get?, hc0, Cell.node?]
        · rw [if_neg hj]
          have := ih.node j
          rw [Cells.node?] at this
          rw [← this]
          simp [Arena.get?, OrderMap.get?_insert, hj]
      · simp only [OrderMap.get?_insert, Cells.put]
        split
        · rfl
        · exact ih.disp j
  | @insert a a' m cnt cnt' i n hb hd hr ih =>
    have hno : a.disp.get? (cnt + 1) = none := by
      cases hx : a.disp.get? (cnt + 1) with
      | none => rfl
      | some d =>
        have : a.disp.contains (cnt + 1) = true := OrderMap.contains_iff.2 ⟨d, hx⟩
        simp [Arena.insert, Arena.alloc, idAlloc, this] at hr
    rw [Arena.insert_ok ih.inv hno] at hr
    simp only [Except.ok.injEq, Prod.mk.injEq] at hr
    obtain ⟨rfl, rfl, _⟩ := hr
    refine ih.store hd ?_
    rw [← ih.node]
    exact Arena.get?_of_disp_none hno
  | @fillBack a a' m i n hb hd hr ih =>
    rcases Arena.fillBack_cases a i n with ⟨_, h⟩ | ⟨_, _, _, h⟩ | ⟨_, _, h⟩ | ⟨h1, h2, a2, h3, h4, h5⟩
    · rw [h] at hr; exact absurd hr (by simp)
    · rw [h] at hr; exact absurd hr (by simp)
    · rw [h] at hr; exact absurd hr (by simp)
    · rw [h3, Except.ok.injEq] at hr
      subst hr
      have hst := Arena.store_inv ih.inv hd (ih.inv.cont_none_of_get? h2)
      refine ih.put_node (Arena.eq_store_inv h4 h5 h1 hst) ?_ (Arena.eq_store h4 h5 h1) fun j => ?_
      · intro d j n' hn'
        rw [h4] at hn'
        exact Arena.store_typed ih.typed i n d j n' hn'
      · rw [h5]
        split
        · rename_i hj; rw [← hj]; exact h1
        · rfl
  | @fillBackUntyped a a' m i n hb hd hi hr ih =>
    rcases Arena.fillBackUntyped_cases a i n with ⟨_, h⟩ | ⟨h1, h2⟩
    · rw [h] at hr; exact absurd hr (by simp)
    · rw [h2, Except.ok.injEq] at hr
      subst hr
      exact ih.store hd hi
  | @remove a m i hb ih =>
    refine ⟨Arena.remove_inv ih.inv i, Arena.remove_typed ih.typed i, fun j => ?_, fun j => ?_⟩
    · rw [Arena.remove_get?, ih.node, Cells.node?, Cells.node?, Cells.drop]
      split <;> rfl
    · rw [Arena.remove_disp, ih.disp, Cells.drop]
      split <;> rfl
  | @updateWith a a' m i f n n' hb hi hf hd hr ih =>
    have hn : a.get? i = some n := by rw [ih.node, Cells.node?, hi]; rfl
    obtain ⟨a2, h1, h2, h3, h4, h5⟩ := Arena.updateWith_ok (S := S) hn hf
    rw [h1, Except.ok.injEq] at hr
    subst hr
    refine ih.put_node (h4 ih.inv) (h5 ih.typed hd) h2 fun j => ?_
    rw [h3]
    split
    · rename_i hj; rw [← hj, ih.disp, hi]; simp [Cell.variant, hd]
    · rfl
  | @getMut a a' m i f n hb hi hd hr ih =>
    have hn : a.get? i = some n := by rw [ih.node, Cells.node?, hi]; rfl
    obtain ⟨d, g1, g2⟩ := Arena.get?_eq_some.1 hn
    simp only [Arena.getMut, g1, g2, Option.some.injEq] at hr
    subst hr
    refine ih.put_node (Arena.setCont_inv ih.inv g1 (OrderMap.get?_insert _ _ · _))
      (Arena.setCont_typed ih.typed (hd.trans (ih.typed d i n g2)) (OrderMap.get?_insert _ _ · _))
      (Arena.setCont_get? g1 (OrderMap.get?_insert _ _ · _)) fun j => ?_
    rw [Arena.setCont_disp]
    split
    · rename_i hj; rw [← hj, ih.disp, hi]; simp [Cell.variant, hd]
    · rfl
  | @iterMut a m f hb hf ih =>
    obtain ⟨h1, h2⟩ := Arena.iterMut_spec hS ih.inv f
    have hget : ∀ i, (a.iterMut S f).get? i = (a.get? i).map (f i) := by
      intro i
      simp only [Arena.get?, h1]
      cases a.disp.get? i with
      | none => rfl
      | some d => simp only [Option.bind_some]; exact h2 d i
    refine ⟨⟨fun d i n hn => ?_, fun i d hd => ih.inv.decl i d (h1 ▸ hd)⟩, fun d i n hn => ?_, fun i => ?_, fun i => ?_⟩
    · rw [h2, Option.map_eq_some_iff] at hn
      obtain ⟨n0, h3, _⟩ := hn
      rw [h1]
      exact ih.inv.home d i n0 h3
    · rw [h2, Option.map_eq_some_iff] at hn
      obtain ⟨n0, h3, rfl⟩ := hn
      have h4 : m.node? i = some n0 := by rw [← ih.node]; exact ih.inv.get? h3
      have h5 : m i = some (.node n0) := by
        rw [Cells.node?] at h4
        cases hm : m i with
        | none => rw [hm] at h4; exact absurd h4 (by simp)
        | some s =>
          rw [hm] at h4
          cases s with
          | reserved d => exact absurd h4 (by simp [Cell.node?])
          | node n' => simpa [Cell.node?] using h4
      rw [hf i n0 h5]
      exact ih.typed d i n0 h3
    · rw [hget, ih.node, Cells.node?, Cells.node?, Cells.visit]
      cases m i with
      | none => rfl
      | some s => cases s <;> rfl
    · rw [h1, ih.disp, Cells.visit]
      cases hm : m i with
      | none => rfl
      | some s =>
        cases s with
        | reserved d => rfl
        | node n => simp [Cell.variant, hf i n hm]
  | @merge a b m m' ha hb hdis iha ihb =>
    have hd : a.Disjoint b := by
      intro i hne
      rw [ihb.disp] at hne
      rw [iha.disp]
      rcases hdis i with h | h
      · rw [h]; rfl
      · rw [h] at hne; exact absurd rfl hne
    refine ⟨Arena.merge_inv iha.inv ihb.inv hd, Arena.merge_typed iha.typed ihb.typed, fun i => ?_, fun i => ?_⟩
    · rw [Arena.merge_get? iha.inv ihb.inv hd, iha.node, ihb.node]
      simp only [Cells.node?]
      rcases hdis i with h | h
      · rw [h]; cases m' i with
        | none => rfl
        | some s => cases s <;> rfl
      · rw [h]; cases m i with
        | none => rfl
        | some s => cases s <;> rfl
    · rw [Arena.merge_disp, iha.disp, ihb.disp]
      cases m' i with
      | none => rfl
      | some s => rfl

theorem Spec.Cells.some_node {m : Cells} {i : NodeIndex} {n : Node} (h : m.node? i = some n) : m i = some (.node n) := by
  rw [Cells.node?] at h
  cases hm : m i with
  | none => rw [hm] at h; exact absurd h (by simp)
  | some s =>
    rw [hm] at h
    cases s with
    | reserved d => exact absurd h (by simp [Cell.node?])
    | node n' => simpa [Cell.node?] using h

theorem fromIter_total {l : List (NodeIndex × Node)} : ∀ {a : Arena}, a.Inv S → (∀ e ∈ l, e.2.disc ∈ S.discs) →
    (((l.map Prod.fst).Nodup ∧ ∀ e ∈ l, a.disp.get? e.1 = none) → ∃ a', foldE Arena.newFromIterStep a l = .ok a') ∧
    (¬ ((l.map Prod.fst).Nodup ∧ ∀ e ∈ l, a.disp.get? e.1 = none) → foldE Arena.newFromIterStep a l = .error .dupIndex) := by
  induction l with
  | nil => intro a _ _; simp [foldE]
  | cons e l ih =>
    intro a h hl
    by_cases he : a.disp.get? e.1 = none
    · have hstep : Arena.newFromIterStep a e = .ok (a.store e.1 e.2) := by
        have h1 : a.disp.contains e.1 = false := by rw [OrderMap.contains, he]; rfl
        have h2 : (a.cont e.2.disc).contains e.1 = false := by rw [OrderMap.contains, h.cont_none he]; rfl
        simp only [Arena.newFromIterStep, h1, h2, Bool.false_eq_true, if_false]
        rfl
      have hi := ih (Arena.store_inv h (hl e (List.mem_cons_self ..)) (h.cont_none he)) fun e he => hl e (List.mem_cons_of_mem _ he)
      have hiff : (((e :: l).map Prod.fst).Nodup ∧ ∀ e' ∈ e :: l, a.disp.get? e'.1 = none) ↔
          ((l.map Prod.fst).Nodup ∧ ∀ e' ∈ l, (a.store e.1 e.2).disp.get? e'.1 = none) := by
        simp only [List.map_cons, List.nodup_cons, List.mem_cons, forall_eq_or_imp, he, true_and, Arena.store_disp]
        constructor
        · rintro ⟨⟨h1, h2⟩, h3⟩
          refine ⟨h2, fun e' he' => ?_⟩
          rw [if_neg fun hx => h1 (by rw [hx]; exact List.mem_map_of_mem he')]
          exact h3 e' he'
        · rintro ⟨h2, h3⟩
          refine ⟨⟨fun hm => ?_, h2⟩, fun e' he' => ?_⟩
          · obtain ⟨e', he', hx⟩ := List.mem_map.1 hm
            have := h3 e' he'
            rw [if_pos hx.symm] at this
            exact absurd this (by simp)
          · have := h3 e' he'
            split at this
            · exact absurd this (by simp)
            · exact this
      rw [hiff]
      simp only [foldE, hstep]
      exact hi
    · constructor
      · intro hx
        exact absurd (hx.2 e (List.mem_cons_self ..)) he
      · intro _
        obtain ⟨d, hd⟩ := Option.ne_none_iff_exists'.1 he
        have h1 : a.disp.contains e.1 = true := OrderMap.contains_iff.2 ⟨d, hd⟩
        simp [foldE, Arena.newFromIterStep, h1]

end TTGraph
