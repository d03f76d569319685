import Verif.Spec.Wrap
import Verif.Props.Interleaved
import Verif.Props.Catching

/-!
# As long as no counter wraps around, programs run as with unbounded counters
-/

set_option autoImplicit false

namespace TTGraph
open Spec
variable {S : Schema}

theorem idAllocW_eq {W : Nat} (chk : Bool) {cnt : Nat} (h : cnt + 1 < W) : idAllocW W chk cnt = (cnt + 1, .ok (cnt + 1)) := by
  simp [idAllocW, Nat.mod_eq_of_lt h, Nat.not_le.2 h]

theorem Arena.allocW_eq {W : Nat} (chk : Bool) {a a' : Arena} {cnt cnt' : Nat} {d : Ident} {i : NodeIndex} (h : cnt + 1 < W)
    (hr : a.alloc cnt d = .ok (i, a', cnt')) : a.allocW W chk cnt d = (cnt', .ok (i, a')) ∧ cnt' = cnt + 1 := by
  by_cases hc : a.disp.contains (cnt + 1) = true
  · simp only [Arena.alloc, idAlloc, hc, if_true] at hr
    exact absurd hr (by simp)
  · simp only [Arena.alloc, idAlloc, hc] at hr
    obtain ⟨rfl, rfl, rfl⟩ := hr
    simp [Arena.allocW, idAllocW_eq chk h, hc]

theorem Arena.insertW_eq {W : Nat} (chk : Bool) {a a' : Arena} {cnt cnt' : Nat} {n : Node} {i : NodeIndex} (h : cnt + 1 < W)
    (hr : a.insert cnt n = .ok (i, a', cnt')) : a.insertW W chk cnt n = (cnt', .ok (i, a')) ∧ cnt' = cnt + 1 := by
  simp only [Arena.insert] at hr
  split at hr
  · exact absurd hr (by simp)
  · rename_i idx a1 c1 ha
    split at hr
    · exact absurd hr (by simp)
    · rename_i hc
      simp only [Except.ok.injEq, Prod.mk.injEq] at hr
      obtain ⟨rfl, rfl, rfl⟩ := hr
      obtain ⟨h1, h2⟩ := Arena.allocW_eq chk h ha
      simp [Arena.insertW, h1, h2, hc]

namespace Trans

theorem allocW_eq {W : Nat} (chk : Bool) {t t' : Trans} {cnt cnt' : Nat} {d : Ident} {i : NodeIndex} (h : cnt + 1 < W)
    (hr : t.alloc cnt d = .ok (i, t', cnt')) : t.allocW W chk cnt d = (cnt', .ok (i, t')) := by
  simp only [alloc] at hr
  split at hr
  · exact absurd hr (by simp)
  · rename_i ha
    simp only [Except.ok.injEq, Prod.mk.injEq] at hr
    obtain ⟨rfl, rfl, rfl⟩ := hr
    simp [allocW, (Arena.allocW_eq chk h ha).1]

theorem insertW_eq {W : Nat} (chk : Bool) {t t' : Trans} {cnt cnt' : Nat} {n : Node} {i : NodeIndex} (h : cnt + 1 < W)
    (hr : t.insert cnt n = .ok (i, t', cnt')) : t.insertW W chk cnt n = (cnt', .ok (i, t')) ∧ cnt' = cnt + 1 := by
  simp only [insert] at hr
  split at hr
  · exact absurd hr (by simp)
  · rename_i ha
    simp only [Except.ok.injEq, Prod.mk.injEq] at hr
    obtain ⟨rfl, rfl, rfl⟩ := hr
    obtain ⟨h1, h2⟩ := Arena.insertW_eq chk h ha
    simp [insertW, h1, h2]

theorem extendW_eq {W : Nat} (chk : Bool) {l : List Node} {t t' : Trans} {cnt cnt' : Nat} {is : List NodeIndex} (h : cnt + l.length < W)
    (hr : t.extend cnt l = .ok (t', cnt', is)) : t.extendW W chk cnt l = (cnt', .ok (t', is)) := by
  induction l generalizing t cnt is with
  | nil =>
    simp only [extend, foldE, Except.ok.injEq, Prod.mk.injEq] at hr
    obtain ⟨rfl, rfl, rfl⟩ := hr
    rfl
  | cons n l ih =>
    simp only [List.length_cons] at h
    simp only [extend, foldE] at hr
    split at hr
    · rename_i s1 hs
      split at hs
      · exact absurd hs (by simp)
      · rename_i i t1 c1 hi
        simp only [List.nil_append, Except.ok.injEq] at hs
        subst hs
        obtain ⟨h1, h2⟩ := insertW_eq chk (by omega : cnt + 1 < W) hi
        subst h2
        rw [foldE_acc (by intro t cnt acc n; simp only; cases t.insert cnt n <;> rfl)] at hr
        cases he : t1.extend (cnt + 1) l with
        | error e =>
          simp only [extend] at he
          rw [he] at hr
          exact absurd hr (by simp [Except.map])
        | ok r =>
          obtain ⟨t2, c2, is2⟩ := r
          have he' := he
          simp only [extend] at he
          rw [he] at hr
          simp only [Except.map, Except.ok.injEq, Prod.mk.injEq] at hr
          obtain ⟨rfl, rfl, rfl⟩ := hr
          simp [extendW, h1, ih (by omega) he']
    · exact absurd hr (by simp)

end Trans

theorem Graph.switchInsertW_eq {W : Nat} (chk : Bool) {l : List (NodeIndex × Node)} {a a' : Arena} {m m' : OrderMap NodeIndex NodeIndex}
    {cnt cnt' : Nat} (h : cnt + l.length < W)
    (hr : foldE (fun (st : Arena × OrderMap NodeIndex NodeIndex × Nat) (e : NodeIndex × Node) =>
      match st.1.insert st.2.2 e.2 with
      | .error p => .error p
      | .ok (new, a, cnt') => .ok (a, st.2.1.insert e.1 new, cnt')) (a, m, cnt) l = .ok (a', m', cnt')) :
    Graph.switchInsertW W chk (a, m) cnt l = (cnt', .ok (a', m')) := by
  induction l generalizing a m cnt with
  | nil =>
    simp only [foldE, Except.ok.injEq, Prod.mk.injEq] at hr
    obtain ⟨rfl, rfl, rfl⟩ := hr
    rfl
  | cons e l ih =>
    simp only [List.length_cons] at h
    simp only [foldE] at hr
    split at hr
    · rename_i s1 hs
      split at hs
      · exact absurd hs (by simp)
      · rename_i i a1 c1 hi
        simp only [Except.ok.injEq] at hs
        subst hs
        obtain ⟨h1, h2⟩ := Arena.insertW_eq chk (by omega : cnt + 1 < W) hi
        subst h2
        simp [Graph.switchInsertW, h1, ih (by omega) hr]
    · exact absurd hr (by simp)

theorem Graph.switchContext_rest [SetImpl] {g : Graph} {u cnt cnt' : Nat} {a : Arena} {m : OrderMap NodeIndex NodeIndex}
    (h : g.switchInsert S cnt = .ok (a, m, cnt')) : g.switchContext S u cnt = (g.switchRest S u (a, m)).map fun g' => (g', cnt') := by
  simp only [Graph.switchContext, Graph.switchNodes, h, Graph.switchRest]
  cases foldE (Graph.switchNode g.back m) a m.entries with
  | error e => rfl
  | ok nodes =>
    simp only
    cases Graph.applyBidirectional S _ _ with
    | error e => rfl
    | ok g2 =>
      simp only
      cases Graph.checkLinkType S g2 _ <;> rfl

variable [SetImpl] {dbg : Bool}

/-- One call, if no counter reaches `W`. -/
theorem World.execW_eq (hw : WellNamed S) (W : Nat) (chk : Bool) {w : World} (hi : World.WInv S w) {call : Call} (ha : call.Allowed S w)
    (hf : ∀ c x, w.ctx c = some x → x.cnt + call.draws S w c < W) : w.execW W chk S dbg call = w.exec S dbg call := by
  cases call with
  | op k o =>
    simp only [World.execW, World.exec]
    cases ht : w.trans k with
    | none => rfl
    | some q =>
      obtain ⟨c, t⟩ := q
      obtain ⟨x, hx, hu, hr⟩ := hi.trans k c t ht
      simp only [hx]
      have hd : x.cnt + o.draws < W := by
        have := hf c x hx
        simpa only [Call.draws, ht, Option.map_some, if_true] using this
      have hb : ∀ i : Nat, t.Owns i → i ≤ x.cnt := by
        intro i ho
        obtain ⟨x', hx', _, h2⟩ := hi.bound (.inr k) c i ⟨t, ht, ho⟩
        rw [hx] at hx'
        simp only [Option.some.injEq] at hx'
        subst hx'
        exact h2
      have hao := ha c t ht
      have key : ∀ o : TOp, o.runW W chk t x.cnt = (x.cnt, (o.run t x.cnt).map fun r => (r.1, r.2.2)) →
          (∀ t' cnt l, o.run t x.cnt = .ok (t', cnt, l) → cnt = x.cnt) →
          (match o.runW W chk t x.cnt with
          | (cnt, .ok (t', l)) => (w.issue c x cnt l).setTrans k (some (c, t'))
          | (cnt, .error _) => (w.issue c x cnt []).setTrans k none) =
          match o.run t x.cnt with
          | .ok (t', cnt, l) => (w.issue c x cnt l).setTrans k (some (c, t'))
          | .error _ => w.setTrans k none := by
        intro o h1 h2
        rw [h1]
        cases h3 : o.run t x.cnt with
        | error e => simp only [Except.map, World.issue_nil hx]
        | ok r =>
          obtain ⟨t', cnt, l⟩ := r
          have := h2 _ _ _ h3
          subst this
          rfl
      have hmap : ∀ (e : Except Panic Trans) t' cnt l, (e.map fun t' => (t', x.cnt, ([] : List NodeIndex))) = .ok (t', cnt, l) → cnt = x.cnt := by
        intro e t' cnt l h
        cases e with
        | error e => exact absurd h (by simp [Except.map])
        | ok r =>
          simp only [Except.map, Except.ok.injEq, Prod.mk.injEq] at h
          exact h.2.1.symm
      have hok : ∀ (t1 t' : Trans) cnt l, (Except.ok (t1, x.cnt, ([] : List NodeIndex)) : Except Panic _) = .ok (t', cnt, l) → cnt = x.cnt := by
        intro t1 t' cnt l h
        simp only [Except.ok.injEq, Prod.mk.injEq] at h
        exact h.2.1.symm
      cases o with
      | insert n =>
        have h1 := Trans.insert_ok hr hb n
        simp [TOp.runW, TOp.run, h1, (Trans.insertW_eq chk hd h1).1, Except.map]
      | extend l =>
        obtain ⟨t', cnt', l', h1, _⟩ := Trans.extend_ok hr hb hao
        simp [TOp.runW, TOp.run, h1, Trans.extendW_eq chk hd h1]
      | alloc d =>
        have h1 := Trans.alloc_ok hr hb d
        simp [TOp.runW, TOp.run, h1, Trans.allocW_eq chk hd h1, Except.map]
      | allocUntyped =>
        simp [TOp.runW, TOp.run, Trans.allocUntypedW, idAllocW_eq chk hd, Except.map, Trans.allocUntyped, Arena.allocUntyped, idAlloc]
      | fillBack i n => exact key _ rfl fun t' cnt l h => hmap _ t' cnt l h
      | fillBackUntyped i n => exact key _ rfl fun t' cnt l h => hmap _ t' cnt l h
      | remove i => exact key (.remove i) rfl fun t' cnt l h => hok (t.remove i) t' cnt l h
      | mutate i f => exact key _ rfl fun t' cnt l h => hmap _ t' cnt l h
      | update i f => exact key _ rfl fun t' cnt l h => hmap _ t' cnt l h
      | redirectAllLinks a b => exact key (.redirectAllLinks a b) rfl fun t' cnt l h => hok (t.redirectAllLinks a b) t' cnt l h
      | redirectLinks a b => exact key (.redirectLinks a b) rfl fun t' cnt l h => hok (t.redirectLinks a b) t' cnt l h
  | switchContext g c =>
    simp only [World.execW, World.exec]
    cases hg : w.graph g with
    | none => rfl
    | some q =>
      obtain ⟨c', gr⟩ := q
      cases hx : w.ctx c with
      | none => rfl
      | some x =>
        obtain ⟨_, _, _, hgi⟩ := hi.graph g c' gr hg
        obtain ⟨a0, idMap, a, h1, _⟩ := Graph.switchNodes_ok hw.variants hgi x.cnt
        have hd : x.cnt + (gr.nodes.entries S).length < W := by
          have := hf c x hx
          simp only [Call.draws, hg, hx, if_true] at this
          rwa [show gr.len S = (gr.nodes.entries S).length from Arena.len_eq S gr.nodes] at this
        simp only [h1, Graph.switchInsertW_eq chk hd h1, Graph.switchContext_rest h1]
        cases gr.switchRest S x.uuid (a0, idMap) <;> rfl
  | newContext => rfl
  | defaultContext => rfl
  | newGraph => rfl
  | newTrans => rfl
  | merge => rfl
  | commit => rfl
  | commitChecked => rfl
  | commitCaught => rfl
  | dropTrans => rfl
  | dropGraph => rfl
  | deserialize => rfl

end TTGraph
