import Verif.Spec.Order
import Verif.Lemmas.Meets
import Verif.Lemmas.TransOps
import Verif.Lemmas.Switch

/-!
# The order of containers
-/

set_option autoImplicit false

namespace TTGraph
open Spec

namespace OrderMap

theorem keys_insert_old {κ ν : Type} [DecidableEq κ] {m : OrderMap κ ν} {k : κ} (v : ν) (h : k ∈ m.keys) : (m.insert k v).keys = m.keys := by
  show (alSet k v m.entries).map Prod.fst = _
  rw [alSet_keys]; exact if_pos h

theorem keys_insert_new {κ ν : Type} [DecidableEq κ] {m : OrderMap κ ν} {k : κ} (v : ν) (h : k ∉ m.keys) :
    (m.insert k v).keys = m.keys ++ [k] := by
  show (alSet k v m.entries).map Prod.fst = _
  rw [alSet_keys]; exact if_neg h

theorem keys_swapRemove {ν : Type} (m : OrderMap NodeIndex ν) (k : NodeIndex) : (m.swapRemove k).keys = swapOut k m.keys := by
  have key : ∀ l : List (NodeIndex × ν), (alSwapRemove k l).map Prod.fst = swapOut k (l.map Prod.fst) := by
    intro l
    induction l with
    | nil => rfl
    | cons e r ih =>
      obtain ⟨k', v⟩ := e
      simp only [alSwapRemove, List.map_cons, swapOut]
      split
      · simp only [lastToFront, List.getLast?_map]
        cases r.getLast? with
        | none => rfl
        | some z => simp [List.map_dropLast]
      · simp [ih]
  exact key m.entries

theorem keys_append {ν : Type} (m o : OrderMap NodeIndex ν) (h : ∀ k ∈ o.keys, k ∉ m.keys) : (m.append o).keys = m.keys ++ o.keys := by
  have key : ∀ (l : List (NodeIndex × ν)) (m : OrderMap NodeIndex ν), (l.map Prod.fst).Nodup → (∀ k ∈ l.map Prod.fst, k ∉ m.keys) →
      (l.foldl (fun acc e => acc.insert e.1 e.2) m).keys = m.keys ++ l.map Prod.fst := by
    intro l
    induction l with
    | nil => simp
    | cons e r ih =>
      obtain ⟨k, v⟩ := e
      intro m hn hm
      simp only [List.map_cons, List.nodup_cons] at hn
      simp only [List.map_cons, List.mem_cons] at hm
      have h1 := keys_insert_new v (hm k (.inl rfl))
      simp only [List.foldl_cons]
      rw [ih _ hn.2, h1]
      · simp
      · intro k' hk' hin
        rw [h1, List.mem_append, List.mem_singleton] at hin
        rcases hin with hin | rfl
        · exact hm k' (.inr hk') hin
        · exact hn.1 hk'
  exact key o.entries m o.nodup h

end OrderMap

theorem swapOut_absent {x : NodeIndex} {l : List NodeIndex} (h : x ∉ l) : swapOut x l = l := by
  induction l with
  | nil => rfl
  | cons y r ih =>
    simp only [List.mem_cons, not_or] at h
    simp only [swapOut]
    rw [if_neg (fun e => h.1 e.symm), ih h.2]

theorem toEnd_absent {x : NodeIndex} {l : List NodeIndex} (h : x ∉ l) : toEnd x l = l := if_neg h

namespace Arena

/-- The same indices in the same places. -/
def Shape (a a' : Arena) : Prop := a'.disp = a.disp ∧ ∀ d, (a'.cont d).keys = (a.cont d).keys

/-- Every index is in the container that the dispatcher names. -/
def Home (a : Arena) : Prop := ∀ d i, i ∈ (a.cont d).keys → a.disp.get? i = some d

theorem Shape.refl (a : Arena) : Shape a a := ⟨rfl, fun _ => rfl⟩

theorem Shape.trans {a b c : Arena} (h : Shape a b) (h' : Shape b c) : Shape a c := ⟨h'.1.trans h.1, fun d => (h'.2 d).trans (h.2 d)⟩

theorem Shape.home {a b : Arena} (h : Shape a b) (ha : a.Home) : b.Home := by
  intro d i hi
  rw [h.2] at hi
  rw [h.1]
  exact ha d i hi

theorem Inv.homes {S : Schema} {a : Arena} (h : a.Inv S) : a.Home := by
  intro d i hi
  obtain ⟨n, hn⟩ := OrderMap.mem_keys.1 hi
  exact h.home d i n hn

theorem modifyAt_shape {β : Type} {a a' : Arena} {i : NodeIndex} {r : β} {f : Node → Except Panic (Node × β)}
    (h : a.modifyAt i f = .ok (a', r)) : Shape a a' := by
  unfold modifyAt at h
  split at h
  · exact absurd h (by simp)
  · rename_i d hd
    split at h
    · exact absurd h (by simp)
    · rename_i n hn
      split at h
      · exact absurd h (by simp)
      · simp only [Except.ok.injEq, Prod.mk.injEq] at h
        rw [← h.1]
        refine ⟨rfl, fun d' => ?_⟩
        simp only [setCont]
        split
        · rename_i e
          subst e
          exact OrderMap.keys_insert_old _ (OrderMap.mem_keys.2 ⟨n, hn⟩)
        · rfl

theorem updateWith_order {a a' : Arena} {i : NodeIndex} {f : Node → Except Panic Node} (ha : a.Home) (h : a.updateWith i f = .ok a') :
    a'.disp = a.disp ∧ ∀ d, (a'.cont d).keys = toEnd i (a.cont d).keys := by
  unfold updateWith at h
  split at h
  · exact absurd h (by simp)
  · rename_i d hd
    split at h
    · exact absurd h (by simp)
    · rename_i n hn
      split at h
      · exact absurd h (by simp)
      · simp only [Except.ok.injEq] at h
        rw [← h]
        refine ⟨rfl, fun d' => ?_⟩
        simp only [setCont]
        by_cases e : d' = d
        · subst e
          rw [if_pos rfl, OrderMap.keys_insert_new, OrderMap.keys_swapRemove, toEnd, if_pos (OrderMap.mem_keys.2 ⟨n, hn⟩)]
          rw [← OrderMap.get?_eq_none, OrderMap.get?_swapRemove, if_pos rfl]
        · rw [if_neg e, toEnd_absent]
          intro hi
          have := ha d' i hi
          rw [hd, Option.some.injEq] at this
          exact e this.symm

theorem mem_swapRemove {m : OrderMap NodeIndex Node} {i j : NodeIndex} : j ∈ swapOut i m.keys ↔ j ∈ m.keys ∧ j ≠ i := by
  rw [← OrderMap.keys_swapRemove, OrderMap.mem_keys, OrderMap.mem_keys, OrderMap.get?_swapRemove]
  by_cases h : i = j
  · simp [h]
  · simp only [h, if_false]
    exact (and_iff_left (fun e => h e.symm)).symm

theorem mem_toEnd {m : OrderMap NodeIndex Node} {i j : NodeIndex} : j ∈ toEnd i m.keys ↔ j ∈ m.keys := by
  unfold toEnd
  split
  · rename_i h
    rw [List.mem_append, mem_swapRemove, List.mem_singleton]
    constructor
    · rintro (⟨h1, _⟩ | rfl)
      · exact h1
      · exact h
    · intro h1
      by_cases e : j = i
      · exact .inr e
      · exact .inl ⟨h1, e⟩
  · rfl

theorem updateWith_home {a a' : Arena} {i : NodeIndex} {f : Node → Except Panic Node} (ha : a.Home) (h : a.updateWith i f = .ok a') : a'.Home := by
  obtain ⟨h1, h2⟩ := updateWith_order ha h
  intro d j hj
  rw [h2, mem_toEnd] at hj
  rw [h1]
  exact ha d j hj

theorem remove_order {a : Arena} (ha : a.Home) (i : NodeIndex) (d : Ident) : ((a.remove i).2.cont d).keys = swapOut i (a.cont d).keys := by
  unfold remove
  cases hd : a.disp.get? i with
  | none =>
    rw [swapOut_absent]
    intro hi
    rw [ha d i hi] at hd
    exact absurd hd (by simp)
  | some d' =>
    simp only
    by_cases e : d = d'
    · subst e
      rw [if_pos rfl, OrderMap.keys_swapRemove]
    · rw [if_neg e, swapOut_absent]
      intro hi
      rw [ha d i hi, Option.some.injEq] at hd
      exact e hd

theorem remove_home {a : Arena} (ha : a.Home) (i : NodeIndex) : (a.remove i).2.Home := by
  intro d j hj
  rw [remove_order ha, mem_swapRemove] at hj
  rw [remove_disp, if_neg (fun e => hj.2 e.symm)]
  exact ha d j hj.1

theorem merge_order {a b : Arena} (ha : a.Home) (hb : b.Home) (hd : a.Disjoint b) (d : Ident) :
    ((a.merge b).cont d).keys = (a.cont d).keys ++ (b.cont d).keys := by
  refine OrderMap.keys_append _ _ ?_
  intro k hk hk'
  have := hd k (by simp [hb d k hk])
  rw [ha d k hk'] at this
  exact absurd this (by simp)

end Arena

/-- A loop whose steps keep the shape keeps the shape. -/
theorem foldE_shape {σ α : Type} (π : σ → Arena) {f : σ → α → Except Panic σ} (hf : ∀ s a s', f s a = .ok s' → (π s).Shape (π s')) (l : List α) :
    ∀ {s s' : σ}, foldE f s l = .ok s' → (π s).Shape (π s') := by
  induction l with
  | nil =>
    intro s s' h
    simp only [foldE, Except.ok.injEq] at h
    rw [h]; exact .refl _
  | cons a r ih =>
    intro s s' h
    simp only [foldE] at h
    split at h
    · rename_i s1 h1
      exact (hf _ _ _ h1).trans (ih h)
    · exact absurd h (by simp)

namespace Graph
section
variable [SetImpl]

theorem redirectLinks_shape {g g' : Graph} {a b : NodeIndex} {r r' : Lcr} (h : redirectLinks g a b r = .ok (g', r')) : g.nodes.Shape g'.nodes := by
  unfold redirectLinks at h
  split at h
  · exact absurd h (by simp)
  · simp only at h
    split at h
    · exact absurd h (by simp)
    · rename_i nodes back r1 he
      simp only [Except.ok.injEq, Prod.mk.injEq] at h
      rw [← h.1]
      refine foldE_shape (fun s : Arena × Back × Lcr => s.1) ?_ _ he
      intro s e s' hs
      simp only [redirectOne] at hs
      split at hs
      · exact absurd hs (by simp)
      · rename_i a1 x y hm
        simp only [Except.ok.injEq] at hs
        rw [← hs]
        exact Arena.modifyAt_shape hm

theorem redirectLinksVec_shape {g g' : Graph} {l : List (NodeIndex × NodeIndex)} {r r' : Lcr} (h : redirectLinksVec g l r = .ok (g', r')) :
    g.nodes.Shape g'.nodes := by
  unfold redirectLinksVec at h
  split at h
  · exact absurd h (by simp)
  · split at h
    · exact absurd h (by simp)
    · rename_i fa' g1 r1 he
      simp only [Except.ok.injEq, Prod.mk.injEq] at h
      rw [← h.1]
      refine foldE_shape (fun s : Fa × Graph × Lcr => s.2.1.nodes) ?_ _ he
      intro s p s' hs
      simp only [redirStep] at hs
      split at hs
      · exact absurd hs (by simp)
      · split at hs
        · exact absurd hs (by simp)
        · split at hs
          · exact absurd hs (by simp)
          · rename_i g2 r2 hr
            split at hs
            · exact absurd hs (by simp)
            · simp only [Except.ok.injEq] at hs
              rw [← hs]
              exact redirectLinks_shape hr

omit [SetImpl] in
theorem modifyNode_shape {g g' : Graph} {x : NodeIndex} {f : Closure} {r r' : Lcr} (h : modifyNode g x f r = .ok (g', r')) :
    g.nodes.Shape g'.nodes := by
  unfold modifyNode at h
  repeat' split at h
  all_goals try (simp only [reduceCtorEq] at h; done)
  rename_i hm _ _ _ _ _ _ _
  simp only [Except.ok.injEq, Prod.mk.injEq] at h
  rw [← h.1]
  exact Arena.modifyAt_shape hm

omit [SetImpl] in
theorem updateNode_order {g g' : Graph} {x : NodeIndex} {f : Closure} {r r' : Lcr} (hg : g.nodes.Home) (h : updateNode g x f r = .ok (g', r')) :
    g'.nodes.Home ∧ ∀ d, (g'.nodes.cont d).keys = toEnd x (g.nodes.cont d).keys := by
  unfold updateNode at h
  repeat' split at h
  all_goals try (simp only [reduceCtorEq] at h; done)
  rename_i hm _ _ _ _ _ _ _
  simp only [Except.ok.injEq, Prod.mk.injEq] at h
  rw [← h.1]
  exact ⟨Arena.updateWith_home hg hm, (Arena.updateWith_order hg hm).2⟩

theorem removeNode_order {g g' : Graph} {x : NodeIndex} {r r' : Lcr} (hg : g.nodes.Home) (h : removeNode g x r = .ok (g', r')) :
    g'.nodes.Home ∧ ∀ d, (g'.nodes.cont d).keys = swapOut x (g.nodes.cont d).keys := by
  unfold removeNode at h
  split at h
  · exact absurd h (by simp)
  · rename_i n nodes1 hrem
    simp only at h
    repeat' split at h
    all_goals try (simp only [reduceCtorEq] at h; done)
    rename_i he
    simp only [Except.ok.injEq, Prod.mk.injEq] at h
    rw [← h.1]
    have hs := foldE_shape (fun s : Arena × Lcr => s.1) (f := clearLink x) (fun s e s' hs => by
      simp only [clearLink] at hs
      split at hs
      · exact absurd hs (by simp)
      · rename_i hm
        simp only [Except.ok.injEq] at hs
        rw [← hs]
        exact Arena.modifyAt_shape hm) _ he
    have hn : nodes1 = (g.nodes.remove x).2 := by rw [hrem]
    simp only [hn] at hs
    exact ⟨hs.home (Arena.remove_home hg x), fun d => (hs.2 d).trans (Arena.remove_order hg x d)⟩

theorem applyBidirectional_shape {S : Schema} {g g' : Graph} {r : Lcr} (h : applyBidirectional S g r = .ok g') : g.nodes.Shape g'.nodes := by
  unfold applyBidirectional at h
  split at h
  · exact absurd h (by simp)
  · rename_i g1 h1
    refine (foldE_shape (fun s : Graph => s.nodes) ?_ _ h1).trans (foldE_shape (fun s : Graph => s.nodes) ?_ _ h)
    · intro s c s' hs
      obtain ⟨x, y, l⟩ := c
      simp only [bdRemove] at hs
      split at hs
      · refine foldE_shape (fun s : Graph => s.nodes) ?_ _ hs
        intro s m s' hs
        unfold bdRemoveOne at hs
        repeat' split at hs
        all_goals try (simp only [reduceCtorEq] at hs; done)
        all_goals
          simp only [Except.ok.injEq] at hs
          rw [← hs]
        · rename_i hm
          exact Arena.modifyAt_shape hm
        · rename_i hm _ _ _ _ _ _
          exact Arena.modifyAt_shape hm
      · simp only [Except.ok.injEq] at hs
        rw [hs]; exact .refl _
    · intro s c s' hs
      obtain ⟨x, y, l⟩ := c
      simp only [bdAdd] at hs
      repeat' split at hs
      all_goals try (simp only [reduceCtorEq] at hs; done)
      all_goals
        simp only [Except.ok.injEq] at hs
        rw [← hs]
      all_goals first | exact .refl _ | skip
      · rename_i hm
        exact Arena.modifyAt_shape hm
      · rename_i hm _ _ _
        exact Arena.modifyAt_shape hm

omit [SetImpl] in
/-- A loop of steps with a given effect on the orders. -/
theorem foldE_order {α : Type} {f : Graph × Lcr → α → Except Panic (Graph × Lcr)} {ef : α → List NodeIndex → List NodeIndex}
    (hf : ∀ s a s', s.1.nodes.Home → f s a = .ok s' → s'.1.nodes.Home ∧ ∀ d, (s'.1.nodes.cont d).keys = ef a (s.1.nodes.cont d).keys) (l : List α) :
    ∀ {s s' : Graph × Lcr}, s.1.nodes.Home → foldE f s l = .ok s' →
      s'.1.nodes.Home ∧ ∀ d, (s'.1.nodes.cont d).keys = l.foldl (fun k a => ef a k) (s.1.nodes.cont d).keys := by
  induction l with
  | nil =>
    intro s s' hs h
    simp only [foldE, Except.ok.injEq] at h
    rw [← h]; exact ⟨hs, fun _ => rfl⟩
  | cons a r ih =>
    intro s s' hs h
    simp only [foldE] at h
    split at h
    · rename_i s1 h1
      obtain ⟨h2, h3⟩ := hf _ _ _ hs h1
      obtain ⟨h4, h5⟩ := ih h2 h
      exact ⟨h4, fun d => by rw [h5, h3]; rfl⟩
    · exact absurd h (by simp)

theorem commit_order {S : Schema} {dbg : Bool} {g g' : Graph} {t : Trans} (hg : g.nodes.Inv S) (ht : t.inc.Inv S) (hd : g.nodes.Disjoint t.inc)
    (h : g.commit S dbg t = .ok g') (d : Ident) : (g'.nodes.cont d).keys = orderAfter (g.nodes.cont d).keys d t.orders := by
  unfold commit at h
  split at h
  · exact absurd h (by simp)
  rename_i g7 r7 hc
  split at h
  · exact absurd h (by simp)
  simp only [Except.ok.injEq] at h
  subst h
  unfold doCommit at hc
  split at hc
  · exact absurd hc (by simp)
  split at hc
  · exact absurd hc (by simp)
  split at hc
  · exact absurd hc (by simp)
  rename_i g1 r1 h1
  simp only at hc
  split at hc
  · exact absurd hc (by simp)
  rename_i st3 h3
  split at hc
  · exact absurd hc (by simp)
  rename_i g4 r4 h4
  split at hc
  · exact absurd hc (by simp)
  rename_i st5 h5
  split at hc
  · exact absurd hc (by simp)
  rename_i g6 r6 h6
  split at hc
  · exact absurd hc (by simp)
  rename_i g8 h7
  simp only [Except.ok.injEq, Prod.mk.injEq] at hc
  obtain ⟨rfl, rfl⟩ := hc
  have s1 := redirectLinksVec_shape h1
  have hd1 : g1.nodes.Disjoint t.inc := by
    intro i hi
    rw [s1.1]
    exact hd i hi
  have m2 : ((mergeNodes S g1 t.inc r1).1).nodes = g1.nodes.merge t.inc := rfl
  have hinv1 : g1.nodes.Home := s1.home hg.homes
  have o2 := Arena.merge_order hinv1 ht.homes hd1
  have home2 : (g1.nodes.merge t.inc).Home := by
    intro d i hi
    rw [o2, List.mem_append] at hi
    rw [Arena.merge_disp]
    rcases hi with hi | hi
    · cases hb : t.inc.disp.get? i with
      | none => rw [hinv1 d i hi]; rfl
      | some d' =>
        have := hd1 i (by simp [hb])
        rw [hinv1 d i hi] at this
        exact absurd this (by simp)
    · rw [ht.homes d i hi]; rfl
  have s3 : (g1.nodes.merge t.inc).Shape st3.1.nodes := by
    have := foldE_shape (fun s : Graph × Lcr => s.1.nodes) (fun s p s' hs => modifyNode_shape hs) _ h3
    rw [← m2]
    exact this
  obtain ⟨home4, o4⟩ := foldE_order (α := NodeIndex × Closure) (f := fun st p => updateNode st.1 p.1 p.2 st.2) (ef := fun p => toEnd p.1)
    (fun s p s' hh hs => updateNode_order hh hs) _ (s3.home home2) h4
  have s5 := redirectLinksVec_shape h5
  obtain ⟨home6, o6⟩ := foldE_order (ef := fun x => swapOut x) (fun s x s' hh hs => removeNode_order hh hs) _ (s5.home home4) h6
  have s7 := applyBidirectional_shape h7
  rw [s7.2, o6, s5.2, o4, s3.2, o2, s1.2]
  simp only [orderAfter, Trans.orders, List.foldl_map]

end
end Graph

/-! ### Transactions -/

namespace Arena

theorem store_order {a : Arena} {i : NodeIndex} {n : Node} (h : (a.cont n.disc).get? i = none) (d : Ident) :
    ((a.store i n).cont d).keys = appendTo (fun d => (a.cont d).keys) n.disc i d := by
  simp only [store, appendTo]
  split
  · rename_i e
    subst e
    exact OrderMap.keys_insert_new _ (OrderMap.get?_eq_none.1 h)
  · rfl

end Arena

namespace Trans
variable {S : Schema}

theorem extend_order (l : List Node) (hl : ∀ n ∈ l, S.WT n) : ∀ {t t' : Trans} {cnt cnt' : Nat} {acc acc' : List NodeIndex}, t.Ready S →
    (∀ i : Nat, t.Owns i → i ≤ cnt) → foldE (fun (st : Trans × Nat × List NodeIndex) n =>
      match st.1.insert st.2.1 n with
      | .error e => .error e
      | .ok (i, t', cnt') => .ok (t', cnt', st.2.2 ++ [i])) (t, cnt, acc) l = .ok (t', cnt', acc') →
    ∃ l', acc' = acc ++ l' ∧ t'.orders = { t.orders with new := appendAll l l' t.orders.new } := by
  induction l with
  | nil =>
    intro t t' cnt cnt' acc acc' h hb e
    simp only [foldE, Except.ok.injEq, Prod.mk.injEq] at e
    exact ⟨[], by simp [e.2.2], by rw [← e.1]; rfl⟩
  | cons n l ih =>
    intro t t' cnt cnt' acc acc' h hb e
    have g1 := insert_grown h hb (hl n (by simp))
    simp only [foldE, insert_ok h hb n] at e
    obtain ⟨l', h1, h2⟩ := ih (fun m hm => hl m (by simp [hm])) g1.ready (g1.bound hb) e
    refine ⟨(cnt + 1) :: l', by simp [h1], ?_⟩
    rw [h2]
    simp only [orders, Orders.mk.injEq, and_true, appendAll]
    congr 1
    funext d
    exact Arena.store_order ((fresh_none h hb).2 _) d

theorem order_effect {t t' : Trans} {cnt cnt' : Nat} {l : List NodeIndex} {o : TOp} (h : t.Ready S)
    (hb : ∀ i : Nat, t.Owns i → i ≠ emptyIdx ∧ i ≤ cnt) (ho : o.Allowed S t) (hr : o.run t cnt = .ok (t', cnt', l)) :
    OrderEffect o l t.pending t.orders t'.orders := by
  have hb' : ∀ i : Nat, t.Owns i → i ≤ cnt := fun i hi => (hb i hi).2
  have hinv := h.good.inv
  cases o with
  | insert n =>
    simp only [TOp.run, insert_ok h hb' n, Except.map, Except.ok.injEq, Prod.mk.injEq] at hr
    obtain ⟨rfl, _, rfl⟩ := hr
    refine ⟨_, rfl, ?_⟩
    simp only [orders, Orders.mk.injEq, and_true]
    funext d
    exact Arena.store_order ((fresh_none h hb').2 _) d
  | extend ns =>
    obtain ⟨l', rfl, h2⟩ := extend_order ns ho (acc := []) h hb' hr
    exact h2
  | alloc d =>
    simp only [TOp.run, alloc_ok h hb' d, Except.map, Except.ok.injEq, Prod.mk.injEq] at hr
    obtain ⟨rfl, _, rfl⟩ := hr
    rfl
  | allocUntyped =>
    simp only [TOp.run, Except.ok.injEq, Prod.mk.injEq] at hr
    obtain ⟨rfl, _, rfl⟩ := hr
    rfl
  | fillBack i n =>
    rcases Arena.fillBack_cases t.inc i n with ⟨hd, x⟩ | ⟨d, hd, hn, x⟩ | ⟨hd, hi, x⟩ | ⟨hd, hi, a', x, hc, _⟩ <;>
      simp only [TOp.run, fillBack, x, Except.map, Except.ok.injEq, reduceCtorEq, Prod.mk.injEq] at hr
    obtain ⟨rfl, _, rfl⟩ := hr
    simp only [OrderEffect, orders, Orders.mk.injEq, and_true]
    funext d
    rw [hc]
    exact Arena.store_order (hinv.cont_none_of_get? hi _) d
  | fillBackUntyped i n =>
    rcases Arena.fillBackUntyped_cases t.inc i n with ⟨hi, x⟩ | ⟨hi, x⟩ <;>
      simp only [TOp.run, fillBackUntyped, x, Except.map, Except.ok.injEq, reduceCtorEq, Prod.mk.injEq] at hr
    obtain ⟨rfl, _, rfl⟩ := hr
    simp only [OrderEffect, orders, Orders.mk.injEq, and_true]
    funext d
    exact Arena.store_order hi d
  | remove i =>
    simp only [TOp.run, Except.ok.injEq, Prod.mk.injEq] at hr
    obtain ⟨rfl, _, rfl⟩ := hr
    have ho : ∀ d, ((t.inc.remove i).2.cont d).keys = swapOut i (t.inc.cont d).keys := Arena.remove_order hinv.homes i
    have hsame : t.inc.get? i = none → (fun d => ((t.inc.remove i).2.cont d).keys) = fun d => (t.inc.cont d).keys := by
      intro hn
      funext d
      rw [ho, swapOut_absent]
      rw [← OrderMap.get?_eq_none]
      exact hinv.cont_none_of_get? hn d
    rcases remove_cases t i with ⟨h1, e⟩ | ⟨h1, h2, e⟩ | ⟨h1, h2, e⟩ <;> rw [e]
    · refine .inl ⟨h1, ?_⟩
      simp only [orders, Orders.mk.injEq, and_true]
      funext d
      exact ho d
    · refine .inr (.inl ⟨h1, .inl h2, ?_⟩)
      simp only [orders, Orders.mk.injEq, and_true]
      exact hsame h1
    · by_cases hd : i ∈ t.dec
      · refine .inr (.inl ⟨h1, .inr hd, ?_⟩)
        simp only [orders, Orders.mk.injEq, true_and]
        refine ⟨hsame h1, ?_⟩
        have hd' : i ∈ t.dec.elems := hd
        simp [OrderSet.insert, hd']
      · refine .inr (.inr ⟨h1, h2, hd, ?_⟩)
        simp only [orders, Orders.mk.injEq, true_and]
        refine ⟨hsame h1, ?_⟩
        have hd' : i ∉ t.dec.elems := hd
        simp [OrderSet.insert, hd']
  | mutate i f =>
    simp only [TOp.run, mutate] at hr
    split at hr
    · split at hr
      · exact absurd hr (by simp [Except.map])
      · rename_i hm
        simp only [Except.map, Except.ok.injEq, Prod.mk.injEq] at hr
        obtain ⟨rfl, _, rfl⟩ := hr
        simp only [OrderEffect, orders, Orders.mk.injEq, and_true]
        funext d
        exact (Arena.modifyAt_shape hm).2 d
    · simp only [Except.map, Except.ok.injEq, Prod.mk.injEq] at hr
      obtain ⟨rfl, _, rfl⟩ := hr
      rfl
  | update i f =>
    simp only [TOp.run, update] at hr
    split at hr
    · rename_i hc
      split at hr
      · exact absurd hr (by simp [Except.map])
      · rename_i hm
        simp only [Except.map, Except.ok.injEq, Prod.mk.injEq] at hr
        obtain ⟨rfl, _, rfl⟩ := hr
        refine .inl ⟨?_, ?_⟩
        · rw [Arena.contains_eq] at hc
          exact Option.isSome_iff_ne_none.1 hc
        · simp only [orders, Orders.mk.injEq, and_true]
          funext d
          exact (Arena.updateWith_order hinv.homes hm).2 d
    · rename_i hc
      simp only [Except.map, Except.ok.injEq, Prod.mk.injEq] at hr
      obtain ⟨rfl, _, rfl⟩ := hr
      refine .inr ⟨?_, ?_⟩
      · rw [Arena.contains_eq] at hc
        show t.inc.get? i = none
        simpa using hc
      · simp [orders]
  | redirectAllLinks a b =>
    simp only [TOp.run, Except.ok.injEq, Prod.mk.injEq] at hr
    obtain ⟨rfl, _, rfl⟩ := hr
    rfl
  | redirectLinks a b =>
    simp only [TOp.run, Except.ok.injEq, Prod.mk.injEq] at hr
    obtain ⟨rfl, _, rfl⟩ := hr
    rfl

end Trans

/-! ### Arenas filled from a list -/

namespace Arena
variable {S : Schema}

/-- The indices of the nodes of the variant `d`, in the order of the list. -/
def ofVariant (d : Ident) (l : List (NodeIndex × Node)) : List NodeIndex := (l.filter fun e => decide (e.2.disc = d)).map Prod.fst

theorem ofVariant_entries (hS : S.discs.Nodup) {a : Arena} (ha : a.Inv S) (ht : a.Typed) (d : Ident) : ofVariant d (a.entries S) = (a.cont d).keys := by
  have h1 : ∀ d', ((a.cont d').entries.filter fun e => decide (e.2.disc = d)) = if d' = d then (a.cont d).entries else [] := by
    intro d'
    by_cases e : d' = d
    · subst e
      rw [if_pos rfl, List.filter_eq_self]
      rintro ⟨i, n⟩ he
      simp only [decide_eq_true_eq]
      exact ht d' i n (OrderMap.get?_eq_some.2 he)
    · rw [if_neg e, List.filter_eq_nil_iff]
      rintro ⟨i, n⟩ he
      simp only [decide_eq_true_eq]
      intro e'
      exact e ((ht d' i n (OrderMap.get?_eq_some.2 he)).symm.trans e')
  have h2 : ∀ ds : List Ident, ds.Nodup → (ds.flatMap fun d' => (if d' = d then (a.cont d).entries else [] : List (NodeIndex × Node))) =
      if d ∈ ds then (a.cont d).entries else [] := by
    intro ds
    induction ds with
    | nil => simp
    | cons x r ih =>
      intro hn
      rw [List.nodup_cons] at hn
      rw [List.flatMap_cons, ih hn.2]
      by_cases e : x = d
      · subst e
        simp [hn.1]
      · have : ¬ d = x := fun e' => e e'.symm
        simp [e, this]
  unfold ofVariant entries
  rw [List.filter_flatMap]
  simp only [h1]
  rw [h2 _ hS]
  split
  · rfl
  · rename_i hd
    symm
    simp only [List.map_nil]
    rw [List.eq_nil_iff_forall_not_mem]
    intro i hi
    exact hd (ha.decl i d (ha.homes d i hi))

theorem newFromIter_order (l : List (NodeIndex × Node)) : ∀ {a a' : Arena}, (∀ d i, i ∈ (a.cont d).keys → a.disp.get? i ≠ none) →
    foldE newFromIterStep a l = .ok a' → ∀ d, (a'.cont d).keys = (a.cont d).keys ++ ofVariant d l := by
  induction l with
  | nil =>
    intro a a' _ h d
    simp only [foldE, Except.ok.injEq] at h
    rw [h]; simp [ofVariant]
  | cons e r ih =>
    intro a a' ha h d
    have hstep : newFromIterStep a e = .ok (a.store e.1 e.2) ∧ (a.cont e.2.disc).get? e.1 = none := by
      cases h1 : a.disp.get? e.1 with
      | some x =>
        simp only [foldE, newFromIterStep, OrderMap.contains, h1, Option.isSome_some, if_true, reduceCtorEq] at h
      | none =>
        have h2 : (a.cont e.2.disc).get? e.1 = none := by
          rw [OrderMap.get?_eq_none]
          intro hi
          exact ha _ _ hi h1
        exact ⟨newFromIterStep_ok h1 h2, h2⟩
    simp only [foldE, hstep.1] at h
    rw [ih ?_ h d, store_order hstep.2]
    · simp only [appendTo, ofVariant, List.filter_cons]
      by_cases hd : e.2.disc = d
      · simp [hd]
      · have : ¬ d = e.2.disc := fun x => hd x.symm
        simp [hd, this]
    · intro d' i hi
      rw [store_order hstep.2] at hi
      rw [store_disp]
      by_cases hie : e.1 = i
      · simp [hie]
      · rw [if_neg hie]
        simp only [appendTo] at hi
        split at hi
        · rw [List.mem_append, List.mem_singleton] at hi
          rcases hi with hi | hi
          · exact ha _ _ hi
          · exact absurd hi.symm hie
        · exact ha _ _ hi

/-- The nodes of a list under the indices from `c + 1` on. -/
def numbered : Nat → List (NodeIndex × Node) → List (NodeIndex × Node)
  | _, [] => []
  | c, e :: r => (c + 1, e.2) :: numbered (c + 1) r

theorem numbered_fst (l : List (NodeIndex × Node)) : ∀ c : Nat, (numbered c l).map Prod.fst = List.range' (c + 1) l.length := by
  induction l with
  | nil => intro c; rfl
  | cons e r ih => intro c; simp [numbered, ih, List.range'_succ]

/-- Numbering commutes with taking out the parts of the variants one after the other. -/
theorem numbered_append (l l' : List (NodeIndex × Node)) : ∀ c : Nat, numbered c (l ++ l') = numbered c l ++ numbered (c + l.length) l' := by
  induction l with
  | nil => intro c; simp [numbered]
  | cons e r ih =>
    intro c
    simp only [List.cons_append, numbered, ih, List.length_cons]
    rw [show c + 1 + r.length = c + (r.length + 1) by omega]

theorem numbered_snd (l : List (NodeIndex × Node)) : ∀ c : Nat, (numbered c l).map Prod.snd = l.map Prod.snd := by
  induction l with
  | nil => intro c; rfl
  | cons e r ih => intro c; simp [numbered, ih]

theorem switchInsert_order (E : List (NodeIndex × Node)) (hE : ∀ e ∈ E, e.2.disc ∈ S.discs) :
    ∀ {a : Arena} {m : OrderMap NodeIndex NodeIndex} {cnt : Nat} {st : Arena × OrderMap NodeIndex NodeIndex × Nat}, a.Inv S →
    (∀ i : Nat, cnt < i → a.disp.get? i = none) →
    foldE (fun (st : Arena × OrderMap NodeIndex NodeIndex × Nat) (e : NodeIndex × Node) =>
      match st.1.insert st.2.2 e.2 with
      | .error p => .error p
      | .ok (new, a, cnt') => .ok (a, st.2.1.insert e.1 new, cnt')) (a, m, cnt) E = .ok st →
    st.2.2 = cnt + E.length ∧ ∀ d, (st.1.cont d).keys = (a.cont d).keys ++ ofVariant d (numbered cnt E) := by
  induction E with
  | nil =>
    intro a m cnt st _ _ h
    simp only [foldE, Except.ok.injEq] at h
    rw [← h]; simp [ofVariant, numbered]
  | cons e r ih =>
    intro a m cnt st ha hf h
    have hf1 : a.disp.get? (cnt + 1 : Nat) = none := hf (cnt + 1) (Nat.lt_succ_self cnt)
    have hc : ∀ d, (a.cont d).get? (cnt + 1 : Nat) = none := fun d => ha.cont_none hf1 d
    simp only [foldE, insert_ok ha hf1 e.2] at h
    obtain ⟨h1, h2⟩ := ih (fun x hx => hE x (List.mem_cons_of_mem _ hx)) (store_inv ha (hE e List.mem_cons_self) hc) (by
      intro i hi
      have h3 : ¬ (cnt + 1 : Nat) = i := by omega
      rw [store_disp, if_neg h3]
      exact hf i (by omega)) h
    refine ⟨by rw [h1, List.length_cons]; omega, fun d => ?_⟩
    rw [h2, store_order (hc _)]
    simp only [appendTo, ofVariant, numbered, List.filter_cons]
    by_cases hd : e.2.disc = d
    · simp [hd]
    · have : ¬ d = e.2.disc := fun x => hd x.symm
      simp [hd, this]

end Arena

namespace Graph
variable [SetImpl] {S : Schema}

omit [SetImpl] in
theorem mergeNew_order (a : Arena) (c : Nat) (d : Ident) :
    ((mergeNodes S (Graph.new c) a Lcr.new).1.nodes.cont d).keys = (a.cont d).keys := by
  show (OrderMap.append OrderMap.empty (a.cont d)).keys = _
  rw [OrderMap.keys_append]
  · rfl
  · intro k _ hk
    simp [OrderMap.keys, OrderMap.empty] at hk

theorem doDeserialize_order {g : Graph} {c : Nat} {l : List (NodeIndex × Node)} (h : doDeserialize S c l = .ok g) (d : Ident) :
    (g.nodes.cont d).keys = Arena.ofVariant d l := by
  unfold doDeserialize at h
  split at h
  · exact absurd h (by simp)
  · rename_i a ha
    have := applyBidirectional_shape h
    rw [this.2]
    refine (mergeNew_order (S := S) a c d).trans ?_
    rw [Arena.newFromIter_order l (by intro d i hi; simp [Arena.new, OrderMap.keys, OrderMap.empty] at hi) ha d]
    simp [Arena.new, OrderMap.keys, OrderMap.empty]

theorem switchContext_order {g g' : Graph} {u cnt cnt' : Nat} (hE : ∀ e ∈ g.iter S, e.2.disc ∈ S.discs)
    (h : g.switchContext S u cnt = .ok (g', cnt')) (d : Ident) :
    (g'.nodes.cont d).keys = Arena.ofVariant d (Arena.numbered cnt (g.iter S)) := by
  unfold switchContext at h
  split at h
  · exact absurd h (by simp)
  rename_i nodes m c1 hn
  simp only at h
  split at h
  · exact absurd h (by simp)
  rename_i g2 hb
  split at h
  · exact absurd h (by simp)
  simp only [Except.ok.injEq, Prod.mk.injEq] at h
  obtain ⟨rfl, rfl⟩ := h
  rw [(applyBidirectional_shape hb).2, mergeNew_order]
  unfold switchNodes at hn
  split at hn
  · exact absurd hn (by simp)
  rename_i a0 m0 c0 hi
  split at hn
  · exact absurd hn (by simp)
  rename_i a1 ha1
  simp only [Except.ok.injEq, Prod.mk.injEq] at hn
  obtain ⟨rfl, rfl, rfl⟩ := hn
  have hs := foldE_shape (fun s : Arena => s) (fun s p s' hs => by
    unfold switchNode at hs
    split at hs
    · exact absurd hs (by simp)
    · refine foldE_shape (fun s : Arena => s) ?_ _ hs
      intro s e s' hs
      unfold switchLink at hs
      split at hs
      · exact absurd hs (by simp)
      · split at hs
        · exact absurd hs (by simp)
        · rename_i hm
          simp only [Except.ok.injEq] at hs
          rw [← hs]
          exact Arena.modifyAt_shape hm) _ ha1
  rw [hs.2]
  have := (Arena.switchInsert_order (S := S) (g.iter S) hE ⟨by simp [Arena.new], by simp [Arena.new]⟩ (by simp [Arena.new]) hi).2 d
  rw [this]
  simp [Arena.new, OrderMap.keys, OrderMap.empty]

end Graph

theorem filter_grouped {α : Type} (cls : α → Ident) (d : Ident) : ∀ (ds : List Ident) (c : Ident → List α), ds.Nodup →
    (∀ d ∈ ds, ∀ e ∈ c d, cls e = d) → ((ds.flatMap c).filter fun e => decide (cls e = d)) = if d ∈ ds then c d else [] := by
  intro ds
  induction ds with
  | nil => simp
  | cons x r ih =>
    intro c hn hc
    rw [List.nodup_cons] at hn
    rw [List.flatMap_cons, List.filter_append, ih c hn.2 (fun d hd => hc d (List.mem_cons_of_mem _ hd))]
    by_cases e : x = d
    · subst e
      have : (c x).filter (fun e => decide (cls e = x)) = c x := by
        rw [List.filter_eq_self]
        intro e he
        simpa using hc x List.mem_cons_self e he
      simp [this, hn.1]
    · have h1 : (c x).filter (fun e => decide (cls e = d)) = [] := by
        rw [List.filter_eq_nil_iff]
        intro y hy
        simp only [decide_eq_true_eq]
        rw [hc x List.mem_cons_self y hy]
        exact e
      have : ¬ d = x := fun e' => e e'.symm
      simp [h1, this]

/-- Regrouping a list that is grouped already. -/
theorem regroup {α : Type} (cls : α → Ident) (ds : List Ident) (c : Ident → List α) (hn : ds.Nodup) (hc : ∀ d ∈ ds, ∀ e ∈ c d, cls e = d) :
    (ds.flatMap fun d => (ds.flatMap c).filter fun e => decide (cls e = d)) = ds.flatMap c := by
  refine List.flatMap_congr fun d hd => ?_
  rw [filter_grouped cls d ds c hn hc, if_pos hd]

theorem numbered_grouped : ∀ (ds : List Ident) (c : Ident → List (NodeIndex × Node)) (k : Nat), ds.Nodup → (∀ d ∈ ds, ∀ e ∈ c d, e.2.disc = d) →
    ∃ c', Arena.numbered k (ds.flatMap c) = ds.flatMap c' ∧ ∀ d ∈ ds, ∀ e ∈ c' d, e.2.disc = d := by
  intro ds
  induction ds with
  | nil => intro c k _ _; exact ⟨c, rfl, by simp⟩
  | cons x r ih =>
    intro c k hn hc
    rw [List.nodup_cons] at hn
    obtain ⟨c', h1, h2⟩ := ih c (k + (c x).length) hn.2 (fun d hd => hc d (List.mem_cons_of_mem _ hd))
    refine ⟨fun d => if d = x then Arena.numbered k (c x) else c' d, ?_, ?_⟩
    · rw [List.flatMap_cons, List.flatMap_cons, Arena.numbered_append, h1, if_pos rfl]
      congr 1
      refine List.flatMap_congr fun d hd => ?_
      rw [if_neg (fun e : d = x => hn.1 (e ▸ hd))]
    · intro d hd e he
      dsimp only at he
      by_cases hdx : d = x
      · subst hdx
        rw [if_pos rfl] at he
        have h3 : e.2 ∈ (c d).map Prod.snd := by
          rw [← Arena.numbered_snd (c d) k]
          exact List.mem_map_of_mem he
        obtain ⟨e', he', hee⟩ := List.mem_map.1 h3
        rw [← hee]
        exact hc d List.mem_cons_self e' he'
      · rw [if_neg hdx] at he
        rcases List.mem_cons.1 hd with hd | hd
        · exact absurd hd hdx
        · exact h2 d hd e he

theorem Graph.iter_fst (S : Schema) (g : Graph) : (g.iter S).map Prod.fst = S.discs.flatMap fun d => (g.nodes.cont d).keys := by
  simp only [Graph.iter, Arena.entries, List.map_flatMap]
  rfl

end TTGraph
