import Verif.Lemmas.Commit

/-!
# The operations that build a transaction
-/

set_option autoImplicit false

namespace TTGraph
namespace Arena

variable {S : Schema}

/-- Store a node under an index, with its variant in the dispatcher. -/
def store (a : Arena) (i : NodeIndex) (n : Node) : Arena :=
  { disp := a.disp.insert i n.disc, cont := fun d => if d = n.disc then (a.cont n.disc).insert i n else a.cont d }

theorem store_get? (a : Arena) (i : NodeIndex) (n : Node) (j : NodeIndex) : (a.store i n).get? j = if i = j then some n else a.get? j := by
  simp only [get?, store, OrderMap.get?_insert]
  by_cases h : i = j
  · subst h; simp
  · simp only [if_neg h]
    cases hd : a.disp.get? j with
    | none => rfl
    | some d =>
      simp only [Option.bind_some]
      by_cases hn : d = n.disc
      · subst hn; simp only [if_true, OrderMap.get?_insert, if_neg h]
      · simp only [if_neg hn]

theorem store_inv {a : Arena} (h : a.Inv S) {i : NodeIndex} {n : Node} (hd : n.disc ∈ S.discs) (hi : ∀ d', (a.cont d').get? i = none) :
    (a.store i n).Inv S := by
  constructor
  · intro d j m hc
    simp only [store] at hc ⊢
    rw [OrderMap.get?_insert]
    by_cases hd' : d = n.disc
    · subst hd'
      simp only [if_true, OrderMap.get?_insert] at hc
      by_cases hij : i = j
      · simp [hij]
      · rw [if_neg hij] at hc ⊢; exact h.home _ _ _ hc
    · simp only [if_neg hd'] at hc
      by_cases hij : i = j
      · subst hij; rw [hi d] at hc; exact absurd hc (by simp)
      · rw [if_neg hij]; exact h.home _ _ _ hc
  · intro j d hj
    simp only [store, OrderMap.get?_insert] at hj
    split at hj
    · simp only [Option.some.injEq] at hj; exact hj ▸ hd
    · exact h.decl _ _ hj

theorem store_typed {a : Arena} (h : a.Typed) (i : NodeIndex) (n : Node) : (a.store i n).Typed := by
  intro d j m hc
  simp only [store] at hc
  by_cases hd : d = n.disc
  · subst hd
    simp only [if_true, OrderMap.get?_insert] at hc
    split at hc
    · simp only [Option.some.injEq] at hc; rw [← hc]
    · exact h _ _ _ hc
  · simp only [if_neg hd] at hc; exact h _ _ _ hc

theorem store_disp (a : Arena) (i : NodeIndex) (n : Node) (j : NodeIndex) :
    (a.store i n).disp.get? j = if i = j then some n.disc else a.disp.get? j := by
  simp only [store, OrderMap.get?_insert]

theorem insert_ok {a : Arena} (h : a.Inv S) {cnt : Nat} (hf : a.disp.get? (cnt + 1) = none) (n : Node) :
    a.insert cnt n = .ok (cnt + 1, a.store (cnt + 1) n, cnt + 1) := by
  have hc : ((a.cont n.disc).contains (cnt + 1)) = false := by simp [OrderMap.contains, h.cont_none hf]
  simp only [insert, alloc_ok hf, hc]
  simp [setCont, store]

theorem fillBack_ok {a : Arena} {i : NodeIndex} {n : Node} (hd : a.disp.get? i = some n.disc) (hc : (a.cont n.disc).get? i = none) :
    ∃ a', a.fillBack i n = .ok a' ∧ a'.cont = (a.store i n).cont ∧ a'.disp = a.disp := by
  refine ⟨a.setCont n.disc ((a.cont n.disc).insert i n), ?_, rfl, rfl⟩
  simp [fillBack, hd, OrderMap.contains, hc]

theorem fillBack_cases (a : Arena) (i : NodeIndex) (n : Node) :
    (a.disp.get? i = none ∧ a.fillBack i n = .error .fillNonexisting) ∨
    (∃ d, a.disp.get? i = some d ∧ n.disc ≠ d ∧ a.fillBack i n = .error .fillType) ∨
    (a.disp.get? i = some n.disc ∧ a.get? i ≠ none ∧ a.fillBack i n = .error .fillOccupied) ∨
    (a.disp.get? i = some n.disc ∧ a.get? i = none ∧ ∃ a', a.fillBack i n = .ok a' ∧ a'.cont = (a.store i n).cont ∧ a'.disp = a.disp) := by
  cases hd : a.disp.get? i with
  | none => left; simp [fillBack, hd]
  | some d =>
    by_cases hn : n.disc = d
    · subst hn
      rw [get?_of_disp hd]
      cases hc : (a.cont n.disc).get? i with
      | some m => right; right; left; simp [fillBack, hd, OrderMap.contains, hc]
      | none =>
        right; right; right
        exact ⟨rfl, rfl, fillBack_ok hd hc⟩
    · right; left
      exact ⟨d, rfl, hn, by simp [fillBack, hd, hn]⟩

theorem fillBackUntyped_cases (a : Arena) (i : NodeIndex) (n : Node) :
    ((a.cont n.disc).get? i ≠ none ∧ a.fillBackUntyped i n = .error .fillOccupied) ∨
    ((a.cont n.disc).get? i = none ∧ a.fillBackUntyped i n = .ok (a.store i n)) := by
  cases hc : (a.cont n.disc).get? i with
  | some m => left; simp [fillBackUntyped, OrderMap.contains, hc]
  | none =>
    right
    refine ⟨rfl, ?_⟩
    simp only [fillBackUntyped, OrderMap.contains, hc]
    simp [setCont, store]

theorem Inv.cont_none_of_get? {a : Arena} (h : a.Inv S) {i : NodeIndex} (hi : a.get? i = none) (d : Ident) : (a.cont d).get? i = none := by
  cases hc : (a.cont d).get? i with
  | none => rfl
  | some n => rw [h.get? hc] at hi; exact absurd hi (by simp)

theorem eq_store {a a' : Arena} {i : NodeIndex} {n : Node} (hc : a'.cont = (a.store i n).cont) (hd : a'.disp = a.disp)
    (hi : a.disp.get? i = some n.disc) (j : NodeIndex) : a'.get? j = if i = j then some n else a.get? j := by
  rw [← store_get?]
  simp only [get?]
  rw [hc, hd, store_disp]
  by_cases h : i = j
  · subst h; simp [hi]
  · simp [h]

theorem eq_store_inv {a a' : Arena} {i : NodeIndex} {n : Node} (hc : a'.cont = (a.store i n).cont) (hd : a'.disp = a.disp)
    (hi : a.disp.get? i = some n.disc) (h : (a.store i n).Inv S) : a'.Inv S := by
  have e : ∀ j, a'.disp.get? j = (a.store i n).disp.get? j := by
    intro j
    rw [hd, store_disp]
    by_cases h : i = j
    · subst h; simp [hi]
    · simp [h]
  constructor
  · intro d j m hm; rw [hc] at hm; rw [e]; exact h.home _ _ _ hm
  · intro j d hj; rw [e] at hj; exact h.decl _ _ hj

end Arena

theorem Schema.WT.disc {S : Schema} {n : Node} (h : S.WT n) : n.disc ∈ S.discs := by
  obtain ⟨sd, h1, _⟩ := h
  simp only [Schema.struct?, Option.map_eq_some_iff] at h1
  obtain ⟨p, hp, _⟩ := h1
  have h2 := List.find?_some hp
  have h3 := List.mem_of_find?_eq_some hp
  simp only [decide_eq_true_eq] at h2
  exact List.mem_map.2 ⟨p, h3, h2⟩

/-- A transaction as it can be reached by API calls. -/
structure Trans.Ready (S : Schema) (t : Trans) : Prop where
  good : t.Good S
  noFrom : t.NoFromEmpty
  allocs : ∀ i ∈ t.allocs, t.inc.get? i = none

/-- The indices that the transaction has got from the context and still holds. -/
def Trans.Owns (t : Trans) (i : NodeIndex) : Prop := t.inc.disp.get? i ≠ none ∨ i ∈ t.allocs

/-- The indices of the nodes of a graph. -/
def Graph.Owns (g : Graph) (i : NodeIndex) : Prop := g.nodes.disp.get? i ≠ none

namespace Trans
variable {S : Schema}

theorem new_ready (S : Schema) (c : Nat) : (new c).Ready S where
  good := { inv := Arena.new_inv S, noEmpty := rfl, wt := by intro x n h; simp [new] at h, closures := by intro p h; simp [new] at h }
  noFrom := by intro n h; simp [new] at h
  allocs := by intro i h; simp [new] at h

theorem new_owns (c : Nat) (i : NodeIndex) : ¬ (new c).Owns i := by
  rintro (h | h)
  · exact h rfl
  · simp [new] at h

/-- What an operation may do to a transaction. -/
structure Grown (S : Schema) (t t' : Trans) (cnt cnt' : Nat) (l : List NodeIndex) : Prop where
  ready : t'.Ready S
  ctx : t'.ctxId = t.ctxId
  list : l = List.range' (cnt + 1) (cnt' - cnt)
  le : cnt ≤ cnt'
  owns : ∀ i : Nat, t'.Owns i → t.Owns i ∨ (cnt < i ∧ i ≤ cnt')

theorem insert_ok {t : Trans} (h : t.Ready S) {cnt : Nat} (hb : ∀ i : Nat, t.Owns i → i ≤ cnt) (n : Node) :
    t.insert cnt n = .ok (cnt + 1, { t with inc := t.inc.store (cnt + 1) n }, cnt + 1) := by
  have hf : t.inc.disp.get? (cnt + 1) = none := by
    by_contra hc; exact absurd (hb _ (Or.inl hc)) (by omega)
  simp [insert, Arena.insert_ok h.good.inv hf]

theorem fresh_none {t : Trans} (h : t.Ready S) {cnt : Nat} (hb : ∀ i : Nat, t.Owns i → i ≤ cnt) :
    t.inc.disp.get? (cnt + 1) = none ∧ ∀ d, (t.inc.cont d).get? (cnt + 1) = none := by
  have hf : t.inc.disp.get? (cnt + 1) = none := by
    by_contra hc; exact absurd (hb _ (Or.inl hc)) (by omega)
  exact ⟨hf, fun d => h.good.inv.cont_none hf d⟩

theorem insert_grown {t : Trans} (h : t.Ready S) {cnt : Nat} (hb : ∀ i : Nat, t.Owns i → i ≤ cnt) {n : Node} (hn : S.WT n) :
    Grown S t { t with inc := t.inc.store (cnt + 1) n } cnt (cnt + 1) [cnt + 1] where
  ready :=
    { good :=
        { inv := Arena.store_inv h.good.inv hn.disc (fresh_none h hb).2
          noEmpty := by rw [Arena.store_get?, if_neg (by simp [emptyIdx])]; exact h.good.noEmpty
          wt := by
            intro x m hm
            rw [Arena.store_get?] at hm
            split at hm
            · simp only [Option.some.injEq] at hm; exact hm ▸ hn
            · exact h.good.wt _ _ hm
          closures := h.good.closures }
      noFrom := h.noFrom
      allocs := by
        intro i hi
        rw [Arena.store_get?, if_neg]
        · exact h.allocs i hi
        · intro (he : (cnt + 1 : Nat) = i); have := hb i (Or.inr hi); omega }
  ctx := rfl
  list := by simp
  le := by omega
  owns := by
    rintro i (hi | hi)
    · simp only [Arena.store_disp] at hi
      by_cases he : cnt + 1 = i
      · right; omega
      · rw [if_neg he] at hi; exact Or.inl (Or.inl hi)
    · exact Or.inl (Or.inr hi)

theorem Grown.trans {t t1 t2 : Trans} {c c1 c2 : Nat} {l1 l2 : List NodeIndex} (h1 : Grown S t t1 c c1 l1) (h2 : Grown S t1 t2 c1 c2 l2) :
    Grown S t t2 c c2 (l1 ++ l2) where
  ready := h2.ready
  ctx := h2.ctx.trans h1.ctx
  list := by
    have e1 := h1.le; have e2 := h2.le
    rw [h1.list, h2.list, show c1 + 1 = (c + 1) + 1 * (c1 - c) by omega, List.range'_append]
    congr 1; omega
  le := Nat.le_trans h1.le h2.le
  owns := by
    intro i hi
    have e1 := h1.le; have e2 := h2.le
    rcases h2.owns i hi with h | h
    · rcases h1.owns i h with h | h
      · exact Or.inl h
      · right; omega
    · right; omega

theorem Grown.refl {t : Trans} (h : t.Ready S) (c : Nat) : Grown S t t c c [] where
  ready := h
  ctx := rfl
  list := by simp
  le := Nat.le_refl c
  owns := fun _ h => Or.inl h

theorem Grown.bound {t t' : Trans} {c c' : Nat} {l : List NodeIndex} (h : Grown S t t' c c' l) (hb : ∀ i : Nat, t.Owns i → i ≤ c) :
    ∀ i : Nat, t'.Owns i → i ≤ c' := by
  intro i hi
  rcases h.owns i hi with h' | h'
  · exact Nat.le_trans (hb i h') h.le
  · exact h'.2

theorem extend_aux (l : List Node) (hl : ∀ n ∈ l, S.WT n) : ∀ {t : Trans} {cnt : Nat} {acc : List NodeIndex}, t.Ready S → (∀ i : Nat, t.Owns i → i ≤ cnt) →
    ∃ t' cnt' l', foldE (fun (st : Trans × Nat × List NodeIndex) n =>
      match st.1.insert st.2.1 n with
      | .error e => .error e
      | .ok (i, t', cnt') => .ok (t', cnt', st.2.2 ++ [i])) (t, cnt, acc) l = .ok (t', cnt', acc ++ l') ∧ Grown S t t' cnt cnt' l' := by
  induction l with
  | nil => intro t cnt acc h hb; exact ⟨t, cnt, [], by simp [foldE], Grown.refl h cnt⟩
  | cons n l ih =>
    intro t cnt acc h hb
    have g1 := insert_grown h hb (hl n (by simp))
    obtain ⟨t', cnt', l', e, g2⟩ := ih (fun m hm => hl m (by simp [hm])) (acc := acc ++ [cnt + 1]) g1.ready (g1.bound hb)
    refine ⟨t', cnt', [cnt + 1] ++ l', ?_, g1.trans g2⟩
    simp only [foldE, insert_ok h hb n, e]
    simp

theorem extend_ok {t : Trans} (h : t.Ready S) {cnt : Nat} (hb : ∀ i : Nat, t.Owns i → i ≤ cnt) {l : List Node} (hl : ∀ n ∈ l, S.WT n) :
    ∃ t' cnt' l', t.extend cnt l = .ok (t', cnt', l') ∧ Grown S t t' cnt cnt' l' := by
  obtain ⟨t', cnt', l', e, g⟩ := extend_aux l hl (acc := []) h hb
  exact ⟨t', cnt', l', e, g⟩

theorem alloc_ok {t : Trans} (h : t.Ready S) {cnt : Nat} (hb : ∀ i : Nat, t.Owns i → i ≤ cnt) (d : Ident) :
    t.alloc cnt d = .ok (cnt + 1, { t with inc := { t.inc with disp := t.inc.disp.insert (cnt + 1) d }, allocs := t.allocs.insert (cnt + 1) }, cnt + 1) := by
  simp [alloc, Arena.alloc_ok (fresh_none h hb).1]

theorem alloc_get? {t : Trans} (h : t.Ready S) {cnt : Nat} (hb : ∀ i : Nat, t.Owns i → i ≤ cnt) (d : Ident) (j : NodeIndex) :
    ({ t.inc with disp := t.inc.disp.insert (cnt + 1) d } : Arena).get? j = t.inc.get? j := by
  simp only [Arena.get?, OrderMap.get?_insert]
  by_cases e : cnt + 1 = j
  · subst e; simp [(fresh_none h hb).1, (fresh_none h hb).2]
  · simp [e]

theorem alloc_grown {t : Trans} (h : t.Ready S) {cnt : Nat} (hb : ∀ i : Nat, t.Owns i → i ≤ cnt) {d : Ident} (hd : d ∈ S.discs) :
    Grown S t { t with inc := { t.inc with disp := t.inc.disp.insert (cnt + 1) d }, allocs := t.allocs.insert (cnt + 1) } cnt (cnt + 1) [cnt + 1] where
  ready :=
    { good :=
        { inv := Arena.withDisp_inv h.good.inv hd (by intro d' hd'; exact absurd ((fresh_none h hb).2 d') hd')
          noEmpty := by rw [alloc_get? h hb]; exact h.good.noEmpty
          wt := by intro x m hm; rw [alloc_get? h hb] at hm; exact h.good.wt _ _ hm
          closures := h.good.closures }
      noFrom := h.noFrom
      allocs := by
        intro i hi
        rw [alloc_get? h hb]
        rcases OrderSet.mem_insert.1 hi with rfl | hi
        · exact Arena.get?_of_disp_none (fresh_none h hb).1
        · exact h.allocs i hi }
  ctx := rfl
  list := by simp
  le := by omega
  owns := by
    rintro i (hi | hi)
    · simp only [OrderMap.get?_insert] at hi
      by_cases he : cnt + 1 = i
      · right; omega
      · rw [if_neg he] at hi; exact Or.inl (Or.inl hi)
    · rcases OrderSet.mem_insert.1 hi with rfl | hi
      · right; omega
      · exact Or.inl (Or.inr hi)

theorem allocUntyped_grown {t : Trans} (h : t.Ready S) {cnt : Nat} (hb : ∀ i : Nat, t.Owns i → i ≤ cnt) :
    Grown S t (t.allocUntyped cnt).2.1 cnt (t.allocUntyped cnt).2.2 [(t.allocUntyped cnt).1] where
  ready :=
    { good := { inv := h.good.inv, noEmpty := h.good.noEmpty, wt := h.good.wt, closures := h.good.closures }
      noFrom := h.noFrom
      allocs := by
        intro i hi
        rcases OrderSet.mem_insert.1 hi with rfl | hi
        · exact Arena.get?_of_disp_none (fresh_none h hb).1
        · exact h.allocs i hi }
  ctx := rfl
  list := by simp [allocUntyped, Arena.allocUntyped, idAlloc]
  le := by simp [allocUntyped, Arena.allocUntyped, idAlloc]
  owns := by
    rintro i (hi | hi)
    · exact Or.inl (Or.inl hi)
    · rcases OrderSet.mem_insert.1 hi with rfl | hi
      · right; simp [allocUntyped, Arena.allocUntyped, idAlloc]
      · exact Or.inl (Or.inr hi)

theorem filled {t : Trans} (h : t.Ready S) {i : NodeIndex} {n : Node} (hn : S.WT n) (hi : i ≠ emptyIdx)
    {a : Arena} (hinv : a.Inv S) (hget : ∀ j, a.get? j = if i = j then some n else t.inc.get? j)
    (hown : ∀ j, a.disp.get? j ≠ none → t.Owns j) (c : Nat) :
    Grown S t { t with inc := a, allocs := t.allocs.swapRemove i } c c [] where
  ready :=
    { good :=
        { inv := hinv
          noEmpty := by rw [hget, if_neg hi]; exact h.good.noEmpty
          wt := by
            intro x m hm
            rw [hget] at hm
            split at hm
            · simp only [Option.some.injEq] at hm; exact hm ▸ hn
            · exact h.good.wt _ _ hm
          closures := h.good.closures }
      noFrom := h.noFrom
      allocs := by
        intro j hj
        have := OrderSet.mem_swapRemove.1 hj
        rw [hget, if_neg (Ne.symm this.2)]
        exact h.allocs j this.1 }
  ctx := rfl
  list := by simp
  le := Nat.le_refl c
  owns := by
    rintro j (hj | hj)
    · exact Or.inl (hown j hj)
    · exact Or.inl (Or.inr (OrderSet.mem_swapRemove.1 hj).1)

theorem fillBack_grown {t t' : Trans} (h : t.Ready S) {i : NodeIndex} {n : Node} (hn : S.WT n) (h0 : ∀ i, t.Owns i → i ≠ emptyIdx)
    (hr : t.fillBack i n = .ok t') (c : Nat) : Grown S t t' c c [] := by
  rcases Arena.fillBack_cases t.inc i n with ⟨_, e⟩ | ⟨_, _, _, e⟩ | ⟨_, _, e⟩ | ⟨h1, h2, a', e, h3, h4⟩ <;> simp only [fillBack, e] at hr
  · exact absurd hr (by simp)
  · exact absurd hr (by simp)
  · exact absurd hr (by simp)
  · simp only [Except.ok.injEq] at hr
    subst hr
    refine filled h hn (h0 i (Or.inl (by simp [h1]))) ?_ (Arena.eq_store h3 h4 h1) ?_ c
    · exact Arena.eq_store_inv h3 h4 h1 (Arena.store_inv h.good.inv hn.disc (fun d => h.good.inv.cont_none_of_get? h2 d))
    · intro j hj; rw [h4] at hj; exact Or.inl hj

theorem fillBackUntyped_grown {t t' : Trans} (h : t.Ready S) {i : NodeIndex} {n : Node} (hn : S.WT n) (hi : i ∈ t.allocs)
    (h0 : ∀ i, t.Owns i → i ≠ emptyIdx) (hr : t.fillBackUntyped i n = .ok t') (c : Nat) : Grown S t t' c c [] := by
  rcases Arena.fillBackUntyped_cases t.inc i n with ⟨_, e⟩ | ⟨h1, e⟩ <;> simp only [fillBackUntyped, e] at hr
  · exact absurd hr (by simp)
  · simp only [Except.ok.injEq] at hr
    subst hr
    refine filled h hn (h0 i (Or.inr hi)) ?_ (Arena.store_get? _ _ _) ?_ c
    · exact Arena.store_inv h.good.inv hn.disc (fun d => h.good.inv.cont_none_of_get? (h.allocs i hi) d)
    · intro j hj
      rw [Arena.store_disp] at hj
      by_cases e : i = j
      · exact e ▸ Or.inr hi
      · rw [if_neg e] at hj; exact Or.inl hj

theorem remove_cases (t : Trans) (i : NodeIndex) :
    (t.inc.get? i ≠ none ∧ t.remove i = { t with inc := (t.inc.remove i).2 }) ∨
    (t.inc.get? i = none ∧ i ∈ t.allocs ∧ t.remove i = { t with inc := (t.inc.remove i).2, allocs := t.allocs.swapRemove i }) ∨
    (t.inc.get? i = none ∧ i ∉ t.allocs ∧ t.remove i = { t with inc := (t.inc.remove i).2, dec := t.dec.insert i }) := by
  have hf := Arena.remove_fst t.inc i
  cases hi : t.inc.get? i with
  | some n =>
    left
    refine ⟨by simp, ?_⟩
    rw [hi] at hf
    simp only [remove]
    rw [show t.inc.remove i = (some n, (t.inc.remove i).2) from Prod.ext hf rfl]
  | none =>
    rw [hi] at hf
    right
    by_cases ha : i ∈ t.allocs
    · left
      refine ⟨rfl, ha, ?_⟩
      simp only [remove]
      rw [show t.inc.remove i = (none, (t.inc.remove i).2) from Prod.ext hf rfl]
      simp [ha]
    · right
      refine ⟨rfl, ha, ?_⟩
      simp only [remove]
      rw [show t.inc.remove i = (none, (t.inc.remove i).2) from Prod.ext hf rfl]
      simp [ha]

theorem remove_grown {t : Trans} (h : t.Ready S) (i : NodeIndex) (c : Nat) : Grown S t (t.remove i) c c [] := by
  have hgood : ∀ x n, (t.inc.remove i).2.get? x = some n → S.WT n := by
    intro x n hx
    rw [Arena.remove_get?] at hx
    split at hx
    · exact absurd hx (by simp)
    · exact h.good.wt _ _ hx
  have h0 : (t.inc.remove i).2.get? emptyIdx = none := by
    rw [Arena.remove_get?]; split
    · rfl
    · exact h.good.noEmpty
  have hal : ∀ j ∈ t.allocs, (t.inc.remove i).2.get? j = none := by
    intro j hj
    rw [Arena.remove_get?]; split
    · rfl
    · exact h.allocs j hj
  have hown : ∀ j, (t.inc.remove i).2.disp.get? j ≠ none → t.Owns j := by
    intro j hj
    rw [Arena.remove_disp] at hj
    split at hj
    · exact absurd rfl hj
    · exact Or.inl hj
  rcases remove_cases t i with ⟨_, e⟩ | ⟨_, _, e⟩ | ⟨_, _, e⟩ <;> rw [e]
  · exact { ready := { good := { inv := Arena.remove_inv h.good.inv i, noEmpty := h0, wt := hgood, closures := h.good.closures }
                       noFrom := h.noFrom, allocs := hal }
            ctx := rfl, list := by simp, le := Nat.le_refl c
            owns := by rintro j (hj | hj); exacts [Or.inl (hown j hj), Or.inl (Or.inr hj)] }
  · exact { ready := { good := { inv := Arena.remove_inv h.good.inv i, noEmpty := h0, wt := hgood, closures := h.good.closures }
                       noFrom := h.noFrom, allocs := fun j hj => hal j (OrderSet.mem_swapRemove.1 hj).1 }
            ctx := rfl, list := by simp, le := Nat.le_refl c
            owns := by rintro j (hj | hj); exacts [Or.inl (hown j hj), Or.inl (Or.inr (OrderSet.mem_swapRemove.1 hj).1)] }
  · exact { ready := { good := { inv := Arena.remove_inv h.good.inv i, noEmpty := h0, wt := hgood, closures := h.good.closures }
                       noFrom := h.noFrom, allocs := hal }
            ctx := rfl, list := by simp, le := Nat.le_refl c
            owns := by rintro j (hj | hj); exacts [Or.inl (hown j hj), Or.inl (Or.inr hj)] }

theorem changed_grown {t : Trans} (h : t.Ready S) {a : Arena} {i : NodeIndex} {n n' : Node} (hi : t.inc.get? i = some n) (hn : S.WT n')
    (hget : ∀ j, a.get? j = if i = j then some n' else t.inc.get? j) (hd : a.disp = t.inc.disp) (hinv : a.Inv S) (c : Nat) :
    Grown S t { t with inc := a } c c [] where
  ready :=
    { good :=
        { inv := hinv
          noEmpty := by
            rw [hget, if_neg]
            · exact h.good.noEmpty
            · rintro rfl; rw [h.good.noEmpty] at hi; exact absurd hi (by simp)
          wt := by
            intro x m hm
            rw [hget] at hm
            split at hm
            · simp only [Option.some.injEq] at hm; exact hm ▸ hn
            · exact h.good.wt _ _ hm
          closures := h.good.closures }
      noFrom := h.noFrom
      allocs := by
        intro j hj
        rw [hget, if_neg]
        · exact h.allocs j hj
        · rintro rfl; rw [h.allocs _ hj] at hi; exact absurd hi (by simp) }
  ctx := rfl
  list := by simp
  le := Nat.le_refl c
  owns := by rintro j (hj | hj); exacts [Or.inl (Or.inl (by rw [← hd]; exact hj)), Or.inl (Or.inr hj)]

theorem mutate_cases (t : Trans) (i : NodeIndex) (f : Closure) :
    (t.inc.get? i = none ∧ t.mutate i f = .ok { t with muts := t.muts ++ [(i, f)] }) ∨
    (∃ n e, t.inc.get? i = some n ∧ f n = .error e ∧ t.mutate i f = .error e) ∨
    (∃ n n' a, t.inc.get? i = some n ∧ f n = .ok n' ∧ t.mutate i f = .ok { t with inc := a } ∧
      (∀ j, a.get? j = if i = j then some n' else t.inc.get? j) ∧ a.disp = t.inc.disp ∧ (∀ S, t.inc.Inv S → a.Inv S) ∧
      (t.inc.Typed → n'.disc = n.disc → a.Typed)) := by
  cases hi : t.inc.get? i with
  | none => left; simp [mutate, Arena.contains_eq, hi]
  | some n =>
    right
    cases hf : f n with
    | error e =>
      left
      refine ⟨n, e, rfl, hf, ?_⟩
      simp only [mutate, Arena.contains_eq, hi]
      rw [Arena.modifyAt_err hi (e := e) (f := fun n => (f n).map (·, ())) (by simp [hf, Except.map])]
      simp
    | ok n' =>
      right
      obtain ⟨a, h1, h2, h3, _, h5⟩ := Arena.modifyAt_ok (S := ⟨[], [], [], []⟩) (r := ()) (n' := n') hi
        (f := fun n => (f n).map (·, ())) (by simp [hf, Except.map])
      refine ⟨n, n', a, rfl, hf, ?_, h2, h3, ?_, h5⟩
      · simp [mutate, Arena.contains_eq, hi, h1]
      · intro S
        obtain ⟨a1, h1', _, _, h4, _⟩ := Arena.modifyAt_ok (S := S) (r := ()) (n' := n') hi
          (f := fun n => (f n).map (·, ())) (by simp [hf, Except.map])
        rw [h1] at h1'
        simp only [Except.ok.injEq, Prod.mk.injEq, and_true] at h1'
        rw [h1']; exact h4

theorem update_cases (t : Trans) (i : NodeIndex) (f : Closure) :
    (t.inc.get? i = none ∧ t.update i f = .ok { t with upds := t.upds ++ [(i, f)] }) ∨
    (∃ n e, t.inc.get? i = some n ∧ f n = .error e ∧ t.update i f = .error e) ∨
    (∃ n n' a, t.inc.get? i = some n ∧ f n = .ok n' ∧ t.update i f = .ok { t with inc := a } ∧
      (∀ j, a.get? j = if i = j then some n' else t.inc.get? j) ∧ a.disp = t.inc.disp ∧ (∀ S, t.inc.Inv S → a.Inv S) ∧
      (t.inc.Typed → n'.disc = n.disc → a.Typed)) := by
  cases hi : t.inc.get? i with
  | none => left; simp [update, Arena.contains_eq, hi]
  | some n =>
    right
    cases hf : f n with
    | error e =>
      left
      refine ⟨n, e, rfl, hf, ?_⟩
      simp only [update, Arena.contains_eq, hi]
      rw [Arena.updateWith_err hi hf]
      simp
    | ok n' =>
      right
      obtain ⟨a, h1, h2, h3, _, h5⟩ := Arena.updateWith_ok (S := ⟨[], [], [], []⟩) (n' := n') hi hf
      refine ⟨n, n', a, rfl, hf, ?_, h2, h3, ?_, h5⟩
      · simp [update, Arena.contains_eq, hi, h1]
      · intro S
        obtain ⟨a1, h1', _, _, h4, _⟩ := Arena.updateWith_ok (S := S) (n' := n') hi hf
        rw [h1] at h1'
        simp only [Except.ok.injEq] at h1'
        rw [h1']; exact h4

theorem run_grown {t t' : Trans} {cnt cnt' : Nat} {l : List NodeIndex} {o : TOp} (h : t.Ready S)
    (hb : ∀ i : Nat, t.Owns i → i ≠ emptyIdx ∧ i ≤ cnt) (ho : o.Allowed S t) (hr : o.run t cnt = .ok (t', cnt', l)) : Grown S t t' cnt cnt' l := by
  have hb1 : ∀ i : Nat, t.Owns i → i ≤ cnt := fun i hi => (hb i hi).2
  have hb0 : ∀ i, t.Owns i → i ≠ emptyIdx := fun i hi => (hb i hi).1
  cases o with
  | insert n =>
    simp only [TOp.run, insert_ok h hb1 n, Except.map, Except.ok.injEq, Prod.mk.injEq] at hr
    obtain ⟨rfl, rfl, rfl⟩ := hr
    exact insert_grown h hb1 ho
  | extend ns =>
    obtain ⟨t1, c1, l1, e, g⟩ := extend_ok h hb1 (l := ns) ho
    simp only [TOp.run, e, Except.ok.injEq, Prod.mk.injEq] at hr
    obtain ⟨rfl, rfl, rfl⟩ := hr
    exact g
  | alloc d =>
    simp only [TOp.run, alloc_ok h hb1 d, Except.map, Except.ok.injEq, Prod.mk.injEq] at hr
    obtain ⟨rfl, rfl, rfl⟩ := hr
    exact alloc_grown h hb1 ho
  | allocUntyped =>
    simp only [TOp.run, Except.ok.injEq, Prod.mk.injEq] at hr
    obtain ⟨rfl, rfl, rfl⟩ := hr
    exact allocUntyped_grown h hb1
  | fillBack i n =>
    simp only [TOp.run] at hr
    cases e : t.fillBack i n with
    | error p => rw [e] at hr; exact absurd hr (by simp [Except.map])
    | ok t1 =>
      rw [e] at hr
      simp only [Except.map, Except.ok.injEq, Prod.mk.injEq] at hr
      obtain ⟨rfl, rfl, rfl⟩ := hr
      exact fillBack_grown h ho hb0 e _
  | fillBackUntyped i n =>
    simp only [TOp.run] at hr
    cases e : t.fillBackUntyped i n with
    | error p => rw [e] at hr; exact absurd hr (by simp [Except.map])
    | ok t1 =>
      rw [e] at hr
      simp only [Except.map, Except.ok.injEq, Prod.mk.injEq] at hr
      obtain ⟨rfl, rfl, rfl⟩ := hr
      exact fillBackUntyped_grown h ho.1 ho.2 hb0 e _
  | remove i =>
    simp only [TOp.run, Except.ok.injEq, Prod.mk.injEq] at hr
    obtain ⟨rfl, rfl, rfl⟩ := hr
    exact remove_grown h i _
  | mutate i f =>
    simp only [TOp.run] at hr
    rcases mutate_cases t i f with ⟨_, e⟩ | ⟨_, _, _, _, e⟩ | ⟨n, n', a, h1, h2, e, h3, h4, h5, _⟩ <;> rw [e] at hr <;> simp only [Except.map] at hr
    · simp only [Except.ok.injEq, Prod.mk.injEq] at hr
      obtain ⟨rfl, rfl, rfl⟩ := hr
      exact { ready := { good := { inv := h.good.inv, noEmpty := h.good.noEmpty, wt := h.good.wt
                                   closures := by
                                     intro p hp
                                     simp only [List.append_assoc, List.mem_append, List.mem_singleton] at hp
                                     rcases hp with hp | rfl | hp
                                     · exact h.good.closures p (by simp [hp])
                                     · exact ho
                                     · exact h.good.closures p (by simp [hp]) }
                         noFrom := h.noFrom, allocs := h.allocs }
              ctx := rfl, list := by simp, le := Nat.le_refl _, owns := fun _ hi => Or.inl hi }
    · exact absurd hr (by simp)
    · simp only [Except.ok.injEq, Prod.mk.injEq] at hr
      obtain ⟨rfl, rfl, rfl⟩ := hr
      exact changed_grown h h1 (ho n n' (h.good.wt _ _ h1) h2) h3 h4 (h5 S h.good.inv) _
  | update i f =>
    simp only [TOp.run] at hr
    rcases update_cases t i f with ⟨_, e⟩ | ⟨_, _, _, _, e⟩ | ⟨n, n', a, h1, h2, e, h3, h4, h5, _⟩ <;> rw [e] at hr <;> simp only [Except.map] at hr
    · simp only [Except.ok.injEq, Prod.mk.injEq] at hr
      obtain ⟨rfl, rfl, rfl⟩ := hr
      exact { ready := { good := { inv := h.good.inv, noEmpty := h.good.noEmpty, wt := h.good.wt
                                   closures := by
                                     intro p hp
                                     simp only [List.mem_append, List.mem_singleton] at hp
                                     rcases hp with hp | hp | rfl
                                     · exact h.good.closures p (by simp [hp])
                                     · exact h.good.closures p (by simp [hp])
                                     · exact ho }
                         noFrom := h.noFrom, allocs := h.allocs }
              ctx := rfl, list := by simp, le := Nat.le_refl _, owns := fun _ hi => Or.inl hi }
    · exact absurd hr (by simp)
    · simp only [Except.ok.injEq, Prod.mk.injEq] at hr
      obtain ⟨rfl, rfl, rfl⟩ := hr
      exact changed_grown h h1 (ho n n' (h.good.wt _ _ h1) h2) h3 h4 (h5 S h.good.inv) _
  | redirectAllLinks old new =>
    simp only [TOp.run, Except.ok.injEq, Prod.mk.injEq] at hr
    obtain ⟨rfl, rfl, rfl⟩ := hr
    exact { ready := { good := { inv := h.good.inv, noEmpty := h.good.noEmpty, wt := h.good.wt, closures := h.good.closures }
                       noFrom := by
                         intro m hm
                         simp only [redirectAllLinks, List.mem_append, List.mem_singleton, Prod.mk.injEq] at hm
                         rcases hm with hm | hm | ⟨hm, _⟩
                         · exact h.noFrom m (by simp [hm])
                         · exact h.noFrom m (by simp [hm])
                         · exact ho hm.symm
                       allocs := h.allocs }
            ctx := rfl, list := by simp, le := Nat.le_refl _, owns := fun _ hi => Or.inl hi }
  | redirectLinks old new =>
    simp only [TOp.run, Except.ok.injEq, Prod.mk.injEq] at hr
    obtain ⟨rfl, rfl, rfl⟩ := hr
    exact { ready := { good := { inv := h.good.inv, noEmpty := h.good.noEmpty, wt := h.good.wt, closures := h.good.closures }
                       noFrom := by
                         intro m hm
                         simp only [redirectLinks, List.mem_append, List.mem_singleton, Prod.mk.injEq] at hm
                         rcases hm with (hm | ⟨hm, _⟩) | hm
                         · exact h.noFrom m (by simp [hm])
                         · exact ho hm.symm
                         · exact h.noFrom m (by simp [hm])
                       allocs := h.allocs }
            ctx := rfl, list := by simp, le := Nat.le_refl _, owns := fun _ hi => Or.inl hi }

end Trans
end TTGraph
