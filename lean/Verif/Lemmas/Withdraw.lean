import Verif.Lemmas.Pending

/-!
# Two transactions that differ in one index
-/

set_option autoImplicit false

namespace TTGraph
open Spec
variable {S : Schema}

theorem OrderMap.get?_some_entries {κ ν : Type} [DecidableEq κ] {m : OrderMap κ ν} : m.entries = [] ↔ ∀ k, m.get? k = none := by
  constructor
  · intro h k
    rw [OrderMap.get?_eq_none, OrderMap.keys, h]
    simp
  · intro h
    cases he : m.entries with
    | nil => rfl
    | cons e l =>
      have : m.get? e.1 = some e.2 := OrderMap.get?_eq_some.2 (by rw [he]; simp)
      rw [h] at this
      exact absurd this (by simp)

namespace Trans

theorem cont_iff {a : Arena} (h : a.Inv S) {i : NodeIndex} {d : Ident} : (a.cont d).get? i ≠ none ↔ a.disp.get? i = some d ∧ a.get? i ≠ none := by
  constructor
  · intro hc
    obtain ⟨n, hn⟩ := Option.ne_none_iff_exists'.1 hc
    have := h.home d i n hn
    exact ⟨this, by rw [Arena.get?_of_disp this]; exact hc⟩
  · rintro ⟨h1, h2⟩
    rwa [Arena.get?_of_disp h1] at h2

theorem insert_ctx {t t' : Trans} {cnt cnt' : Nat} {n : Node} {i : NodeIndex} (h : t.insert cnt n = .ok (i, t', cnt')) : t'.ctxId = t.ctxId := by
  unfold insert at h
  split at h
  · exact absurd h (by simp)
  · simp only [Except.ok.injEq, Prod.mk.injEq] at h
    rw [← h.2.1]

theorem run_ctx {t t' : Trans} {cnt cnt' : Nat} {l : List NodeIndex} {o : TOp} (h : o.run t cnt = .ok (t', cnt', l)) : t'.ctxId = t.ctxId := by
  cases o with
  | insert n =>
    simp only [TOp.run] at h
    cases hi : t.insert cnt n with
    | error e => rw [hi] at h; exact absurd h (by simp [Except.map])
    | ok r =>
      rw [hi] at h
      simp only [Except.map, Except.ok.injEq, Prod.mk.injEq] at h
      rw [← h.1]
      exact insert_ctx hi
  | extend ns =>
    exact foldE_inv (fun _ (st : Trans × Nat × List NodeIndex) => st.1.ctxId = t.ctxId) rfl (by
      intro pre a post s1 s2 _ h1 h2
      cases hi : s1.1.insert s1.2.1 a with
      | error e => rw [hi] at h2; exact absurd h2 (by simp)
      | ok r =>
        rw [hi] at h2
        simp only [Except.ok.injEq] at h2
        rw [← h2]
        exact (insert_ctx hi).trans h1) h
  | alloc d =>
    simp only [TOp.run, alloc] at h
    cases hi : t.inc.alloc cnt d with
    | error e => rw [hi] at h; exact absurd h (by simp [Except.map])
    | ok r =>
      rw [hi] at h
      simp only [Except.map, Except.ok.injEq, Prod.mk.injEq] at h
      rw [← h.1]
  | allocUntyped =>
    simp only [TOp.run, Except.ok.injEq, Prod.mk.injEq] at h
    rw [← h.1]
    rfl
  | fillBack i n =>
    simp only [TOp.run, fillBack] at h
    cases hi : t.inc.fillBack i n with
    | error e => rw [hi] at h; exact absurd h (by simp [Except.map])
    | ok r =>
      rw [hi] at h
      simp only [Except.map, Except.ok.injEq, Prod.mk.injEq] at h
      rw [← h.1]
  | fillBackUntyped i n =>
    simp only [TOp.run, fillBackUntyped] at h
    cases hi : t.inc.fillBackUntyped i n with
    | error e => rw [hi] at h; exact absurd h (by simp [Except.map])
    | ok r =>
      rw [hi] at h
      simp only [Except.map, Except.ok.injEq, Prod.mk.injEq] at h
      rw [← h.1]
  | remove i =>
    simp only [TOp.run, Except.ok.injEq, Prod.mk.injEq] at h
    rw [← h.1]
    rcases remove_cases t i with ⟨_, e⟩ | ⟨_, _, e⟩ | ⟨_, _, e⟩ <;> rw [e]
  | mutate i f =>
    simp only [TOp.run] at h
    rcases mutate_cases t i f with ⟨_, e⟩ | ⟨_, _, _, _, e⟩ | ⟨_, _, _, _, _, e, _⟩ <;>
      simp only [e, Except.map, Except.ok.injEq, Prod.mk.injEq, reduceCtorEq] at h <;> rw [← h.1]
  | update i f =>
    simp only [TOp.run] at h
    rcases update_cases t i f with ⟨_, e⟩ | ⟨_, _, _, _, e⟩ | ⟨_, _, _, _, _, e, _⟩ <;>
      simp only [e, Except.map, Except.ok.injEq, Prod.mk.injEq, reduceCtorEq] at h <;> rw [← h.1]
  | redirectAllLinks a b =>
    simp only [TOp.run, Except.ok.injEq, Prod.mk.injEq] at h
    rw [← h.1]
    rfl
  | redirectLinks a b =>
    simp only [TOp.run, Except.ok.injEq, Prod.mk.injEq] at h
    rw [← h.1]
    rfl

theorem runOps_ctx (os : List TOp) : ∀ {t t' : Trans} {cnt cnt' : Nat} {ls : List (List NodeIndex)}, runOps t cnt os = .ok (t', cnt', ls) →
    t'.ctxId = t.ctxId := by
  induction os with
  | nil =>
    intro t t' cnt cnt' ls h
    simp only [runOps, Except.ok.injEq, Prod.mk.injEq] at h
    rw [h.1]
  | cons o os ih =>
    intro t t' cnt cnt' ls h
    simp only [runOps] at h
    cases hr : o.run t cnt with
    | error e => rw [hr] at h; exact absurd h (by simp)
    | ok r =>
      obtain ⟨t1, cnt1, l⟩ := r
      rw [hr] at h
      simp only at h
      cases hr2 : runOps t1 cnt1 os with
      | error e => rw [hr2] at h; exact absurd h (by simp)
      | ok r2 =>
        obtain ⟨t2, cnt2, ls2⟩ := r2
        rw [hr2] at h
        simp only [Except.ok.injEq, Prod.mk.injEq] at h
        rw [← h.1]
        exact (ih hr2).trans (run_ctx hr)

/-- `t1` is `t` and in addition something at the index `i`. -/
structure Extra (i : NodeIndex) (t1 t : Trans) : Prop where
  disp : ∀ j, j ≠ i → t1.inc.disp.get? j = t.inc.disp.get? j
  get : ∀ j, j ≠ i → t1.inc.get? j = t.inc.get? j
  allocs : ∀ j, j ≠ i → (j ∈ t1.allocs ↔ j ∈ t.allocs)
  dec : t1.dec = t.dec
  muts : t1.muts = t.muts
  upds : t1.upds = t.upds
  redirAll : t1.redirAll = t.redirAll
  redir : t1.redir = t.redir
  absent : ¬ t.Owns i
  here : t1.inc.get? i ≠ none ∨ i ∈ t1.allocs

theorem Extra.owns {i : NodeIndex} {t1 t : Trans} (h : Extra i t1 t) {j : NodeIndex} (hj : t.Owns j) : t1.Owns j := by
  have hne : j ≠ i := fun e => h.absent (e ▸ hj)
  rcases hj with hj | hj
  · exact Or.inl (by rw [h.disp j hne]; exact hj)
  · exact Or.inr ((h.allocs j hne).2 hj)

theorem Extra.bound {i : NodeIndex} {t1 t : Trans} (h : Extra i t1 t) {cnt : Nat} (hb : ∀ i : Nat, t1.Owns i → i ≤ cnt) : (i : Nat) ≤ cnt := by
  apply hb
  rcases h.here with h1 | h1
  · left
    intro h2
    exact h1 (Arena.get?_of_disp_none h2)
  · exact Or.inr h1

theorem Extra.store {i : NodeIndex} {t1 t : Trans} (h : Extra i t1 t) {j : NodeIndex} (hj : j ≠ i) (n : Node) :
    Extra i { t1 with inc := t1.inc.store j n } { t with inc := t.inc.store j n } where
  disp k hk := by simp only [Arena.store_disp, h.disp k hk]
  get k hk := by simp only [Arena.store_get?, h.get k hk]
  allocs := h.allocs
  dec := h.dec
  muts := h.muts
  upds := h.upds
  redirAll := h.redirAll
  redir := h.redir
  absent := by
    rintro (h1 | h1)
    · simp only [Arena.store_disp, if_neg hj] at h1
      exact h.absent (Or.inl h1)
    · exact h.absent (Or.inr h1)
  here := by
    simp only [Arena.store_get?, if_neg hj]
    exact h.here

theorem Extra.extend {i : NodeIndex} (l : List Node) (hl : ∀ n ∈ l, S.WT n) : ∀ {t1 t t1' : Trans} {cnt cnt' : Nat} {acc acc' : List NodeIndex},
    t1.Ready S → (∀ i : Nat, t1.Owns i → i ≤ cnt) → t.Ready S → Extra i t1 t →
    foldE (fun (st : Trans × Nat × List NodeIndex) n =>
      match st.1.insert st.2.1 n with
      | .error e => .error e
      | .ok (i, t', cnt') => .ok (t', cnt', st.2.2 ++ [i])) (t1, cnt, acc) l = .ok (t1', cnt', acc') →
    ∃ t', foldE (fun (st : Trans × Nat × List NodeIndex) n =>
      match st.1.insert st.2.1 n with
      | .error e => .error e
      | .ok (i, t', cnt') => .ok (t', cnt', st.2.2 ++ [i])) (t, cnt, acc) l = .ok (t', cnt', acc') ∧ Extra i t1' t' := by
  induction l with
  | nil =>
    intro t1 t t1' cnt cnt' acc acc' _ _ _ hx h
    simp only [foldE, Except.ok.injEq, Prod.mk.injEq] at h
    obtain ⟨rfl, rfl, rfl⟩ := h
    exact ⟨t, rfl, hx⟩
  | cons n l ih =>
    intro t1 t t1' cnt cnt' acc acc' h hb h' hx he
    have hb0 : ∀ i : Nat, t.Owns i → i ≤ cnt := fun i hi => hb i (hx.owns hi)
    have g1 := insert_grown h hb (hl n (by simp))
    have g0 := insert_grown h' hb0 (hl n (by simp))
    simp only [foldE, insert_ok h hb n] at he
    have hne : (cnt + 1 : Nat) ≠ i := by
      have := hx.bound hb
      intro e
      rw [← e] at this
      exact absurd this (Nat.not_succ_le_self cnt)
    obtain ⟨t', h1, h2⟩ := ih (fun m hm => hl m (by simp [hm])) g1.ready (g1.bound hb) g0.ready (hx.store hne n) he
    exact ⟨t', by simp only [foldE, insert_ok h' hb0 n]; exact h1, h2⟩

theorem Extra.run {i : NodeIndex} {t1 t t1' : Trans} {cnt cnt' : Nat} {l : List NodeIndex} {o : TOp} (h : t1.Ready S)
    (hb : ∀ i : Nat, t1.Owns i → i ≠ emptyIdx ∧ i ≤ cnt) (h' : t.Ready S) (hx : Extra i t1 t) (ho : o.Allowed S t1) (hi : target o ≠ some i)
    (hr : o.run t1 cnt = .ok (t1', cnt', l)) : o.Allowed S t ∧ ∃ t', o.run t cnt = .ok (t', cnt', l) ∧ Extra i t1' t' := by
  have hb1 : ∀ i : Nat, t1.Owns i → i ≤ cnt := fun i hi => (hb i hi).2
  have hb0 : ∀ i : Nat, t.Owns i → i ≤ cnt := fun i hi => hb1 i (hx.owns hi)
  have hne : (cnt + 1 : Nat) ≠ i := by
    have := hx.bound hb1
    intro e
    rw [← e] at this
    exact absurd this (Nat.not_succ_le_self cnt)
  cases o with
  | insert n =>
    simp only [TOp.run, insert_ok h hb1 n, Except.map, Except.ok.injEq, Prod.mk.injEq] at hr
    obtain ⟨rfl, rfl, rfl⟩ := hr
    exact ⟨ho, _, by simp only [TOp.run, insert_ok h' hb0 n, Except.map], hx.store hne n⟩
  | extend ns =>
    obtain ⟨t', h1, h2⟩ := Extra.extend ns ho h hb1 h' hx hr
    exact ⟨ho, t', h1, h2⟩
  | alloc d =>
    simp only [TOp.run, alloc_ok h hb1 d, Except.map, Except.ok.injEq, Prod.mk.injEq] at hr
    obtain ⟨rfl, rfl, rfl⟩ := hr
    refine ⟨ho, _, by simp only [TOp.run, alloc_ok h' hb0 d, Except.map]; rfl, ?_⟩
    exact {
      disp := fun j hj => by simp only [OrderMap.get?_insert, hx.disp j hj]
      get := fun j hj => by simp only [alloc_get? h hb1 d j, alloc_get? h' hb0 d j, hx.get j hj]
      allocs := fun j hj => by simp only [OrderSet.mem_insert, hx.allocs j hj]
      dec := hx.dec, muts := hx.muts, upds := hx.upds, redirAll := hx.redirAll, redir := hx.redir
      absent := by
        rintro (h1 | h1)
        · simp only [OrderMap.get?_insert, if_neg hne] at h1
          exact hx.absent (Or.inl h1)
        · simp only [OrderSet.mem_insert] at h1
          exact h1.elim (fun e => hne e.symm) (fun e => hx.absent (Or.inr e))
      here := by
        simp only [alloc_get? h hb1 d i, OrderSet.mem_insert]
        exact hx.here.imp id Or.inr }
  | allocUntyped =>
    simp only [TOp.run, Except.ok.injEq, Prod.mk.injEq] at hr
    obtain ⟨rfl, rfl, rfl⟩ := hr
    refine ⟨ho, _, rfl, ?_⟩
    exact {
      disp := hx.disp, get := hx.get
      allocs := fun j hj => by simp only [allocUntyped, OrderSet.mem_insert, hx.allocs j hj]
      dec := hx.dec, muts := hx.muts, upds := hx.upds, redirAll := hx.redirAll, redir := hx.redir
      absent := by
        rintro (h1 | h1)
        · exact hx.absent (Or.inl h1)
        · simp only [allocUntyped, OrderSet.mem_insert] at h1
          exact h1.elim (fun e => hne e.symm) (fun e => hx.absent (Or.inr e))
      here := hx.here.imp id (fun h => OrderSet.mem_insert.2 (Or.inr h)) }
  | fillBack j n =>
    have hj : j ≠ i := fun e => hi (by rw [← e]; rfl)
    refine ⟨ho, ?_⟩
    simp only [TOp.run, fillBack] at hr ⊢
    rcases Arena.fillBack_cases t1.inc j n with ⟨_, e⟩ | ⟨d, _, _, e⟩ | ⟨_, _, e⟩ | ⟨h1, h2, a, e, h3, h4⟩
    · rw [e] at hr; exact absurd hr (by simp [Except.map])
    · rw [e] at hr; exact absurd hr (by simp [Except.map])
    · rw [e] at hr; exact absurd hr (by simp [Except.map])
    · rw [e] at hr
      simp only [Except.map, Except.ok.injEq, Prod.mk.injEq] at hr
      obtain ⟨rfl, rfl, rfl⟩ := hr
      have k1 : t.inc.disp.get? j = some n.disc := by rw [← hx.disp j hj]; exact h1
      have k2 : t.inc.get? j = none := by rw [← hx.get j hj]; exact h2
      rcases Arena.fillBack_cases t.inc j n with ⟨q, _⟩ | ⟨d, q, q', _⟩ | ⟨_, q, _⟩ | ⟨_, _, a', e', h3', h4'⟩
      · rw [k1] at q; exact absurd q (by simp)
      · rw [k1] at q; simp only [Option.some.injEq] at q; exact absurd q q'
      · exact absurd k2 q
      · rw [e']
        refine ⟨_, rfl, ?_⟩
        exact {
          disp := fun k hk => by simp only [h4, h4', hx.disp k hk]
          get := fun k hk => by simp only [Arena.eq_store h3 h4 h1, Arena.eq_store h3' h4' k1, hx.get k hk]
          allocs := fun k hk => by simp only [OrderSet.mem_swapRemove, hx.allocs k hk]
          dec := hx.dec, muts := hx.muts, upds := hx.upds, redirAll := hx.redirAll, redir := hx.redir
          absent := by
            rintro (h5 | h5)
            · simp only [h4'] at h5
              exact hx.absent (Or.inl h5)
            · exact hx.absent (Or.inr (OrderSet.mem_swapRemove.1 h5).1)
          here := by
            simp only [Arena.eq_store h3 h4 h1, if_neg hj, OrderSet.mem_swapRemove]
            exact hx.here.imp id fun h => ⟨h, fun e => hj e.symm⟩ }
  | fillBackUntyped j n =>
    have hj : j ≠ i := fun e => hi (by rw [← e]; rfl)
    have ho' : TOp.Allowed S t (.fillBackUntyped j n) := ⟨ho.1, (hx.allocs j hj).1 ho.2⟩
    refine ⟨ho', ?_⟩
    simp only [TOp.run, fillBackUntyped] at hr ⊢
    rcases Arena.fillBackUntyped_cases t1.inc j n with ⟨_, e⟩ | ⟨h2, e⟩
    · rw [e] at hr; exact absurd hr (by simp [Except.map])
    · rw [e] at hr
      simp only [Except.map, Except.ok.injEq, Prod.mk.injEq] at hr
      obtain ⟨rfl, rfl, rfl⟩ := hr
      rcases Arena.fillBackUntyped_cases t.inc j n with ⟨q, _⟩ | ⟨_, e'⟩
      · exact absurd (h'.allocs j ho'.2) ((cont_iff h'.good.inv).1 q).2
      · rw [e']
        refine ⟨_, rfl, ?_⟩
        have hs := hx.store hj n
        exact {
          disp := hs.disp, get := hs.get
          allocs := fun k hk => by simp only [OrderSet.mem_swapRemove, hx.allocs k hk]
          dec := hx.dec, muts := hx.muts, upds := hx.upds, redirAll := hx.redirAll, redir := hx.redir
          absent := by
            rintro (h5 | h5)
            · exact hs.absent (Or.inl h5)
            · exact hx.absent (Or.inr (OrderSet.mem_swapRemove.1 h5).1)
          here := by
            rcases hs.here with h6 | h6
            · exact Or.inl h6
            · exact Or.inr (OrderSet.mem_swapRemove.2 ⟨h6, fun e => hj e.symm⟩) }
  | remove j =>
    have hj : j ≠ i := fun e => hi (by rw [← e]; rfl)
    refine ⟨ho, t.remove j, ?_⟩
    simp only [TOp.run, Except.ok.injEq, Prod.mk.injEq] at hr
    obtain ⟨rfl, rfl, rfl⟩ := hr
    refine ⟨rfl, ?_⟩
    have hdisp : ∀ k, k ≠ i → (t1.inc.remove j).2.disp.get? k = (t.inc.remove j).2.disp.get? k := fun k hk => by
      simp only [Arena.remove_disp, hx.disp k hk]
    have hget : ∀ k, k ≠ i → (t1.inc.remove j).2.get? k = (t.inc.remove j).2.get? k := fun k hk => by
      simp only [Arena.remove_get?, hx.get k hk]
    have hab : (t.inc.remove j).2.disp.get? i = none := by
      rw [Arena.remove_disp, if_neg hj]
      by_contra hne
      exact hx.absent (Or.inl hne)
    have hhe : (t1.inc.remove j).2.get? i = t1.inc.get? i := by rw [Arena.remove_get?, if_neg hj]
    rcases remove_cases t1 j with ⟨h1, e⟩ | ⟨h1, h2, e⟩ | ⟨h1, h2, e⟩ <;> rw [e]
    · rcases remove_cases t j with ⟨_, e'⟩ | ⟨q, _⟩ | ⟨q, _⟩
      · rw [e']
        exact { disp := hdisp, get := hget, allocs := hx.allocs, dec := hx.dec, muts := hx.muts, upds := hx.upds
                redirAll := hx.redirAll, redir := hx.redir
                absent := fun h5 => h5.elim (fun h => h hab) (fun h => hx.absent (Or.inr h))
                here := by rw [hhe]; exact hx.here }
      · rw [← hx.get j hj] at q; exact absurd q h1
      · rw [← hx.get j hj] at q; exact absurd q h1
    · rcases remove_cases t j with ⟨q, _⟩ | ⟨_, _, e'⟩ | ⟨_, q, _⟩
      · rw [← hx.get j hj] at q; exact absurd h1 q
      · rw [e']
        exact { disp := hdisp, get := hget, dec := hx.dec, muts := hx.muts, upds := hx.upds
                allocs := fun k hk => by simp only [OrderSet.mem_swapRemove, hx.allocs k hk]
                redirAll := hx.redirAll, redir := hx.redir
                absent := fun h5 => h5.elim (fun h => h hab) (fun h => hx.absent (Or.inr (OrderSet.mem_swapRemove.1 h).1))
                here := by
                  rw [hhe]
                  exact hx.here.imp id fun h => OrderSet.mem_swapRemove.2 ⟨h, fun e => hj e.symm⟩ }
      · exact absurd ((hx.allocs j hj).1 h2) q
    · rcases remove_cases t j with ⟨q, _⟩ | ⟨_, q, _⟩ | ⟨_, _, e'⟩
      · rw [← hx.get j hj] at q; exact absurd h1 q
      · exact absurd ((hx.allocs j hj).2 q) h2
      · rw [e']
        exact { disp := hdisp, get := hget, allocs := hx.allocs, muts := hx.muts, upds := hx.upds
                dec := by simp only [hx.dec]
                redirAll := hx.redirAll, redir := hx.redir
                absent := fun h5 => h5.elim (fun h => h hab) (fun h => hx.absent (Or.inr h))
                here := by rw [hhe]; exact hx.here }
  | mutate j f =>
    have hj : j ≠ i := fun e => hi (by rw [← e]; rfl)
    refine ⟨ho, ?_⟩
    simp only [TOp.run] at hr ⊢
    rcases mutate_cases t1 j f with ⟨h1, e⟩ | ⟨n, p, _, _, e⟩ | ⟨n, n', a, h1, h2, e, h3, h4, _⟩
    · rw [e] at hr
      simp only [Except.map, Except.ok.injEq, Prod.mk.injEq] at hr
      obtain ⟨rfl, rfl, rfl⟩ := hr
      rcases mutate_cases t j f with ⟨_, e'⟩ | ⟨n, p, q, _⟩ | ⟨n, n', a, q, _⟩
      · rw [e']
        exact ⟨_, rfl, { hx with muts := by simp only [hx.muts] }⟩
      · rw [← hx.get j hj, h1] at q; exact absurd q (by simp)
      · rw [← hx.get j hj, h1] at q; exact absurd q (by simp)
    · rw [e] at hr; exact absurd hr (by simp [Except.map])
    · rw [e] at hr
      simp only [Except.map, Except.ok.injEq, Prod.mk.injEq] at hr
      obtain ⟨rfl, rfl, rfl⟩ := hr
      rcases mutate_cases t j f with ⟨q, _⟩ | ⟨m, p, q, q', _⟩ | ⟨m, m', a', q, q', e', h3', h4', _⟩
      · rw [← hx.get j hj, h1] at q; exact absurd q (by simp)
      · rw [← hx.get j hj, h1, Option.some.injEq] at q
        subst q
        rw [h2] at q'
        exact absurd q' (by simp)
      · rw [← hx.get j hj, h1, Option.some.injEq] at q
        subst q
        rw [h2, Except.ok.injEq] at q'
        subst q'
        rw [e']
        exact ⟨_, rfl, { disp := fun k hk => by simp only [h4, h4', hx.disp k hk]
                         get := fun k hk => by simp only [h3, h3', hx.get k hk]
                         allocs := hx.allocs, dec := hx.dec, muts := hx.muts, upds := hx.upds, redirAll := hx.redirAll, redir := hx.redir
                         absent := fun h5 => h5.elim (fun h => hx.absent (Or.inl (by simpa only [h4'] using h))) (fun h => hx.absent (Or.inr h))
                         here := by simp only [h3, if_neg hj]; exact hx.here }⟩
  | update j f =>
    have hj : j ≠ i := fun e => hi (by rw [← e]; rfl)
    refine ⟨ho, ?_⟩
    simp only [TOp.run] at hr ⊢
    rcases update_cases t1 j f with ⟨h1, e⟩ | ⟨n, p, _, _, e⟩ | ⟨n, n', a, h1, h2, e, h3, h4, _⟩
    · rw [e] at hr
      simp only [Except.map, Except.ok.injEq, Prod.mk.injEq] at hr
      obtain ⟨rfl, rfl, rfl⟩ := hr
      rcases update_cases t j f with ⟨_, e'⟩ | ⟨n, p, q, _⟩ | ⟨n, n', a, q, _⟩
      · rw [e']
        exact ⟨_, rfl, { hx with upds := by simp only [hx.upds] }⟩
      · rw [← hx.get j hj, h1] at q; exact absurd q (by simp)
      · rw [← hx.get j hj, h1] at q; exact absurd q (by simp)
    · rw [e] at hr; exact absurd hr (by simp [Except.map])
    · rw [e] at hr
      simp only [Except.map, Except.ok.injEq, Prod.mk.injEq] at hr
      obtain ⟨rfl, rfl, rfl⟩ := hr
      rcases update_cases t j f with ⟨q, _⟩ | ⟨m, p, q, q', _⟩ | ⟨m, m', a', q, q', e', h3', h4', _⟩
      · rw [← hx.get j hj, h1] at q; exact absurd q (by simp)
      · rw [← hx.get j hj, h1, Option.some.injEq] at q
        subst q
        rw [h2] at q'
        exact absurd q' (by simp)
      · rw [← hx.get j hj, h1, Option.some.injEq] at q
        subst q
        rw [h2, Except.ok.injEq] at q'
        subst q'
        rw [e']
        exact ⟨_, rfl, { disp := fun k hk => by simp only [h4, h4', hx.disp k hk]
                         get := fun k hk => by simp only [h3, h3', hx.get k hk]
                         allocs := hx.allocs, dec := hx.dec, muts := hx.muts, upds := hx.upds, redirAll := hx.redirAll, redir := hx.redir
                         absent := fun h5 => h5.elim (fun h => hx.absent (Or.inl (by simpa only [h4'] using h))) (fun h => hx.absent (Or.inr h))
                         here := by simp only [h3, if_neg hj]; exact hx.here }⟩
  | redirectAllLinks o n =>
    simp only [TOp.run, Except.ok.injEq, Prod.mk.injEq] at hr
    obtain ⟨rfl, rfl, rfl⟩ := hr
    exact ⟨ho, _, rfl, { hx with redirAll := by simp only [redirectAllLinks, hx.redirAll] }⟩
  | redirectLinks o n =>
    simp only [TOp.run, Except.ok.injEq, Prod.mk.injEq] at hr
    obtain ⟨rfl, rfl, rfl⟩ := hr
    exact ⟨ho, _, rfl, { hx with redir := by simp only [redirectLinks, hx.redir] }⟩

theorem Extra.runOps {i : NodeIndex} (os : List TOp) : ∀ {t1 t t1' : Trans} {cnt cnt' : Nat} {ls : List (List NodeIndex)}, t1.Ready S →
    (∀ i : Nat, t1.Owns i → i ≠ emptyIdx ∧ i ≤ cnt) → t.Ready S → Extra i t1 t → OpsAllowed S t1 cnt os → (∀ o ∈ os, target o ≠ some i) →
    runOps t1 cnt os = .ok (t1', cnt', ls) → ∃ t', runOps t cnt os = .ok (t', cnt', ls) ∧ t1'.Ready S ∧ t'.Ready S ∧ Extra i t1' t' := by
  induction os with
  | nil =>
    intro t1 t t1' cnt cnt' ls h hb h' hx _ _ hr
    simp only [TTGraph.runOps, Except.ok.injEq, Prod.mk.injEq] at hr
    obtain ⟨rfl, rfl, rfl⟩ := hr
    exact ⟨t, rfl, h, h', hx⟩
  | cons o os ih =>
    intro t1 t t1' cnt cnt' ls h hb h' hx ha hi hr
    simp only [TTGraph.runOps] at hr
    cases h1 : o.run t1 cnt with
    | error e => rw [h1] at hr; exact absurd hr (by simp)
    | ok r =>
      obtain ⟨t2, cnt2, l⟩ := r
      rw [h1] at hr
      simp only at hr
      cases h2 : TTGraph.runOps t2 cnt2 os with
      | error e => rw [h2] at hr; exact absurd hr (by simp)
      | ok r =>
        obtain ⟨t3, cnt3, ls'⟩ := r
        rw [h2] at hr
        simp only [Except.ok.injEq, Prod.mk.injEq] at hr
        obtain ⟨rfl, rfl, rfl⟩ := hr
        have g1 := run_grown h hb ha.1 h1
        obtain ⟨ha', t', h3, hx'⟩ := Extra.run h hb h' hx ha.1 (hi o (by simp)) h1
        have g0 := run_grown h' (fun i hi => hb i (hx.owns hi)) ha' h3
        have hb2 : ∀ i : Nat, t2.Owns i → i ≠ emptyIdx ∧ i ≤ cnt2 := by
          intro j hj
          rcases g1.owns j hj with h4 | ⟨h4, h5⟩
          · exact ⟨(hb j h4).1, Nat.le_trans (hb j h4).2 g1.le⟩
          · exact ⟨by rintro rfl; exact absurd h4 (Nat.not_lt_zero _), h5⟩
        obtain ⟨t'', h6, h7⟩ := ih g1.ready hb2 g0.ready hx' (ha.2 _ _ _ h1) (fun o' ho' => hi o' (by simp [ho'])) h2
        refine ⟨t'', ?_, h7⟩
        simp only [TTGraph.runOps, h3, h6]

theorem runOps_grown (os : List TOp) : ∀ {t t' : Trans} {cnt cnt' : Nat} {ls : List (List NodeIndex)}, t.Ready S →
    (∀ i : Nat, t.Owns i → i ≠ emptyIdx ∧ i ≤ cnt) → OpsAllowed S t cnt os → TTGraph.runOps t cnt os = .ok (t', cnt', ls) →
    t'.Ready S ∧ t'.ctxId = t.ctxId ∧ cnt ≤ cnt' ∧ ∀ i : Nat, t'.Owns i → t.Owns i ∨ (cnt < i ∧ i ≤ cnt') := by
  induction os with
  | nil =>
    intro t t' cnt cnt' ls h hb _ hr
    simp only [TTGraph.runOps, Except.ok.injEq, Prod.mk.injEq] at hr
    obtain ⟨rfl, rfl, rfl⟩ := hr
    exact ⟨h, rfl, Nat.le_refl _, fun i hi => Or.inl hi⟩
  | cons o os ih =>
    intro t t' cnt cnt' ls h hb ha hr
    simp only [TTGraph.runOps] at hr
    cases h1 : o.run t cnt with
    | error e => rw [h1] at hr; exact absurd hr (by simp)
    | ok r =>
      obtain ⟨t2, cnt2, l⟩ := r
      rw [h1] at hr
      simp only at hr
      cases h2 : TTGraph.runOps t2 cnt2 os with
      | error e => rw [h2] at hr; exact absurd hr (by simp)
      | ok r =>
        obtain ⟨t3, cnt3, ls'⟩ := r
        rw [h2] at hr
        simp only [Except.ok.injEq, Prod.mk.injEq] at hr
        obtain ⟨rfl, rfl, rfl⟩ := hr
        have g1 := run_grown h hb ha.1 h1
        have hb2 : ∀ i : Nat, t2.Owns i → i ≠ emptyIdx ∧ i ≤ cnt2 := by
          intro j hj
          rcases g1.owns j hj with h4 | ⟨h4, h5⟩
          · exact ⟨(hb j h4).1, Nat.le_trans (hb j h4).2 g1.le⟩
          · exact ⟨by rintro rfl; exact absurd h4 (Nat.not_lt_zero _), h5⟩
        obtain ⟨k1, k2, k3, k4⟩ := ih g1.ready hb2 (ha.2 _ _ _ h1) h2
        refine ⟨k1, k2.trans g1.ctx, Nat.le_trans g1.le k3, fun i hi => ?_⟩
        rcases k4 i hi with h5 | ⟨h5, h6⟩
        · rcases g1.owns i h5 with h7 | ⟨h7, h8⟩
          · exact Or.inl h7
          · exact Or.inr ⟨h7, Nat.le_trans h8 k3⟩
        · exact Or.inr ⟨Nat.lt_of_le_of_lt g1.le h5, h6⟩

/-- Removing the additional index. -/
theorem Extra.remove {i : NodeIndex} {t1 t : Trans} (h1 : t1.Ready S) (hx : Extra i t1 t) : (t1.remove i).pending = t.pending := by
  have e0 : t.inc.get? i = none := by
    by_contra hne
    refine hx.absent (Or.inl fun h => hne (Arena.get?_of_disp_none h))
  have e1 : (t1.inc.remove i).2.get? = t.inc.get? := by
    funext j
    rw [Arena.remove_get?]
    split
    · rename_i e; rw [← e, e0]
    · rename_i e; exact hx.get j (fun h => e h.symm)
  have e2 : i ∉ t.allocs := fun h => hx.absent (Or.inr h)
  rcases remove_cases t1 i with ⟨h2, e⟩ | ⟨h2, h3, e⟩ | ⟨h2, h3, e⟩
  · rw [e]
    simp only [pending, e1, hx.dec, hx.muts, hx.upds, hx.redirAll, hx.redir, Pending.mk.injEq, and_true, true_and]
    funext j
    apply propext
    by_cases e : j = i
    · subst e
      exact ⟨fun h => absurd (h1.allocs j h) h2, fun h => absurd h e2⟩
    · exact hx.allocs j e
  · rw [e]
    simp only [pending, e1, hx.dec, hx.muts, hx.upds, hx.redirAll, hx.redir, Pending.mk.injEq, and_true, true_and]
    funext j
    apply propext
    rw [OrderSet.mem_swapRemove]
    by_cases e : j = i
    · subst e
      exact ⟨fun h => absurd rfl h.2, fun h => absurd h e2⟩
    · exact ⟨fun h => (hx.allocs j e).1 h.1, fun h => ⟨(hx.allocs j e).2 h, e⟩⟩
  · rcases hx.here with h | h
    · exact absurd h2 h
    · exact absurd h h3

/-- The index returned by `insert`, `alloc` or `alloc_untyped`. -/
theorem extra_new {t t1 : Trans} {cnt cnt1 : Nat} {o : TOp} {i : NodeIndex} (h : t.Ready S) (hb : ∀ i : Nat, t.Owns i → i ≠ emptyIdx ∧ i ≤ cnt)
    (ho : (∃ n, o = .insert n) ∨ (∃ d, o = .alloc d) ∨ o = .allocUntyped) (hr : o.run t cnt = .ok (t1, cnt1, [i])) : Extra i t1 t := by
  have hb' : ∀ i : Nat, t.Owns i → i ≤ cnt := fun i hi => (hb i hi).2
  have hno : ¬ t.Owns (cnt + 1) := by
    intro hh
    have := hb' _ hh
    omega
  have hf := fresh_none h hb'
  rcases ho with ⟨n, rfl⟩ | ⟨d, rfl⟩ | rfl
  · simp only [TOp.run, insert_ok h hb' n, Except.map, Except.ok.injEq, Prod.mk.injEq, List.cons.injEq, and_true] at hr
    obtain ⟨rfl, rfl, rfl⟩ := hr
    exact { disp := fun j hj => by simp only [Arena.store_disp]; rw [if_neg (fun h => hj h.symm)]
            get := fun j hj => by simp only [Arena.store_get?]; rw [if_neg (fun h => hj h.symm)]
            allocs := fun _ _ => Iff.rfl, dec := rfl, muts := rfl, upds := rfl, redirAll := rfl, redir := rfl
            absent := hno, here := Or.inl (by simp [Arena.store_get?]) }
  · simp only [TOp.run, alloc_ok h hb' d, Except.map, Except.ok.injEq, Prod.mk.injEq, List.cons.injEq, and_true] at hr
    obtain ⟨rfl, rfl, rfl⟩ := hr
    exact { disp := fun j hj => by simp only [OrderMap.get?_insert]; rw [if_neg (fun h => hj h.symm)]
            get := fun j hj => alloc_get? h hb' d j
            allocs := fun j hj => OrderSet.mem_insert.trans ⟨fun h => h.resolve_left hj, Or.inr⟩
            dec := rfl, muts := rfl, upds := rfl, redirAll := rfl, redir := rfl
            absent := hno, here := Or.inr (OrderSet.mem_insert.2 (Or.inl rfl)) }
  · simp only [TOp.run, Except.ok.injEq, Prod.mk.injEq, List.cons.injEq, and_true] at hr
    obtain ⟨rfl, rfl, rfl⟩ := hr
    exact { disp := fun j hj => rfl
            get := fun j hj => rfl
            allocs := fun j hj => OrderSet.mem_insert.trans ⟨fun h => h.resolve_left hj, Or.inr⟩
            dec := rfl, muts := rfl, upds := rfl, redirAll := rfl, redir := rfl
            absent := hno, here := Or.inr (OrderSet.mem_insert.2 (Or.inl rfl)) }

end Trans
end TTGraph
