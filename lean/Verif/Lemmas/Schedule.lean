import Verif.Spec.Schedule
import Verif.Lemmas.Twins

/-!
# Schedules
-/

set_option autoImplicit false

namespace TTGraph
open Spec

section
variable {S : Schema} {σ : Equiv.Perm NodeIndex}

/-- The transactions correspond, including the types of allocated indices. -/
structure Trans.Alike (σ : Equiv.Perm NodeIndex) (t t2 : Trans) : Prop where
  pending : AlikePending σ t.pending t2.pending
  disp : ∀ i, t2.inc.disp.get? (σ i) = t.inc.disp.get? i

/-- The operation `run` of two corresponding transactions, when only the types are left to compare. -/
theorem Trans.alike_run {t t' t2 t2' : Trans} {cnt cnt' cnt2 cnt2' : Nat} {o o2 : TOp} {l : List NodeIndex} (h : t.Ready S) (h2 : t2.Ready S)
    (hb : ∀ i : Nat, t.Owns i → i ≠ emptyIdx ∧ i ≤ cnt) (hb2 : ∀ i : Nat, t2.Owns i → i ≠ emptyIdx ∧ i ≤ cnt2)
    (ho : o.Allowed S t) (ho2 : o2.Allowed S t2) (hop : AlikeOp σ o o2) (hp : t.Alike σ t2)
    (hr : o.run t cnt = .ok (t', cnt', l)) (hr2 : o2.run t2 cnt2 = .ok (t2', cnt2', l.map σ))
    (hd : ∀ i, t2'.inc.disp.get? (σ i) = t'.inc.disp.get? i) : t'.Alike σ t2' :=
  ⟨effect_alike hop hp.pending (Trans.effect_run h hb ho hr) (Trans.effect_run h2 hb2 ho2 hr2), hd⟩

theorem disp_store_alike {a a2 : Arena} (h : ∀ i, a2.disp.get? (σ i) = a.disp.get? i) {n n2 : Node} (hn : n2.disc = n.disc) {j j2 : NodeIndex}
    (hj : σ j = j2) (i : NodeIndex) : (a2.store j2 n2).disp.get? (σ i) = (a.store j n).disp.get? i := by
  subst hj
  rw [Arena.store_disp, Arena.store_disp, h, hn]
  by_cases e : j = i
  · rw [if_pos e, if_pos (by rw [e])]
  · rw [if_neg e, if_neg (fun e' => e (σ.injective e'))]

theorem Trans.insert_alike {t t2 : Trans} {cnt cnt2 : Nat} (h : t.Ready S) (h2 : t2.Ready S)
    (hb : ∀ i : Nat, t.Owns i → i ≠ emptyIdx ∧ i ≤ cnt) (hb2 : ∀ i : Nat, t2.Owns i → i ≠ emptyIdx ∧ i ≤ cnt2)
    {n n2 : Node} (hn : S.WT n) (hn2 : S.WT n2) (hr : Node.Renamed σ n n2) (hp : t.Alike σ t2) (hc : σ (cnt + 1 : Nat) = (cnt2 + 1 : Nat)) :
    Trans.Alike σ { t with inc := t.inc.store (cnt + 1) n } { t2 with inc := t2.inc.store (cnt2 + 1) n2 } := by
  refine Trans.alike_run (o := .insert n) (o2 := .insert n2) (l := [(cnt + 1 : Nat)]) h h2 hb hb2 hn hn2 hr hp
    (cnt' := cnt + 1) (cnt2' := cnt2 + 1) ?_ ?_ ?_
  · simp [TOp.run, Trans.insert_ok h (fun i hi => (hb i hi).2) n, Except.map]
  · simp [TOp.run, Trans.insert_ok h2 (fun i hi => (hb2 i hi).2) n2, Except.map, hc]
  · exact disp_store_alike hp.disp hr.1 hc

theorem Trans.extend_alike {ns ns2 : List Node} (hns : List.Forall₂ (Node.Renamed σ) ns ns2) :
    ∀ {t t2 : Trans} {cnt cnt2 : Nat} {acc acc2 : List NodeIndex}, t.Ready S → t2.Ready S →
    (∀ i : Nat, t.Owns i → i ≠ emptyIdx ∧ i ≤ cnt) → (∀ i : Nat, t2.Owns i → i ≠ emptyIdx ∧ i ≤ cnt2) →
    (∀ n ∈ ns, S.WT n) → (∀ n ∈ ns2, S.WT n) → t.Alike σ t2 → (∀ i : Nat, i < ns.length → σ (cnt + 1 + i : Nat) = (cnt2 + 1 + i : Nat)) →
    acc2 = acc.map σ → ∃ t' t2' l, foldE (fun (st : Trans × Nat × List NodeIndex) n =>
      match st.1.insert st.2.1 n with
      | .error e => .error e
      | .ok (i, t', cnt') => .ok (t', cnt', st.2.2 ++ [i])) (t, cnt, acc) ns = .ok (t', cnt + ns.length, l) ∧
      foldE (fun (st : Trans × Nat × List NodeIndex) n =>
      match st.1.insert st.2.1 n with
      | .error e => .error e
      | .ok (i, t', cnt') => .ok (t', cnt', st.2.2 ++ [i])) (t2, cnt2, acc2) ns2 = .ok (t2', cnt2 + ns.length, l.map σ) ∧ t'.Alike σ t2' := by
  induction hns with
  | nil =>
    intro t t2 cnt cnt2 acc acc2 h h2 hb hb2 _ _ hp _ ha
    exact ⟨t, t2, acc, rfl, by simp [foldE, ha], hp⟩
  | @cons n n2 ns ns2 hr hrs ih =>
    intro t t2 cnt cnt2 acc acc2 h h2 hb hb2 hn hn2 hp hσ ha
    have hc : σ (cnt + 1 : Nat) = (cnt2 + 1 : Nat) := hσ 0 (by simp)
    have g1 := Trans.insert_grown h (fun i hi => (hb i hi).2) (hn n (by simp))
    have g2 := Trans.insert_grown h2 (fun i hi => (hb2 i hi).2) (hn2 n2 (by simp))
    have hbnd : ∀ {t t' : Trans} {c : Nat}, Trans.Grown S t t' c (c + 1) [(c + 1 : Nat)] → (∀ i : Nat, t.Owns i → i ≠ emptyIdx ∧ i ≤ c) →
        ∀ i : Nat, t'.Owns i → i ≠ emptyIdx ∧ i ≤ c + 1 := by
      intro t t' c g hb i hi
      rcases g.owns i hi with h' | h'
      · exact ⟨(hb i h').1, by have := (hb i h').2; omega⟩
      · exact ⟨fun (e : (i : Nat) = 0) => by omega, h'.2⟩
    obtain ⟨t', t2', l, e1, e2, e3⟩ := ih (acc := acc ++ [(cnt + 1 : Nat)]) (acc2 := acc2 ++ [(cnt2 + 1 : Nat)]) g1.ready g2.ready (hbnd g1 hb) (hbnd g2 hb2)
      (fun m hm => hn m (by simp [hm])) (fun m hm => hn2 m (by simp [hm])) (Trans.insert_alike h h2 hb hb2 (hn n (by simp)) (hn2 n2 (by simp)) hr hp hc)
      (fun i hi => by
        have := hσ (i + 1) (by simp; omega)
        rw [show cnt + 1 + 1 + i = cnt + 1 + (i + 1) by omega, this]
        exact (by omega : (cnt2 + 1 + (i + 1) : Nat) = cnt2 + 1 + 1 + i))
      (by simp [ha, hc])
    refine ⟨t', t2', l, ?_, ?_, e3⟩
    · simp only [foldE, Trans.insert_ok h (fun i hi => (hb i hi).2) n]
      rw [e1]; simp; omega
    · simp only [foldE, Trans.insert_ok h2 (fun i hi => (hb2 i hi).2) n2]
      rw [e2]; simp; omega

/-- One call on corresponding transactions. -/
theorem Trans.op_alike {t t' t2 : Trans} {cnt cnt' cnt2 : Nat} {o o2 : TOp} {l : List NodeIndex} (h : t.Ready S) (h2 : t2.Ready S)
    (hb : ∀ i : Nat, t.Owns i → i ≠ emptyIdx ∧ i ≤ cnt) (hb2 : ∀ i : Nat, t2.Owns i → i ≠ emptyIdx ∧ i ≤ cnt2)
    (ho : o.Allowed S t) (ho2 : o2.Allowed S t2) (hop : AlikeOp σ o o2) (hp : t.Alike σ t2)
    (hr : o.run t cnt = .ok (t', cnt', l)) (hσ : ∀ i : Nat, i < cnt' - cnt → σ (cnt + 1 + i : Nat) = (cnt2 + 1 + i : Nat)) :
    ∃ t2', o2.run t2 cnt2 = .ok (t2', cnt2 + (cnt' - cnt), l.map σ) ∧ t'.Alike σ t2' := by
  suffices ∃ t2', o2.run t2 cnt2 = .ok (t2', cnt2 + (cnt' - cnt), l.map σ) ∧ ∀ i, t2'.inc.disp.get? (σ i) = t'.inc.disp.get? i by
    obtain ⟨t2', e, hd⟩ := this
    exact ⟨t2', e, Trans.alike_run h h2 hb hb2 ho ho2 hop hp hr e hd⟩
  have hif : ∀ (i j : NodeIndex) (a b : Option Ident), (if σ i = σ j then a else b) = if i = j then a else b := fun i j a b => by
    by_cases e : i = j
    · rw [if_pos e, if_pos (by rw [e])]
    · rw [if_neg e, if_neg (fun e' => e (σ.injective e'))]
  cases o with
  | insert n =>
    cases o2 <;> try exact hop.elim
    rename_i n2
    simp only [TOp.run, Trans.insert_ok h (fun i hi => (hb i hi).2) n, Except.map, Except.ok.injEq, Prod.mk.injEq] at hr
    obtain ⟨rfl, rfl, rfl⟩ := hr
    have hc : σ (cnt + 1 : Nat) = (cnt2 + 1 : Nat) := hσ 0 (by omega)
    refine ⟨{ t2 with inc := t2.inc.store (cnt2 + 1) n2 }, ?_, disp_store_alike hp.disp hop.1 hc⟩
    simp [TOp.run, Trans.insert_ok h2 (fun i hi => (hb2 i hi).2) n2, Except.map, hc]
  | extend ns =>
    cases o2 <;> try exact hop.elim
    rename_i ns2
    simp only [TOp.run, Trans.extend] at hr
    have hlen : cnt' - cnt = ns.length := by
      have hcc : ∀ (ns : List Node) (t : Trans) (cnt : Nat) (acc : List NodeIndex), (∀ n ∈ ns, S.WT n) → t.Ready S →
          (∀ i : Nat, t.Owns i → i ≤ cnt) → ∀ r, foldE (fun (st : Trans × Nat × List NodeIndex) n =>
            match st.1.insert st.2.1 n with
            | .error e => .error e
            | .ok (i, t', cnt') => .ok (t', cnt', st.2.2 ++ [i])) (t, cnt, acc) ns = .ok r → r.2.1 = cnt + ns.length := by
        intro ns
        induction ns with
        | nil => intro t cnt acc _ _ _ r hr; simp only [foldE, Except.ok.injEq] at hr; subst hr; rfl
        | cons n ns ih =>
          intro t cnt acc hn h hb r hr
          simp only [foldE, Trans.insert_ok h hb n] at hr
          have g := Trans.insert_grown h hb (hn n (by simp))
          have := ih _ _ _ (fun m hm => hn m (by simp [hm])) g.ready (g.bound hb) r hr
          simp at this ⊢; omega
      have := hcc ns t cnt [] ho h (fun i hi => (hb i hi).2) _ hr
      simp only at this; omega
    rw [hlen] at hσ ⊢
    obtain ⟨s, s2, l', e1, e2, e3⟩ := Trans.extend_alike (acc := []) (acc2 := []) hop h h2 hb hb2 ho ho2 hp hσ rfl
    have hr := e1.symm.trans hr
    simp only [Except.ok.injEq, Prod.mk.injEq] at hr
    obtain ⟨rfl, rfl, rfl⟩ := hr
    exact ⟨s2, by simp only [TOp.run, Trans.extend]; exact e2, e3.disp⟩
  | alloc d =>
    cases o2 <;> try exact hop.elim
    obtain rfl := hop
    rename_i d
    simp only [TOp.run, Trans.alloc_ok h (fun i hi => (hb i hi).2) d, Except.map, Except.ok.injEq, Prod.mk.injEq] at hr
    obtain ⟨rfl, rfl, rfl⟩ := hr
    have hc : σ (cnt + 1 : Nat) = (cnt2 + 1 : Nat) := hσ 0 (by omega)
    refine ⟨_, by simp [TOp.run, Trans.alloc_ok h2 (fun i hi => (hb2 i hi).2) d, Except.map, hc]; rfl, ?_⟩
    intro i
    simp only [OrderMap.get?_insert, ← hc, hp.disp]
    exact hif _ _ _ _
  | allocUntyped =>
    cases o2 <;> try exact hop.elim
    simp only [TOp.run, Trans.allocUntyped, Arena.allocUntyped, idAlloc, Except.ok.injEq, Prod.mk.injEq] at hr
    obtain ⟨rfl, rfl, rfl⟩ := hr
    have hc : σ (cnt + 1 : Nat) = (cnt2 + 1 : Nat) := hσ 0 (by omega)
    exact ⟨_, by simp [TOp.run, Trans.allocUntyped, Arena.allocUntyped, idAlloc, hc]; rfl, fun j => by exact hp.disp j⟩
  | fillBack i n =>
    cases o2 <;> try exact hop.elim
    rename_i i2 n2
    obtain ⟨rfl, hn⟩ := hop
    rcases Arena.fillBack_cases t.inc i n with ⟨_, e⟩ | ⟨_, _, _, e⟩ | ⟨_, _, e⟩ | ⟨h1, h2', a', e, h3, h4⟩ <;> simp only [TOp.run, Trans.fillBack, e] at hr
    · exact absurd hr (by simp [Except.map])
    · exact absurd hr (by simp [Except.map])
    · exact absurd hr (by simp [Except.map])
    · simp only [Except.map, Except.ok.injEq, Prod.mk.injEq] at hr
      obtain ⟨rfl, rfl, rfl⟩ := hr
      have k1 : t2.inc.disp.get? (σ i) = some n2.disc := by rw [hp.disp, h1, hn.1]
      have k2 : t2.inc.get? (σ i) = none := (hp.pending.new.none_iff i).2 h2'
      rcases Arena.fillBack_cases t2.inc (σ i) n2 with ⟨k, _⟩ | ⟨d, k, k', _⟩ | ⟨_, k, _⟩ | ⟨_, _, a2, e2, _, k4⟩
      · rw [k1] at k; exact absurd k (by simp)
      · rw [k1, Option.some.injEq] at k; exact absurd k k'
      · exact absurd k2 k
      · refine ⟨_, by simp [TOp.run, Trans.fillBack, e2, Except.map]; rfl, fun j => ?_⟩
        simp only [k4, h4]
        exact hp.disp j
  | fillBackUntyped i n =>
    cases o2 <;> try exact hop.elim
    rename_i i2 n2
    obtain ⟨rfl, hn⟩ := hop
    rcases Arena.fillBackUntyped_cases t.inc i n with ⟨_, e⟩ | ⟨h1, e⟩ <;> simp only [TOp.run, Trans.fillBackUntyped, e] at hr
    · exact absurd hr (by simp [Except.map])
    · simp only [Except.map, Except.ok.injEq, Prod.mk.injEq] at hr
      obtain ⟨rfl, rfl, rfl⟩ := hr
      rcases Arena.fillBackUntyped_cases t2.inc (σ i) n2 with ⟨k, _⟩ | ⟨_, e2⟩
      · exact absurd (h2.good.inv.cont_none_of_get? (h2.allocs _ ho2.2) _) k
      · refine ⟨_, by simp [TOp.run, Trans.fillBackUntyped, e2, Except.map]; rfl, fun j => ?_⟩
        exact disp_store_alike hp.disp hn.1 rfl j
  | remove i =>
    cases o2 <;> try exact hop.elim
    obtain rfl := hop
    simp only [TOp.run, Except.ok.injEq, Prod.mk.injEq] at hr
    obtain ⟨rfl, rfl, rfl⟩ := hr
    refine ⟨_, by simp [TOp.run]; rfl, fun j => ?_⟩
    have hh : ∀ (t : Trans) (i j : NodeIndex), (t.remove i).inc.disp.get? j = if i = j then none else t.inc.disp.get? j := by
      intro t i j
      rcases Trans.remove_cases t i with ⟨_, e⟩ | ⟨_, _, e⟩ | ⟨_, _, e⟩ <;> rw [e] <;> exact Arena.remove_disp _ _ _
    rw [hh, hh, hp.disp]
    exact hif _ _ _ _
  | mutate i f =>
    cases o2 <;> try exact hop.elim
    rename_i i2 f2
    obtain ⟨rfl, hf⟩ := hop
    rcases Trans.mutate_cases t i f with ⟨h1, e⟩ | ⟨n, _, _, _, e⟩ | ⟨n, n', a, h1, h3, e, _, h4, _⟩ <;> simp only [TOp.run, e] at hr
    · simp only [Except.map, Except.ok.injEq, Prod.mk.injEq] at hr
      obtain ⟨rfl, rfl, rfl⟩ := hr
      have k2 : t2.inc.get? (σ i) = none := (hp.pending.new.none_iff i).2 h1
      rcases Trans.mutate_cases t2 (σ i) f2 with ⟨_, e2⟩ | ⟨_, _, k, _⟩ | ⟨_, _, _, k, _⟩
      · exact ⟨_, by simp [TOp.run, e2, Except.map]; rfl, fun j => by exact hp.disp j⟩
      · rw [k2] at k; exact absurd k (by simp)
      · rw [k2] at k; exact absurd k (by simp)
    · exact absurd hr (by simp [Except.map])
    · simp only [Except.map, Except.ok.injEq, Prod.mk.injEq] at hr
      obtain ⟨rfl, rfl, rfl⟩ := hr
      obtain ⟨n2, k2, hn⟩ := hp.pending.new.some (show t.pending.new i = some n from h1)
      have k2 : t2.inc.get? (σ i) = some n2 := k2
      rcases hf n n2 hn with ⟨_, k, _⟩ | ⟨_, m2, _, kf, _⟩
      · rw [h3] at k; exact absurd k (by simp)
      rcases Trans.mutate_cases t2 (σ i) f2 with ⟨k, _⟩ | ⟨_, _, k, k', _⟩ | ⟨_, _, _, _, _, e2, _, k4, _⟩
      · rw [k2] at k; exact absurd k (by simp)
      · rw [k2, Option.some.injEq] at k; subst k; rw [kf] at k'; exact absurd k' (by simp)
      · refine ⟨_, by simp [TOp.run, e2, Except.map]; rfl, fun j => ?_⟩
        simp only [k4, h4]
        exact hp.disp j
  | update i f =>
    cases o2 <;> try exact hop.elim
    rename_i i2 f2
    obtain ⟨rfl, hf⟩ := hop
    rcases Trans.update_cases t i f with ⟨h1, e⟩ | ⟨n, _, _, _, e⟩ | ⟨n, n', a, h1, h3, e, _, h4, _⟩ <;> simp only [TOp.run, e] at hr
    · simp only [Except.map, Except.ok.injEq, Prod.mk.injEq] at hr
      obtain ⟨rfl, rfl, rfl⟩ := hr
      have k2 : t2.inc.get? (σ i) = none := (hp.pending.new.none_iff i).2 h1
      rcases Trans.update_cases t2 (σ i) f2 with ⟨_, e2⟩ | ⟨_, _, k, _⟩ | ⟨_, _, _, k, _⟩
      · exact ⟨_, by simp [TOp.run, e2, Except.map]; rfl, fun j => by exact hp.disp j⟩
      · rw [k2] at k; exact absurd k (by simp)
      · rw [k2] at k; exact absurd k (by simp)
    · exact absurd hr (by simp [Except.map])
    · simp only [Except.map, Except.ok.injEq, Prod.mk.injEq] at hr
      obtain ⟨rfl, rfl, rfl⟩ := hr
      obtain ⟨n2, k2, hn⟩ := hp.pending.new.some (show t.pending.new i = some n from h1)
      have k2 : t2.inc.get? (σ i) = some n2 := k2
      rcases hf n n2 hn with ⟨_, k, _⟩ | ⟨_, m2, _, kf, _⟩
      · rw [h3] at k; exact absurd k (by simp)
      rcases Trans.update_cases t2 (σ i) f2 with ⟨k, _⟩ | ⟨_, _, k, k', _⟩ | ⟨_, _, _, _, _, e2, _, k4, _⟩
      · rw [k2] at k; exact absurd k (by simp)
      · rw [k2, Option.some.injEq] at k; subst k; rw [kf] at k'; exact absurd k' (by simp)
      · refine ⟨_, by simp [TOp.run, e2, Except.map]; rfl, fun j => ?_⟩
        simp only [k4, h4]
        exact hp.disp j
  | redirectAllLinks old new =>
    cases o2 <;> try exact hop.elim
    simp only [TOp.run, Except.ok.injEq, Prod.mk.injEq] at hr
    obtain ⟨rfl, rfl, rfl⟩ := hr
    exact ⟨_, by simp [TOp.run]; rfl, fun j => by exact hp.disp j⟩
  | redirectLinks old new =>
    cases o2 <;> try exact hop.elim
    simp only [TOp.run, Except.ok.injEq, Prod.mk.injEq] at hr
    obtain ⟨rfl, rfl, rfl⟩ := hr
    exact ⟨_, by simp [TOp.run]; rfl, fun j => by exact hp.disp j⟩

/-! ### Composing correspondences -/

theorem exists_renamed (h0 : σ emptyIdx = emptyIdx) (n : Node) : ∃ n2, Node.Renamed σ n n2 := by
  have hv : ∀ v : LinkVal, ∃ v2, LinkVal.Renamed σ v v2 := by
    intro v
    cases v with
    | direct i => exact ⟨.direct (if i = emptyIdx then emptyIdx else σ i), rfl⟩
    | set s =>
      refine ⟨.set ⟨s.elems.map σ, s.nodup.map σ.injective, 0⟩, fun w => ?_⟩
      simp only [List.mem_map]
      constructor
      · rintro ⟨u, hu, rfl⟩
        exact ⟨u, hu, rfl, (Classical.em (u = emptyIdx)).elim Or.inr fun e => Or.inl fun e' => e (σ.injective (e'.trans h0.symm))⟩
      · rintro ⟨u, hu, e, _⟩; exact ⟨u, hu, e⟩
    | vec l => exact ⟨.vec (l.map (fun i => if i = emptyIdx then emptyIdx else σ i)), rfl⟩
  have hl : ∀ l : List LinkVal, ∃ l2, List.Forall₂ (LinkVal.Renamed σ) l l2 := by
    intro l
    induction l with
    | nil => exact ⟨[], .nil⟩
    | cons v l ih =>
      obtain ⟨v2, h1⟩ := hv v
      obtain ⟨l2, h2⟩ := ih
      exact ⟨v2 :: l2, .cons h1 h2⟩
  obtain ⟨l2, h⟩ := hl n.links
  exact ⟨{ n with links := l2 }, rfl, rfl, h⟩

variable {τ : Equiv.Perm NodeIndex}

theorem trans_empty (h0 : σ emptyIdx = emptyIdx) (k0 : τ emptyIdx = emptyIdx) : (σ.trans τ) emptyIdx = emptyIdx := by
  rw [Equiv.trans_apply, h0, k0]

theorem renamed_comp (h0 : σ emptyIdx = emptyIdx) (k0 : τ emptyIdx = emptyIdx) {n n1 n2 : Node} (h : Node.Renamed σ n n1)
    (h' : Node.Renamed τ n1 n2) : Node.Renamed (σ.trans τ) n n2 := by
  rw [Node.alike_iff h0] at h
  rw [Node.alike_iff k0] at h'
  rw [Node.alike_iff (trans_empty h0 k0)]
  exact ⟨h'.1.trans h.1, fun s y => by rw [Equiv.trans_apply, h'.2, h.2]⟩

theorem renamed_decomp (h0 : σ emptyIdx = emptyIdx) (k0 : τ emptyIdx = emptyIdx) {n n1 n2 : Node} (h : Node.Renamed (σ.trans τ) n n2)
    (h' : Node.Renamed σ n n1) : Node.Renamed τ n1 n2 := by
  rw [Node.alike_iff (trans_empty h0 k0)] at h
  rw [Node.alike_iff h0] at h'
  rw [Node.alike_iff k0]
  refine ⟨h.1.trans h'.1.symm, fun s y => ?_⟩
  obtain ⟨z, rfl⟩ := σ.surjective y
  rw [h'.2, ← h.2, Equiv.trans_apply]

theorem alike_comp (h0 : σ emptyIdx = emptyIdx) (k0 : τ emptyIdx = emptyIdx) {u v w : View} (h : Alike σ u v) (h' : Alike τ v w) :
    Alike (σ.trans τ) u w := by
  rw [View.alike_iff h0] at h
  rw [View.alike_iff k0] at h'
  rw [View.alike_iff (trans_empty h0 k0)]
  exact ⟨fun x => by rw [Equiv.trans_apply, h'.1, h.1], fun x s y => by rw [Equiv.trans_apply, Equiv.trans_apply, h'.2, h.2]⟩

theorem alikeClosure_comp (h0 : σ emptyIdx = emptyIdx) (k0 : τ emptyIdx = emptyIdx) {f f1 f2 : Closure} (h : AlikeClosure σ f f1)
    (h' : AlikeClosure τ f1 f2) : AlikeClosure (σ.trans τ) f f2 := by
  intro n n2 hn
  obtain ⟨n1, hn1⟩ := exists_renamed h0 n
  have hn2 := renamed_decomp h0 k0 hn hn1
  rcases h n n1 hn1 with ⟨e, a, b⟩ | ⟨m, m1, a, b, c⟩
  · rcases h' n1 n2 hn2 with ⟨e', a', b'⟩ | ⟨_, _, a', _, _⟩
    · rw [b, Except.error.injEq] at a'
      exact Or.inl ⟨e, a, a' ▸ b'⟩
    · rw [b] at a'; exact absurd a' (by simp)
  · rcases h' n1 n2 hn2 with ⟨e', a', _⟩ | ⟨_, m2, a', b', c'⟩
    · rw [b] at a'; exact absurd a' (by simp)
    · rw [b, Except.ok.injEq] at a'
      subst a'
      exact Or.inr ⟨m, m2, a, b', renamed_comp h0 k0 c c'⟩

theorem alikeTasks_comp (h0 : σ emptyIdx = emptyIdx) (k0 : τ emptyIdx = emptyIdx) {l l1 l2 : List (NodeIndex × Closure)}
    (h : List.Forall₂ (AlikeTask σ) l l1) : List.Forall₂ (AlikeTask τ) l1 l2 → List.Forall₂ (AlikeTask (σ.trans τ)) l l2 := by
  induction h generalizing l2 with
  | nil => intro h'; cases h'; exact .nil
  | cons a _ ih =>
    intro h'
    cases h' with
    | cons b h' => exact .cons ⟨by rw [b.1, a.1]; rfl, alikeClosure_comp h0 k0 a.2 b.2⟩ (ih h')

theorem Trans.Alike.comp (h0 : σ emptyIdx = emptyIdx) (k0 : τ emptyIdx = emptyIdx) {t t1 t2 : Trans} (h : t.Alike σ t1) (h' : t1.Alike τ t2) :
    t.Alike (σ.trans τ) t2 where
  pending :=
    { new := alike_comp h0 k0 h.pending.new h'.pending.new
      unfilled := fun x => by rw [Equiv.trans_apply, h'.pending.unfilled, h.pending.unfilled]
      removed := fun x => by rw [Equiv.trans_apply, h'.pending.removed, h.pending.removed]
      muts := alikeTasks_comp h0 k0 h.pending.muts h'.pending.muts
      upds := alikeTasks_comp h0 k0 h.pending.upds h'.pending.upds
      redirAll := by rw [h'.pending.redirAll, h.pending.redirAll, List.map_map]; rfl
      redir := by rw [h'.pending.redir, h.pending.redir, List.map_map]; rfl }
  disp := fun i => by rw [Equiv.trans_apply, h'.disp, h.disp]

theorem Trans.new_alike (u : Nat) : (Trans.new u).Alike σ (Trans.new u) where
  pending :=
    { new := alike_none σ
      unfilled := fun x => by simp [Trans.pending, Trans.new]
      removed := fun x => by simp [Trans.pending, Trans.new]
      muts := .nil, upds := .nil, redirAll := rfl, redir := rfl }
  disp := fun _ => rfl

/-! ### One step of a thread -/

/-- A thread does the same in two places. -/
theorem thread_step {p : Thread} {c0 : Nat} (hg : p.Generic c0) (ht : p.Typed S) (hσ : ∀ i : Nat, i ≤ c0 → σ i = i) {h h2 : Returned}
    (hh : h2 = h.map (List.map σ)) {t t' t2 : Trans} {cnt cnt' cnt2 : Nat} {o : TOp} {l : List NodeIndex} (k : t.Ready S) (k2 : t2.Ready S)
    (hb : ∀ i : Nat, t.Owns i → i ≠ emptyIdx ∧ i ≤ cnt) (hb2 : ∀ i : Nat, t2.Owns i → i ≠ emptyIdx ∧ i ≤ cnt2)
    (hp : p h = some o) (ho : o.Allowed S t) (ha : t.Alike σ t2) (hr : o.run t cnt = .ok (t', cnt', l))
    (hn : ∀ i : Nat, i < cnt' - cnt → σ (cnt + 1 + i : Nat) = (cnt2 + 1 + i : Nat)) :
    ∃ o2 t2', p h2 = some o2 ∧ o2.Allowed S t2 ∧ o2.run t2 cnt2 = .ok (t2', cnt2 + (cnt' - cnt), l.map σ) ∧ t'.Alike σ t2' := by
  have hgen := hg σ hσ h
  rw [hp, ← hh] at hgen
  cases hp2 : p h2 with
  | none => rw [hp2] at hgen; exact hgen.elim
  | some o2 =>
    rw [hp2] at hgen
    have hgen : AlikeOp σ o o2 := hgen
    have ho2 : o2.Allowed S t2 := by
      refine ht h2 o2 hp2 t2 ?_
      rintro i2 n2 rfl
      cases o with
      | fillBackUntyped i n =>
        obtain ⟨rfl, _⟩ := hgen
        exact (ha.pending.unfilled i).2 ho.2
      | _ => exact hgen.elim
    obtain ⟨t2', e1, e2⟩ := Trans.op_alike k k2 hb hb2 ho ho2 hgen ha hr hn
    exact ⟨o2, t2', rfl, ho2, e1, e2⟩

end

/-- Exchange the block of `p` numbers after `n` with the next `q`. -/
def blocks (n p q : Nat) : Equiv.Perm Nat where
  toFun i := if n < i ∧ i ≤ n + p then i + q else if n + p < i ∧ i ≤ n + p + q then i - p else i
  invFun i := if n < i ∧ i ≤ n + q then i + p else if n + q < i ∧ i ≤ n + p + q then i - q else i
  left_inv i := by simp only; split_ifs <;> omega
  right_inv i := by simp only; split_ifs <;> omega

theorem blocks_first {n c1 c2 i : Nat} (_ : n ≤ c1) (h2 : c1 ≤ c2) (hi : i < c1 - n) :
    blocks n (c1 - n) (c2 - c1) (n + 1 + i) = n + (c2 - c1) + 1 + i := by
  simp only [blocks, Equiv.coe_fn_mk]; split_ifs <;> omega

theorem blocks_second {n c1 c2 i : Nat} (h1 : n ≤ c1) (_ : c1 ≤ c2) (hi : i < c2 - c1) :
    blocks n (c1 - n) (c2 - c1) (c1 + 1 + i) = n + 1 + i := by
  simp only [blocks, Equiv.coe_fn_mk]; split_ifs <;> omega

theorem blocks_above {n c1 c2 i : Nat} (_ : n ≤ c1) (_ : c1 ≤ c2) (hi : c2 < i) : blocks n (c1 - n) (c2 - c1) i = i := by
  simp only [blocks, Equiv.coe_fn_mk]; split_ifs <;> omega

section
variable [SetImpl] {S : Schema} {dbg : Bool} {P : Nat → Thread} {c c0 : Nat} {K : Nat → Prop} {σ τ : Equiv.Perm NodeIndex}

/-- The world after a call that returns. -/
theorem exec_op {w : World} {k c : Nat} {t t' : Trans} {x : Ctx} {cnt : Nat} {l : List NodeIndex} {o : TOp} (ht : w.trans k = some (c, t))
    (hx : w.ctx c = some x) (hr : o.run t x.cnt = .ok (t', cnt, l)) :
    w.exec S dbg (.op k o) = (w.issue c x cnt l).setTrans k (some (c, t')) := by
  simp only [World.exec, ht, hx, hr]

omit [SetImpl] in
theorem winv_op {w : World} (h : World.WInv S w) {k c : Nat} {t t' : Trans} {x : Ctx} {cnt : Nat} {l : List NodeIndex} {o : TOp}
    (ht : w.trans k = some (c, t)) (hx : w.ctx c = some x) (ho : o.Allowed S t) (hr : o.run t x.cnt = .ok (t', cnt, l)) :
    World.WInv S ((w.issue c x cnt l).setTrans k (some (c, t'))) ∧ Trans.Grown S t t' x.cnt cnt l := by
  obtain ⟨x', hx', _, hrd⟩ := h.trans k c t ht
  rw [hx, Option.some.injEq] at hx'
  subst hx'
  have hb : ∀ i : Nat, t.Owns i → i ≠ emptyIdx ∧ i ≤ x.cnt := by
    intro i hi
    obtain ⟨x', hx', a, b⟩ := h.bound (.inr k) c i ⟨t, ht, hi⟩
    rw [hx, Option.some.injEq] at hx'
    subst hx'
    exact ⟨a, b⟩
  have hgr := Trans.run_grown hrd hb ho hr
  exact ⟨h.op ht hx hgr, hgr⟩

omit [SetImpl] in
theorem winv_ready {w : World} (h : World.WInv S w) {k c : Nat} {t : Trans} {x : Ctx} (ht : w.trans k = some (c, t)) (hx : w.ctx c = some x) :
    t.Ready S ∧ ∀ i : Nat, t.Owns i → i ≠ emptyIdx ∧ i ≤ x.cnt := by
  obtain ⟨x', hx', _, hrd⟩ := h.trans k c t ht
  refine ⟨hrd, fun i hi => ?_⟩
  obtain ⟨x', hx', a, b⟩ := h.bound (.inr k) c i ⟨t, ht, hi⟩
  rw [hx, Option.some.injEq] at hx'
  subst hx'
  exact ⟨a, b⟩

/-- Two worlds with corresponding transactions `K`, and nothing else different. -/
structure Par (S : Schema) (c : Nat) (K : Nat → Prop) (σ : Equiv.Perm NodeIndex) (w : World) (h : Nat → Returned) (w2 : World)
    (h2 : Nat → Returned) : Prop where
  left : World.WInv S w
  right : World.WInv S w2
  graph : w2.graph = w.graph
  ctx : w2.ctx = w.ctx
  trans : ∀ k, K k → ∃ t t2, w.trans k = some (c, t) ∧ w2.trans k = some (c, t2) ∧ t.Alike σ t2
  other : ∀ k, ¬ K k → w2.trans k = w.trans k
  hist : ∀ k, K k → h2 k = (h k).map (List.map σ)

/-- The transactions `K` know only indices that have been given out. -/
structure Started (S : Schema) (c : Nat) (K : Nat → Prop) (w : World) (h : Nat → Returned) (x : Ctx) : Prop where
  inv : World.WInv S w
  ctx : w.ctx c = some x
  self : ∀ k, K k → ∃ t, w.trans k = some (c, t) ∧ ∀ σ : Equiv.Perm NodeIndex, (∀ i : Nat, i ≤ x.cnt → σ i = i) → t.Alike σ t
  known : ∀ k, K k → ∀ l ∈ h k, ∀ i ∈ l, (i : Nat) ≤ x.cnt

omit [SetImpl] in
theorem map_fixed {h : Returned} {n : Nat} (hk : ∀ l ∈ h, ∀ i ∈ l, (i : Nat) ≤ n) (hσ : ∀ i : Nat, i ≤ n → σ i = i) : h.map (List.map σ) = h := by
  have : ∀ l ∈ h, List.map σ l = l := fun l hl => (List.map_congr_left fun i hi => hσ i (hk l hl i hi)).trans (List.map_id l)
  exact (List.map_congr_left this).trans (List.map_id h)

omit [SetImpl] in
theorem Started.par {w : World} {h : Nat → Returned} {x : Ctx} (hs : Started S c K w h x) (hσ : ∀ i : Nat, i ≤ x.cnt → σ i = i) :
    Par S c K σ w h w h where
  left := hs.inv
  right := hs.inv
  graph := rfl
  ctx := rfl
  trans := fun k hk => by
    obtain ⟨t, e, hh⟩ := hs.self k hk
    exact ⟨t, t, e, e, hh σ hσ⟩
  other := fun _ _ => rfl
  hist := fun k hk => (map_fixed (hs.known k hk) hσ).symm

omit [SetImpl] in
theorem Par.comp (h0 : σ emptyIdx = emptyIdx) (k0 : τ emptyIdx = emptyIdx) {w w1 w2 : World} {h h1 h2 : Nat → Returned}
    (a : Par S c K σ w h w1 h1) (b : Par S c K τ w1 h1 w2 h2) : Par S c K (σ.trans τ) w h w2 h2 where
  left := a.left
  right := b.right
  graph := b.graph.trans a.graph
  ctx := b.ctx.trans a.ctx
  trans := fun k hk => by
    obtain ⟨t, t1, e, e1, g⟩ := a.trans k hk
    obtain ⟨t1', t2, e1', e2, g'⟩ := b.trans k hk
    rw [e1, Option.some.injEq, Prod.mk.injEq] at e1'
    obtain ⟨_, rfl⟩ := e1'
    exact ⟨t, t2, e, e2, g.comp h0 k0 g'⟩
  other := fun k hk => (b.other k hk).trans (a.other k hk)
  hist := fun k hk => by
    rw [b.hist k hk, a.hist k hk, List.map_map]
    congr 1
    funext l
    simp

/-- What a step of a thread is. -/
theorem Started.split {w w' : World} {h h' : Nat → Returned} {x : Ctx} (hs : Started S c K w h x) {k : Nat} {ks : List Nat} (hk : K k)
    (hr : Runs S dbg P w h (k :: ks) w' h') : ∃ t o t' cnt l, w.trans k = some (c, t) ∧ P k (h k) = some o ∧ o.Allowed S t ∧
      o.run t x.cnt = .ok (t', cnt, l) ∧
      Runs S dbg P ((w.issue c x cnt l).setTrans k (some (c, t'))) (World.put h k (h k ++ [l])) ks w' h' := by
  cases hr with
  | step hp ho hh hr =>
    obtain ⟨t, x', t', cnt, ht, hx, hrun⟩ := hh
    obtain ⟨t0, e, _⟩ := hs.self k hk
    rw [ht, Option.some.injEq, Prod.mk.injEq] at e
    obtain ⟨rfl, rfl⟩ := e
    rw [hs.ctx, Option.some.injEq] at hx
    subst hx
    rw [exec_op ht hs.ctx hrun] at hr
    exact ⟨t, _, t', cnt, _, ht, hp, ho _ _ ht, hrun, hr⟩

theorem runs_step {w w' : World} {h h' : Nat → Returned} {x : Ctx} {k : Nat} {ks : List Nat} {t t' : Trans} {o : TOp} {cnt : Nat}
    {l : List NodeIndex} (ht : w.trans k = some (c, t)) (hx : w.ctx c = some x) (hp : P k (h k) = some o) (ho : o.Allowed S t)
    (hrun : o.run t x.cnt = .ok (t', cnt, l))
    (hr : Runs S dbg P ((w.issue c x cnt l).setTrans k (some (c, t'))) (World.put h k (h k ++ [l])) ks w' h') :
    Runs S dbg P w h (k :: ks) w' h' := by
  refine .step (o := o) (l := l) (c := c) hp ?_ ⟨t, x, t', cnt, ht, hx, hrun⟩ ?_
  · intro c' t2 ht2
    rw [ht, Option.some.injEq, Prod.mk.injEq] at ht2
    obtain ⟨_, rfl⟩ := ht2
    exact ho
  · rw [exec_op ht hx hrun]; exact hr

omit [SetImpl] in
theorem Started.step {w : World} {h : Nat → Returned} {x : Ctx} (hs : Started S c K w h x) (hc : c0 ≤ x.cnt) {k : Nat} (hk : K k)
    (hg : (P k).Generic c0) (hty : (P k).Typed S) {t t' : Trans} {o : TOp} {cnt : Nat} {l : List NodeIndex} (ht : w.trans k = some (c, t))
    (hp : P k (h k) = some o) (ho : o.Allowed S t) (hrun : o.run t x.cnt = .ok (t', cnt, l)) :
    Started S c K ((w.issue c x cnt l).setTrans k (some (c, t'))) (World.put h k (h k ++ [l])) { x with cnt } ∧ x.cnt ≤ cnt := by
  obtain ⟨hinv, hgr⟩ := winv_op hs.inv ht hs.ctx ho hrun
  have hle := hgr.le
  obtain ⟨hrd, hb⟩ := winv_ready hs.inv ht hs.ctx
  refine ⟨⟨hinv, ?_, ?_, ?_⟩, hle⟩
  · simp [World.issue, World.setTrans, World.put]
  · intro j hj
    by_cases e : j = k
    · subst e
      refine ⟨t', by simp [World.issue, World.setTrans, World.put], fun σ hσ => ?_⟩
      obtain ⟨t0, e0, hself⟩ := hs.self j hj
      rw [ht, Option.some.injEq, Prod.mk.injEq] at e0
      obtain ⟨_, rfl⟩ := e0
      have hσ' : ∀ i : Nat, i ≤ x.cnt → σ i = i := fun i hi => hσ i (Nat.le_trans hi hle)
      obtain ⟨o2, t2', e1, _, e3, e4⟩ := thread_step hg hty (fun i hi => hσ' i (Nat.le_trans hi hc)) (map_fixed (hs.known j hj) hσ').symm
        hrd hrd hb hb hp ho (hself σ hσ') hrun (fun i hi => hσ _ (by simp only; omega))
      rw [hp, Option.some.injEq] at e1
      subst e1
      rw [hrun, Except.ok.injEq, Prod.mk.injEq] at e3
      rw [← e3.1] at e4
      exact e4
    · obtain ⟨t0, e0, hself⟩ := hs.self j hj
      exact ⟨t0, by simp [World.issue, World.setTrans, World.put, e, e0], fun σ hσ => hself σ fun i hi => hσ i (Nat.le_trans hi hle)⟩
  · intro j hj l' hl' i hi
    by_cases e : j = k
    · subst e
      simp only [World.put, if_pos, List.mem_append, List.mem_singleton] at hl'
      rcases hl' with hl' | rfl
      · exact Nat.le_trans (hs.known j hj l' hl' i hi) hle
      · rw [hgr.list, List.mem_range'_1] at hi
        obtain ⟨_, hi⟩ := hi
        rw [show x.cnt + 1 + (cnt - x.cnt) = cnt + 1 by omega] at hi
        exact Nat.le_of_lt_succ hi
    · simp only [World.put, if_neg e] at hl'
      exact Nat.le_trans (hs.known j hj l' hl' i hi) hle

theorem Started.runs (hK : ∀ k, K k → (P k).Generic c0 ∧ (P k).Typed S) {s : List Nat} : ∀ {w w' : World} {h h' : Nat → Returned} {x : Ctx},
    Started S c K w h x → c0 ≤ x.cnt → (∀ k ∈ s, K k) → Runs S dbg P w h s w' h' → ∃ x', Started S c K w' h' x' ∧ x.cnt ≤ x'.cnt := by
  induction s with
  | nil => intro w w' h h' x hs _ _ hr; cases hr; exact ⟨x, hs, Nat.le_refl _⟩
  | cons k ks ih =>
    intro w w' h h' x hs hc hk hr
    have hkk := hk k (by simp)
    obtain ⟨t, o, t', cnt, l, ht, hp, ho, hrun, hr⟩ := hs.split hkk hr
    obtain ⟨hs', hle⟩ := hs.step hc hkk (hK k hkk).1 (hK k hkk).2 ht hp ho hrun
    obtain ⟨x', a, b⟩ := ih hs' (Nat.le_trans hc hle) (fun j hj => hk j (by simp [hj])) hr
    exact ⟨x', a, Nat.le_trans hle b⟩

/-- Both worlds make the same steps. -/
theorem Par.runs (hK : ∀ k, K k → (P k).Generic c0 ∧ (P k).Typed S) (hσ : ∀ i : Nat, i ≤ c0 → σ i = i) {s : List Nat} :
    ∀ {w w' w2 : World} {h h' h2 : Nat → Returned} {x : Ctx},
    Started S c K w h x → c0 ≤ x.cnt → (∀ i : Nat, x.cnt < i → σ i = i) → Par S c K σ w h w2 h2 → (∀ k ∈ s, K k) → Runs S dbg P w h s w' h' →
    ∃ w2' h2', Runs S dbg P w2 h2 s w2' h2' ∧ Par S c K σ w' h' w2' h2' := by
  induction s with
  | nil => intro w w' w2 h h' h2 x _ _ _ hp _ hr; cases hr; exact ⟨w2, h2, .done, hp⟩
  | cons k ks ih =>
    intro w w' w2 h h' h2 x hs hc hσ' hpar hk hr
    have hkk := hk k (by simp)
    obtain ⟨t, o, t', cnt, l, ht, hp, ho, hrun, hr⟩ := hs.split hkk hr
    obtain ⟨hs', hle⟩ := hs.step hc hkk (hK k hkk).1 (hK k hkk).2 ht hp ho hrun
    obtain ⟨t0, t2, e0, e2, ha⟩ := hpar.trans k hkk
    rw [ht, Option.some.injEq, Prod.mk.injEq] at e0
    obtain ⟨_, rfl⟩ := e0
    have hx2 : w2.ctx c = some x := by rw [hpar.ctx]; exact hs.ctx
    obtain ⟨hrd, hb⟩ := winv_ready hs.inv ht hs.ctx
    obtain ⟨hrd2, hb2⟩ := winv_ready hpar.right e2 hx2
    obtain ⟨o2, t2', f1, f2, f3, f4⟩ := thread_step (hK k hkk).1 (hK k hkk).2 hσ (hpar.hist k hkk) hrd hrd2 hb hb2 hp ho ha hrun
      (fun i hi => hσ' _ (by omega))
    rw [show x.cnt + (cnt - x.cnt) = cnt by omega] at f3
    have hpar' : Par S c K σ ((w.issue c x cnt l).setTrans k (some (c, t'))) (World.put h k (h k ++ [l]))
        ((w2.issue c x cnt (l.map σ)).setTrans k (some (c, t2'))) (World.put h2 k (h2 k ++ [l.map σ])) := by
      refine ⟨hs'.inv, (winv_op hpar.right e2 hx2 f2 f3).1, hpar.graph, ?_, ?_, ?_, ?_⟩
      · simp [World.issue, World.setTrans, hpar.ctx]
      · intro j hj
        by_cases e : j = k
        · subst e
          exact ⟨t', t2', by simp [World.issue, World.setTrans, World.put], by simp [World.issue, World.setTrans, World.put], f4⟩
        · obtain ⟨u, u2, a, b, g⟩ := hpar.trans j hj
          exact ⟨u, u2, by simp [World.issue, World.setTrans, World.put, e, a], by simp [World.issue, World.setTrans, World.put, e, b], g⟩
      · intro j hj
        have e : j ≠ k := fun e => hj (e ▸ hkk)
        simp [World.issue, World.setTrans, World.put, e, hpar.other j hj]
      · intro j hj
        by_cases e : j = k
        · subst e
          simp [World.put, hpar.hist j hj]
        · simp [World.put, e, hpar.hist j hj]
    obtain ⟨w2', h2', r1, r2⟩ := ih hs' (Nat.le_trans hc hle) (fun i hi => hσ' i (by simp only at hi; omega)) hpar' (fun j hj => hk j (by simp [hj])) hr
    exact ⟨w2', h2', runs_step e2 hx2 f1 f2 f3 r1, r2⟩

theorem par_swap (hK : ∀ k, K k → (P k).Generic c0 ∧ (P k).Typed S) {a b : Nat} (hab : a ≠ b) {s : List Nat} {w w' : World}
    {h h' : Nat → Returned} {x : Ctx} (hs : Started S c K w h x) (hc : c0 ≤ x.cnt) (hk : ∀ k ∈ a :: b :: s, K k)
    (hr : Runs S dbg P w h (a :: b :: s) w' h') : ∃ w2' h2', ∃ σ : Equiv.Perm NodeIndex, (∀ i : Nat, i ≤ x.cnt → σ i = i) ∧
      Runs S dbg P w h (b :: a :: s) w2' h2' ∧ Par S c K σ w' h' w2' h2' := by
  have hka := hk a (by simp)
  have hkb := hk b (by simp)
  have hba : b ≠ a := fun e => hab e.symm
  obtain ⟨ta, oa, ta', cnt1, la, hta, hpa, hoa, hruna, hr⟩ := hs.split hka hr
  obtain ⟨hs1, hle1⟩ := hs.step hc hka (hK a hka).1 (hK a hka).2 hta hpa hoa hruna
  obtain ⟨tb, ob, tb', cnt2, lb, htb, hpb, hob, hrunb, hr⟩ := hs1.split hkb hr
  obtain ⟨hs2, hle2⟩ := hs1.step (Nat.le_trans hc hle1) hkb (hK b hkb).1 (hK b hkb).2 htb hpb hob hrunb
  have htb0 : w.trans b = some (c, tb) := by simpa [World.issue, World.setTrans, World.put, hba] using htb
  simp only [World.put, if_neg hba] at hpb
  simp only at hrunb hle2
  have hbk : ∀ i : Nat, i ≤ x.cnt → (blocks x.cnt (cnt1 - x.cnt) (cnt2 - cnt1)) i = i := by
    intro i hi; simp only [blocks, Equiv.coe_fn_mk]; split_ifs <;> omega
  obtain ⟨σ, hσe⟩ : ∃ σ : Equiv.Perm NodeIndex, ∀ i : Nat, σ i = blocks x.cnt (cnt1 - x.cnt) (cnt2 - cnt1) i := ⟨blocks _ _ _, fun _ => rfl⟩
  have hσ : ∀ i : Nat, i ≤ x.cnt → σ i = i := fun i hi => (hσe i).trans (hbk i hi)
  obtain ⟨ta0, ea, hsa⟩ := hs.self a hka
  rw [hta, Option.some.injEq, Prod.mk.injEq] at ea
  obtain ⟨_, rfl⟩ := ea
  obtain ⟨tb0, eb, hsb⟩ := hs.self b hkb
  rw [htb0, Option.some.injEq, Prod.mk.injEq] at eb
  obtain ⟨_, rfl⟩ := eb
  obtain ⟨hrda, hba1⟩ := winv_ready hs.inv hta hs.ctx
  obtain ⟨hrdb, hbb1⟩ := winv_ready hs.inv htb0 hs.ctx
  -- `b` goes first
  obtain ⟨ob2, tb2, f1, f2, f3, f4⟩ := thread_step (hK b hkb).1 (hK b hkb).2 (fun i hi => hσ i (Nat.le_trans hi hc)) (map_fixed (hs.known b hkb) hσ).symm
    hrdb hrdb (fun i hi => ⟨(hbb1 i hi).1, Nat.le_trans (hbb1 i hi).2 hle1⟩) hbb1 hpb hob (hsb σ hσ) hrunb
    (fun i hi => (hσe _).trans (blocks_second hle1 hle2 hi))
  obtain ⟨hs1', hle1'⟩ := hs.step hc hkb (hK b hkb).1 (hK b hkb).2 htb0 f1 f2 f3
  have hta1 : ((w.issue c x (x.cnt + (cnt2 - cnt1)) (lb.map σ)).setTrans b (some (c, tb2))).trans a = some (c, ta) := by
    simp [World.issue, World.setTrans, World.put, hab, hta]
  obtain ⟨oa2, ta2, g1, g2, g3, g4⟩ := thread_step (hK a hka).1 (hK a hka).2 (fun i hi => hσ i (Nat.le_trans hi hc)) (map_fixed (hs.known a hka) hσ).symm
    hrda hrda hba1 (cnt2 := x.cnt + (cnt2 - cnt1)) (fun i hi => ⟨(hba1 i hi).1, Nat.le_trans (hba1 i hi).2 (by omega)⟩) hpa hoa (hsa σ hσ) hruna
    (fun i hi => (hσe _).trans (blocks_first hle1 hle2 hi))
  have g1' : P a (World.put h b (h b ++ [lb.map σ]) a) = some oa2 := by simpa [World.put, hab] using g1
  obtain ⟨hs2', hle2'⟩ := hs1'.step (Nat.le_trans hc hle1') hka (hK a hka).1 (hK a hka).2 hta1 g1' g2 g3
  have hce : x.cnt + (cnt2 - cnt1) + (cnt1 - x.cnt) = cnt2 := by omega
  have hpar := Par.mk (c := c) (K := K) (σ := σ) (h := World.put (World.put h a (h a ++ [la])) b (World.put h a (h a ++ [la]) b ++ [lb]))
    (h2 := World.put (World.put h b (h b ++ [lb.map σ])) a (World.put h b (h b ++ [lb.map σ]) a ++ [la.map σ])) hs2.inv hs2'.inv rfl ?_ ?_ ?_ ?_
  obtain ⟨w2', h2', r1, r2⟩ := hpar.runs hK (fun i hi => hσ i (Nat.le_trans hi hc)) hs2 (Nat.le_trans hc (Nat.le_trans hle1 hle2))
    (fun i hi => (hσe i).trans (blocks_above hle1 hle2 hi)) (fun j hj => hk j (by simp [hj])) hr
  refine ⟨w2', h2', σ, hσ, ?_, r2⟩
  exact runs_step htb0 hs.ctx f1 f2 f3 (runs_step hta1 hs1'.ctx g1' g2 g3 r1)
  · funext j
    simp only [World.issue, World.setTrans, World.put]
    split_ifs
    · simp only [hce]
    · rfl
  · intro j hj
    by_cases e : j = a
    · subst e
      exact ⟨ta', ta2, by simp [World.issue, World.setTrans, World.put, hab], by simp [World.issue, World.setTrans, World.put], g4⟩
    · by_cases e' : j = b
      · subst e'
        exact ⟨tb', tb2, by simp [World.issue, World.setTrans, World.put], by simp [World.issue, World.setTrans, World.put, e], f4⟩
      · obtain ⟨u, hu, hself⟩ := hs.self j hj
        exact ⟨u, u, by simp [World.issue, World.setTrans, World.put, e, e', hu], by simp [World.issue, World.setTrans, World.put, e, e', hu], hself σ hσ⟩
  · intro j hj
    have e : j ≠ a := fun e => hj (e ▸ hka)
    have e' : j ≠ b := fun e => hj (e ▸ hkb)
    simp [World.issue, World.setTrans, World.put, e, e']
  · intro j hj
    have hfix := map_fixed (hs.known j hj) hσ
    by_cases e : j = a
    · subst e
      simp [World.put, hab, hfix]
    · by_cases e' : j = b
      · subst e'
        simp [World.put, e, hfix]
      · simp [World.put, e, e', hfix]

/-- Every other schedule of the same steps is possible, and gives the same up to the values of indices. -/
theorem par_perm (hK : ∀ k, K k → (P k).Generic c0 ∧ (P k).Typed S) {s s2 : List Nat} (hperm : s.Perm s2) :
    ∀ {w w' : World} {h h' : Nat → Returned} {x : Ctx}, Started S c K w h x → c0 ≤ x.cnt → (∀ k ∈ s, K k) → Runs S dbg P w h s w' h' →
    ∃ w2' h2', ∃ σ : Equiv.Perm NodeIndex, (∀ i : Nat, i ≤ x.cnt → σ i = i) ∧ Runs S dbg P w h s2 w2' h2' ∧ Par S c K σ w' h' w2' h2' := by
  induction hperm with
  | nil =>
    intro w w' h h' x hs hc _ hr
    cases hr
    exact ⟨w, h, Equiv.refl _, fun _ _ => rfl, .done, hs.par fun _ _ => rfl⟩
  | cons k _ ih =>
    intro w w' h h' x hs hc hk hr
    have hkk := hk k (by simp)
    obtain ⟨t, o, t', cnt, l, ht, hp, ho, hrun, hr⟩ := hs.split hkk hr
    obtain ⟨hs', hle⟩ := hs.step hc hkk (hK k hkk).1 (hK k hkk).2 ht hp ho hrun
    obtain ⟨w2', h2', σ, a, b, d⟩ := ih hs' (Nat.le_trans hc hle) (fun j hj => hk j (by simp [hj])) hr
    exact ⟨w2', h2', σ, fun i hi => a i (Nat.le_trans hi hle), runs_step ht hs.ctx hp ho hrun b, d⟩
  | swap a b s =>
    intro w w' h h' x hs hc hk hr
    by_cases hab : b = a
    · subst hab
      obtain ⟨x', hs', _⟩ := hs.runs hK hc hk hr
      exact ⟨w', h', Equiv.refl _, fun _ _ => rfl, hr, hs'.par fun _ _ => rfl⟩
    · exact par_swap hK hab hs hc hk hr
  | trans p1 p2 ih1 ih2 =>
    intro w w' h h' x hs hc hk hr
    obtain ⟨w1, h1, σ, a, b, d⟩ := ih1 hs hc hk hr
    obtain ⟨w2, h2, τ, a', b', d'⟩ := ih2 hs hc (fun k hk' => hk k (p1.mem_iff.2 hk')) b
    have h0 : σ emptyIdx = emptyIdx := a 0 (Nat.zero_le _)
    have k0 : τ emptyIdx = emptyIdx := a' 0 (Nat.zero_le _)
    exact ⟨w2, h2, σ.trans τ, fun i hi => by rw [Equiv.trans_apply, a i hi, a' i hi], b', d.comp h0 k0 d'⟩

end
end TTGraph

namespace TTGraph
open Spec

section
variable [SetImpl] {S : Schema} {dbg : Bool} {σ : Nat → Equiv.Perm NodeIndex} {K : Nat → Prop}

theorem commitAll_none {gh : Nat} : ∀ (ks : List Nat) {w : World}, w.graph gh = none → (commitAll S dbg gh ks w).graph gh = none := by
  intro ks
  induction ks with
  | nil => exact fun h => h
  | cons k ks ih =>
    intro w h
    refine ih (w := w.exec S dbg (.commit gh k)) ?_
    simp only [World.exec, h]
    cases w.trans k <;> exact h

theorem Spec.SteadyCommits.tail {gh k : Nat} {ks : List Nat} {w : World} (h : SteadyCommits S dbg gh (k :: ks) w) :
    SteadyCommits S dbg gh ks (w.exec S dbg (.commit gh k)) := fun pre j post e => h (k :: pre) j post (by rw [e]; rfl)

/-- Commits of corresponding transactions in the same order. -/
theorem commitAll_alike (hσ : ∀ c, σ c emptyIdx = emptyIdx) (hw : WellNamed S) {gh c : Nat} (ks : List Nat) :
    ∀ {w w2 : World} {c1 c2 : Nat} {g1 g2 : Graph}, SteadyCommits S dbg gh ks w → SteadyCommits S dbg gh ks w2 → (∀ k ∈ ks, K k) → TwinInv S S σ (· = gh) K w w2 →
    (∀ c' g, w.graph gh = some (c', g) → c' = c) → (∀ k c' t, K k → w.trans k = some (c', t) → c' = c) →
    (∀ k, K k → (w2.trans k = none ↔ w.trans k = none)) →
    (commitAll S dbg gh ks w).graph gh = some (c1, g1) → (commitAll S dbg gh ks w2).graph gh = some (c2, g2) →
    c2 = c1 ∧ Alike (σ c1) g1.get? g2.get? := by
  induction ks with
  | nil => intro w w2 c1 c2 g1 g2 _ _ _ hi _ _ _ h1 h2; exact hi.graph gh c1 c2 g1 g2 rfl h1 h2
  | cons k ks ih =>
    intro w w2 c1 c2 g1 g2 hst hst2 hk hi hg ht hn h1 h2
    have hkk := hk k (by simp)
    have hg1 : w.graph gh ≠ none := fun e => by rw [commitAll_none _ e] at h1; exact absurd h1 (by simp)
    have hg2 : w2.graph gh ≠ none := fun e => by rw [commitAll_none _ e] at h2; exact absurd h2 (by simp)
    have hnone : ∀ {w : World}, w.trans k = none → w.exec S dbg (.commit gh k) = w := fun e => by simp only [World.exec, e]
    obtain ⟨⟨cg, g⟩, eg⟩ := Option.ne_none_iff_exists'.1 hg1
    obtain ⟨⟨cg2, g'⟩, eg2⟩ := Option.ne_none_iff_exists'.1 hg2
    have hcg := hg _ _ eg
    have hcg2 := (hi.graph gh _ _ _ _ rfl eg eg2).1
    cases hwt : w.trans k with
    | none =>
      have hwt2 := (hn k hkk).2 hwt
      simp only [commitAll, List.foldl_cons, hnone hwt] at h1
      simp only [commitAll, List.foldl_cons, hnone hwt2] at h2
      refine ih ?_ ?_ (fun j hj => hk j (by simp [hj])) hi hg ht hn h1 h2
      · have := hst.tail; rwa [hnone hwt] at this
      · have := hst2.tail; rwa [hnone hwt2] at this
    | some ct =>
      obtain ⟨ct, t⟩ := ct
      have hct := ht k ct t hkk hwt
      cases hwt2 : w2.trans k with
      | none => rw [(hn k hkk).1 hwt2] at hwt; exact absurd hwt (by simp)
      | some ct2 =>
        obtain ⟨ct2, t2⟩ := ct2
        have hct2 := (hi.trans k _ _ _ _ hkk hwt hwt2).1
        have hi' := hi.both (dbg := dbg) hσ hw hw (SameTables.refl S) (a := .commit gh k) (b := .commit gh k) (hst [] k ks rfl) (hst2 [] k ks rfl)
          (by intro c' t' c'' gr e1 e2; rw [hwt, Option.some.injEq, Prod.mk.injEq] at e1; rw [eg, Option.some.injEq, Prod.mk.injEq] at e2
              rw [← e1.1, ← e2.1, hct, hcg])
          (by intro c' t' c'' gr e1 e2; rw [hwt2, Option.some.injEq, Prod.mk.injEq] at e1; rw [eg2, Option.some.injEq, Prod.mk.injEq] at e2
              rw [← e1.1, ← e2.1, hct2, hcg2, hct, hcg])
          ⟨hkk, rfl⟩ ⟨rfl, rfl, by simp [hwt], by simp [hwt2], hg1, hg2⟩
        have hex : ∀ {w : World} {cg ct : Nat} {g : Graph} {t : Trans}, w.graph gh = some (cg, g) → w.trans k = some (ct, t) →
            ∃ r, w.exec S dbg (.commit gh k) = (w.setTrans k none).setGraph gh r ∧ (∀ c' g', r = some (c', g') → c' = cg) := by
          intro w cg ct g t e1 e2
          simp only [World.exec, e1, e2]
          split
          · exact ⟨_, rfl, by simp⟩
          · exact ⟨_, rfl, by simp⟩
        obtain ⟨r, er, hr⟩ := hex eg hwt
        obtain ⟨r2, er2, _⟩ := hex eg2 hwt2
        refine ih (w := w.exec S dbg (.commit gh k)) (w2 := w2.exec S dbg (.commit gh k)) hst.tail hst2.tail (fun j hj => hk j (by simp [hj])) hi' ?_ ?_ ?_ h1 h2
        · intro c' g' e
          rw [er] at e
          simp only [World.setGraph, World.put, if_pos] at e
          rw [hr _ _ e]; exact hcg
        · intro j c' t' hj e
          rw [er] at e
          simp only [World.setGraph, World.setTrans, World.put] at e
          split at e
          · exact absurd e (by simp)
          · exact ht j c' t' hj e
        · intro j hj
          rw [er, er2]
          simp only [World.setGraph, World.setTrans, World.put]
          split
          · simp
          · exact hn j hj

end
end TTGraph
