import Verif.Lemmas.Withdraw

/-!
# Calls of different kinds commute
-/

set_option autoImplicit false

namespace TTGraph
open Spec
variable {S : Schema}

namespace Trans

/-- A call on a node of the graph is kept for later. -/
def later (t : Trans) : TOp → Trans
  | .remove i => { t with dec := t.dec.insert i }
  | .mutate i f => { t with muts := t.muts ++ [(i, f)] }
  | .update i f => { t with upds := t.upds ++ [(i, f)] }
  | .redirectAllLinks old new => t.redirectAllLinks old new
  | .redirectLinks old new => t.redirectLinks old new
  | _ => t

theorem later_inc (t : Trans) (o : TOp) : (t.later o).inc = t.inc := by cases o <;> rfl
theorem later_allocs (t : Trans) (o : TOp) : (t.later o).allocs = t.allocs := by cases o <;> rfl
theorem later_ctx (t : Trans) (o : TOp) : (t.later o).ctxId = t.ctxId := by cases o <;> rfl

theorem insert_later (t : Trans) (o : TOp) (cnt : Nat) (n : Node) :
    (t.later o).insert cnt n = (t.insert cnt n).map fun r => (r.1, r.2.1.later o, r.2.2) := by
  simp only [insert, later_inc]
  cases t.inc.insert cnt n with
  | error e => rfl
  | ok r => cases o <;> rfl

theorem extend_later (o : TOp) (l : List Node) : ∀ (t : Trans) (cnt : Nat) (acc : List NodeIndex),
    foldE (fun (st : Trans × Nat × List NodeIndex) n =>
      match st.1.insert st.2.1 n with
      | .error e => .error e
      | .ok (i, t', cnt') => .ok (t', cnt', st.2.2 ++ [i])) (t.later o, cnt, acc) l =
    (foldE (fun (st : Trans × Nat × List NodeIndex) n =>
      match st.1.insert st.2.1 n with
      | .error e => .error e
      | .ok (i, t', cnt') => .ok (t', cnt', st.2.2 ++ [i])) (t, cnt, acc) l).map fun r => (r.1.later o, r.2) := by
  induction l with
  | nil => intro t cnt acc; rfl
  | cons n l ih =>
    intro t cnt acc
    simp only [foldE, insert_later]
    cases t.insert cnt n with
    | error e => rfl
    | ok r => exact ih _ _ _

/-- Calls that build new nodes do not look at what is kept for later. -/
theorem run_later {o o' : TOp} (h : kind o = .build) (t : Trans) (cnt : Nat) :
    o.run (t.later o') cnt = (o.run t cnt).map fun r => (r.1.later o', r.2) := by
  cases o with
  | insert n =>
    simp only [TOp.run, insert_later]
    cases t.insert cnt n <;> rfl
  | extend l => exact extend_later o' l t cnt []
  | alloc d =>
    simp only [TOp.run, alloc, later_inc]
    cases t.inc.alloc cnt d with
    | error e => rfl
    | ok r => cases o' <;> rfl
  | allocUntyped => cases o' <;> rfl
  | fillBack i n =>
    simp only [TOp.run, fillBack, later_inc]
    cases t.inc.fillBack i n with
    | error e => rfl
    | ok r => cases o' <;> rfl
  | fillBackUntyped i n =>
    simp only [TOp.run, fillBackUntyped, later_inc]
    cases t.inc.fillBackUntyped i n with
    | error e => rfl
    | ok r => cases o' <;> rfl
  | _ => simp [kind] at h

/-- The other calls, on nodes that are not of this transaction, are kept for later. -/
theorem run_outer {o : TOp} (h : kind o ≠ .build) {t : Trans} (ht : ∀ i, target o = some i → ¬ t.Owns i) (cnt : Nat) :
    o.run t cnt = .ok (t.later o, cnt, []) := by
  have key : ∀ i, ¬ t.Owns i → t.inc.get? i = none ∧ i ∉ t.allocs ∧ (t.inc.remove i).2 = t.inc := by
    intro i hi
    have h1 : t.inc.disp.get? i = none := by
      by_contra hc
      exact hi (Or.inl hc)
    refine ⟨Arena.get?_of_disp_none h1, fun hm => hi (Or.inr hm), ?_⟩
    simp only [Arena.remove, h1]
  cases o with
  | remove i =>
    obtain ⟨h1, h2, h3⟩ := key i (ht i rfl)
    rcases remove_cases t i with ⟨h4, _⟩ | ⟨_, h4, _⟩ | ⟨_, _, e⟩
    · exact absurd h1 h4
    · exact absurd h4 h2
    · simp only [TOp.run, e, h3]
      rfl
  | mutate i f =>
    obtain ⟨h1, _, _⟩ := key i (ht i rfl)
    simp only [TOp.run, mutate, Arena.contains_eq, h1]
    rfl
  | update i f =>
    obtain ⟨h1, _, _⟩ := key i (ht i rfl)
    simp only [TOp.run, update, Arena.contains_eq, h1]
    rfl
  | redirectAllLinks a b => rfl
  | redirectLinks a b => rfl
  | _ => simp [kind] at h

/-- The calls that are not of the kind `build`. -/
def outer (os : List TOp) : List TOp := os.filter fun o => decide (kind o ≠ .build)

/-- The transaction, the counter and all indices returned. -/
def result (t : Trans) (cnt : Nat) (os : List TOp) : Except Panic (Trans × Nat × List NodeIndex) :=
  (runOps t cnt os).map fun r => (r.1, r.2.1, r.2.2.flatten)

theorem result_cons (t : Trans) (cnt : Nat) (o : TOp) (os : List TOp) :
    result t cnt (o :: os) = match o.run t cnt with
      | .error e => .error e
      | .ok (t', cnt', l) => (result t' cnt' os).map fun r => (r.1, r.2.1, l ++ r.2.2) := by
  simp only [result, runOps]
  cases o.run t cnt with
  | error e => rfl
  | ok r =>
    obtain ⟨t', cnt', l⟩ := r
    simp only
    cases runOps t' cnt' os <;> rfl

theorem result_later {o' : TOp} (os : List TOp) (h : ∀ o ∈ os, kind o = .build) : ∀ (t : Trans) (cnt : Nat),
    result (t.later o') cnt os = (result t cnt os).map fun r => (r.1.later o', r.2) := by
  induction os with
  | nil => intro t cnt; rfl
  | cons o os ih =>
    intro t cnt
    rw [result_cons, result_cons, run_later (h o List.mem_cons_self)]
    cases o.run t cnt with
    | error e => rfl
    | ok r =>
      obtain ⟨t', cnt', l⟩ := r
      simp only [Except.map]
      rw [ih (fun o ho => h o (List.mem_cons_of_mem _ ho))]
      cases result t' cnt' os <;> rfl

/-- The building calls go first, the others are kept for later. -/
theorem result_split (os : List TOp) : ∀ {t : Trans} {cnt : Nat}, t.Ready S → (∀ i : Nat, t.Owns i → i ≠ emptyIdx ∧ i ≤ cnt) →
    OpsAllowed S t cnt os → (∀ o ∈ os, kind o ≠ .build → ∀ i : Nat, target o = some i → ¬ t.Owns i ∧ i ≤ cnt) →
    result t cnt os = (result t cnt (ofKind .build os)).map fun r => ((outer os).foldl later r.1, r.2) := by
  induction os with
  | nil => intro t cnt _ _ _ _; rfl
  | cons o os ih =>
    intro t cnt h hb ha ht
    by_cases hk : kind o = .build
    · have e1 : ofKind .build (o :: os) = o :: ofKind .build os := by simp [ofKind, hk]
      have e2 : outer (o :: os) = outer os := by simp [outer, hk]
      rw [e1, e2, result_cons, result_cons]
      cases hr : o.run t cnt with
      | error e => rfl
      | ok r =>
        obtain ⟨t', cnt', l⟩ := r
        simp only
        have hg := run_grown h hb ha.1 hr
        have hb' : ∀ i : Nat, t'.Owns i → i ≠ emptyIdx ∧ i ≤ cnt' := by
          intro i hi
          rcases hg.owns i hi with h1 | h1
          · exact ⟨(hb i h1).1, Nat.le_trans (hb i h1).2 hg.le⟩
          · refine ⟨?_, h1.2⟩
            rintro rfl
            exact absurd h1.1 (Nat.not_lt_zero _)
        rw [ih hg.ready hb' (ha.2 t' cnt' l hr) ?_]
        · cases result t' cnt' (ofKind .build os) <;> rfl
        · intro o' ho' hk' i hi
          obtain ⟨h1, h2⟩ := ht o' (List.mem_cons_of_mem _ ho') hk' i hi
          refine ⟨fun hc => ?_, Nat.le_trans h2 hg.le⟩
          rcases hg.owns i hc with h3 | h3
          · exact h1 h3
          · exact absurd h2 (Nat.not_le_of_lt h3.1)
    · have e1 : ofKind .build (o :: os) = ofKind .build os := by simp [ofKind, hk]
      have e2 : outer (o :: os) = o :: outer os := by simp [outer, hk]
      have hr := run_outer hk (fun i hi => (ht o List.mem_cons_self hk i hi).1) cnt
      rw [e1, e2, result_cons, hr]
      simp only [List.foldl_cons]
      have hg := run_grown h hb ha.1 hr
      have hown : ∀ i, (t.later o).Owns i ↔ t.Owns i := fun i => by simp only [Owns, later_inc, later_allocs]
      rw [ih hg.ready (fun i hi => hb i ((hown i).1 hi)) (ha.2 _ _ _ hr) (fun o' ho' hk' i hi => by
        rw [hown]
        exact ht o' (List.mem_cons_of_mem _ ho') hk' i hi)]
      rw [result_later _ (fun o' ho' => by simpa [ofKind] using (List.mem_filter.1 ho').2)]
      cases result t cnt (ofKind .build os) with
      | error e => rfl
      | ok r => simp [Except.map]

/-! ### What is kept for later depends on the calls of each kind only -/

theorem foldl_later_fixed (os : List TOp) : ∀ t : Trans,
    (os.foldl later t).inc = t.inc ∧ (os.foldl later t).allocs = t.allocs ∧ (os.foldl later t).ctxId = t.ctxId := by
  induction os with
  | nil => exact fun t => ⟨rfl, rfl, rfl⟩
  | cons o os ih =>
    intro t
    obtain ⟨h1, h2, h3⟩ := ih (t.later o)
    exact ⟨h1.trans (later_inc t o), h2.trans (later_allocs t o), h3.trans (later_ctx t o)⟩

/-- A component of a transaction that only calls of the kind `k` change. -/
theorem foldl_later_part {α : Type} (p : Trans → α) (k : Kind) (hp : ∀ t o, kind o ≠ k → p (t.later o) = p t)
    (hc : ∀ t t' o, p t = p t' → p (t.later o) = p (t'.later o)) (os : List TOp) :
    ∀ t t' : Trans, p t = p t' → p ((outer os).foldl later t) = p ((ofKind k os).foldl later t') := by
  induction os with
  | nil => exact fun t t' h => h
  | cons o os ih =>
    intro t t' h
    by_cases hb : kind o = .build
    · have e : outer (o :: os) = outer os := by simp [outer, hb]
      rw [e]
      by_cases hk : kind o = k
      · have e2 : ofKind k (o :: os) = o :: ofKind k os := by simp [ofKind, hk]
        rw [e2, List.foldl_cons]
        apply ih
        have : t'.later o = t' := by cases o <;> first | rfl | simp [kind] at hb
        rw [this, h]
      · have e2 : ofKind k (o :: os) = ofKind k os := by simp [ofKind, hk]
        rw [e2]
        exact ih t t' h
    · have e : outer (o :: os) = o :: outer os := by simp [outer, hb]
      rw [e, List.foldl_cons]
      by_cases hk : kind o = k
      · have e2 : ofKind k (o :: os) = o :: ofKind k os := by simp [ofKind, hk]
        rw [e2, List.foldl_cons]
        exact ih _ _ (hc t t' o h)
      · have e2 : ofKind k (o :: os) = ofKind k os := by simp [ofKind, hk]
        rw [e2]
        exact ih _ _ ((hp t o hk).trans h)

theorem foldl_later_eq {os os' : List TOp} (h : ∀ k, ofKind k os = ofKind k os') (t : Trans) :
    (outer os).foldl later t = (outer os').foldl later t := by
  obtain ⟨a1, a2, a3⟩ := foldl_later_fixed (outer os) t
  obtain ⟨b1, b2, b3⟩ := foldl_later_fixed (outer os') t
  have key : ∀ {α : Type} (p : Trans → α) (k : Kind), (∀ t o, kind o ≠ k → p (t.later o) = p t) →
      (∀ t t' o, p t = p t' → p (t.later o) = p (t'.later o)) → p ((outer os).foldl later t) = p ((outer os').foldl later t) := by
    intro α p k h1 h2
    rw [foldl_later_part p k h1 h2 os t t rfl, foldl_later_part p k h1 h2 os' t t rfl, h]
  have c1 := key Trans.dec .remove (fun t o ho => by cases o <;> first | rfl | exact absurd rfl ho)
    (fun t t' o e => by cases o <;> simp only [later, redirectAllLinks, redirectLinks] <;> rw [e])
  have c2 := key Trans.muts .mutate (fun t o ho => by cases o <;> first | rfl | exact absurd rfl ho)
    (fun t t' o e => by cases o <;> simp only [later, redirectAllLinks, redirectLinks] <;> rw [e])
  have c3 := key Trans.upds .update (fun t o ho => by cases o <;> first | rfl | exact absurd rfl ho)
    (fun t t' o e => by cases o <;> simp only [later, redirectAllLinks, redirectLinks] <;> rw [e])
  have c4 := key Trans.redirAll .redirectAll (fun t o ho => by cases o <;> first | rfl | exact absurd rfl ho)
    (fun t t' o e => by cases o <;> simp only [later, redirectAllLinks, redirectLinks] <;> rw [e])
  have c5 := key Trans.redir .redirect (fun t o ho => by cases o <;> first | rfl | exact absurd rfl ho)
    (fun t t' o e => by cases o <;> simp only [later, redirectAllLinks, redirectLinks] <;> rw [e])
  generalize (outer os).foldl later t = x at *
  generalize (outer os').foldl later t = y at *
  cases x
  cases y
  simp only at a1 a2 a3 b1 b2 b3 c1 c2 c3 c4 c5
  subst a1 a2 a3 b1 b2 b3 c1 c2 c3 c4 c5
  rfl

end Trans
end TTGraph
