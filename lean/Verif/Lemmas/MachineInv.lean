import Verif.Lemmas.Machine

/-!
# An invariant of the abstract machine
-/

set_option autoImplicit false

namespace TTGraph
namespace Machine
open Spec
variable {S : Schema} {dbg : Bool}

structure Inv (a : State) : Prop where
  used : ∀ o c i, Owns a o c i → ∃ U, a.used c = some U ∧ U i
  disj : ∀ o o' c i, Owns a o c i → Owns a o' c i → o = o'
  fits : ∀ k c p s, a.trans k = some (c, p, s) → ∀ i, Fits p i (s i)

theorem upd_ne {v : View} {i j : NodeIndex} {o : Option Node} (h : j ≠ i) : upd v i o j = v j := if_neg h
theorem upd_eq {v : View} {i : NodeIndex} {o : Option Node} : upd v i o i = o := if_pos rfl

theorem adds_spec : ∀ {ns : List Node} {l : List NodeIndex} {v v' : View}, Adds ns l v v' →
    (∀ i, i ∈ l → v' i ≠ none) ∧ ∀ i, i ∉ l → v' i = v i := by
  intro ns
  induction ns with
  | nil =>
    intro l v v' h
    cases l with
    | nil => exact ⟨fun i hi => absurd hi (by simp), fun i _ => by rw [show v' = v from h]⟩
    | cons i l => exact h.elim
  | cons n ns ih =>
    intro l v v' h
    cases l with
    | nil => exact h.elim
    | cons i l =>
      obtain ⟨_, h2⟩ := h
      obtain ⟨k1, k2⟩ := ih h2
      refine ⟨fun j hj => ?_, fun j hj => ?_⟩
      · by_cases hjl : j ∈ l
        · exact k1 j hjl
        · have : j = i := by simpa [hjl] using hj
          subst this
          rw [k2 j hjl, upd_eq]
          simp
      · simp only [List.mem_cons, not_or] at hj
        rw [k2 j hj.2, upd_ne hj.1]

theorem effect_fits {o : TOp} {l : List NodeIndex} {p p' : Pending} {s : NodeIndex → Slot} (hp : Permitted S p o) (hr : ¬ Refused p s o)
    (he : Effect o l p p') (hf : ∀ i, Fits p i (s i)) (hfresh : ∀ i ∈ l, ¬ Has p i) :
    (∀ i, Fits p' i (Event.slot i (s i) (.op o l))) ∧ ∀ i, Has p' i → Has p i ∨ i ∈ l := by
  cases o with
  | insert n =>
    obtain ⟨i, rfl, h1, rfl⟩ := he
    have h2 := hfresh i (by simp)
    refine ⟨fun j => ?_, fun j hj => ?_⟩
    · by_cases hj : j = i
      · subst hj
        simp only [Event.slot, List.mem_singleton, if_true, Fits]
        exact ⟨by rw [upd_eq]; simp, fun h => h2 (Or.inr h)⟩
      · simp only [Event.slot, List.mem_singleton, if_neg hj]
        have := hf j
        cases hs : s j <;> rw [hs] at this <;> simpa only [Fits, upd_ne hj] using this
    · by_cases hji : j = i
      · subst hji; exact Or.inr (by simp)
      · simp only [Has, upd_ne hji] at hj
        exact Or.inl hj
  | extend ns =>
    obtain ⟨v, h1, rfl⟩ := he
    obtain ⟨k1, k2⟩ := adds_spec h1
    refine ⟨fun j => ?_, fun j hj => ?_⟩
    · by_cases hj : j ∈ l
      · simp only [Event.slot, if_pos hj, Fits]
        exact ⟨k1 j hj, fun h => hfresh j hj (Or.inr h)⟩
      · simp only [Event.slot, if_neg hj]
        have := hf j
        cases hs : s j <;> rw [hs] at this <;> simpa only [Fits, k2 j hj] using this
    · by_cases hjl : j ∈ l
      · exact Or.inr hjl
      · simp only [Has, k2 j hjl] at hj
        exact Or.inl hj
  | alloc d =>
    obtain ⟨i, rfl, _, h1, rfl⟩ := he
    refine ⟨fun j => ?_, fun j hj => ?_⟩
    · by_cases hj : j = i
      · subst hj
        simp only [Event.slot, List.mem_singleton, if_true, Fits]
        exact ⟨h1, Or.inl trivial⟩
      · simp only [Event.slot, List.mem_singleton, if_neg hj]
        have := hf j
        cases hs : s j <;> rw [hs] at this <;> simpa only [Fits, hj, false_or] using this
    · by_cases hji : j = i
      · subst hji; exact Or.inr (by simp)
      · simp only [Has, hji, false_or] at hj
        exact Or.inl hj
  | allocUntyped =>
    obtain ⟨i, rfl, _, h1, rfl⟩ := he
    refine ⟨fun j => ?_, fun j hj => ?_⟩
    · by_cases hj : j = i
      · subst hj
        simp only [Event.slot, List.mem_singleton, if_true, Fits]
        exact ⟨h1, Or.inl trivial⟩
      · simp only [Event.slot, List.mem_singleton, if_neg hj]
        have := hf j
        cases hs : s j <;> rw [hs] at this <;> simpa only [Fits, hj, false_or] using this
    · by_cases hji : j = i
      · subst hji; exact Or.inr (by simp)
      · simp only [Has, hji, false_or] at hj
        exact Or.inl hj
  | fillBack i n =>
    obtain ⟨rfl, h1, rfl⟩ := he
    have hun : p.unfilled i := by
      have h2 : s i = .reserved n.disc := Classical.not_not.1 hr
      have := hf i
      rw [h2] at this
      exact this.2
    refine ⟨fun j => ?_, fun j hj => ?_⟩
    · by_cases hj : j = i
      · subst hj
        simp only [Event.slot, if_true, Fits, upd_eq]
        exact ⟨by simp, fun h => h.2 rfl⟩
      · simp only [Event.slot, if_neg hj]
        have := hf j
        cases hs : s j <;> rw [hs] at this <;> simpa only [Fits, upd_ne hj, hj, ne_eq, not_false_eq_true, and_true] using this
    · by_cases hji : j = i
      · subst hji; exact Or.inl (Or.inr hun)
      · simp only [Has, upd_ne hji] at hj
        exact Or.inl (hj.imp id And.left)
  | fillBackUntyped i n =>
    obtain ⟨rfl, h1, rfl⟩ := he
    have hun : p.unfilled i := hp.2
    refine ⟨fun j => ?_, fun j hj => ?_⟩
    · by_cases hj : j = i
      · subst hj
        simp only [Event.slot, if_true, Fits, upd_eq]
        exact ⟨by simp, fun h => h.2 rfl⟩
      · simp only [Event.slot, if_neg hj]
        have := hf j
        cases hs : s j <;> rw [hs] at this <;> simpa only [Fits, upd_ne hj, hj, ne_eq, not_false_eq_true, and_true] using this
    · by_cases hji : j = i
      · subst hji; exact Or.inl (Or.inr hun)
      · simp only [Has, upd_ne hji] at hj
        exact Or.inl (hj.imp id And.left)
  | remove i =>
    obtain ⟨rfl, he⟩ := he
    refine ⟨fun j => ?_, fun j hj => ?_⟩
    · by_cases hj : j = i
      · subst hj
        simp only [Event.slot, if_true, Fits]
        have h0 := hf j
        rcases he with ⟨h1, rfl⟩ | ⟨h1, h2, rfl⟩ | ⟨h1, h2, rfl⟩
        · refine ⟨upd_eq, fun h => ?_⟩
          cases hs : s j <;> rw [hs] at h0
          · exact h1 h0.1
          · exact h1 h0.1
          · exact h1 h0.1
          · exact h0.2 h
        · exact ⟨h1, fun h => h.2 rfl⟩
        · exact ⟨h1, h2⟩
      · simp only [Event.slot, if_neg hj]
        have := hf j
        rcases he with ⟨h1, rfl⟩ | ⟨h1, h2, rfl⟩ | ⟨h1, h2, rfl⟩ <;> cases hs : s j <;> rw [hs] at this <;>
          simpa only [Fits, upd_ne hj, hj, ne_eq, not_false_eq_true, and_true] using this
    · left
      rcases he with ⟨h1, rfl⟩ | ⟨h1, h2, rfl⟩ | ⟨h1, h2, rfl⟩
      · by_cases hji : j = i
        · subst hji; exact Or.inl h1
        · simp only [Has, upd_ne hji] at hj
          exact hj
      · exact hj.imp id And.left
      · exact hj
  | mutate i f =>
    obtain ⟨rfl, ⟨_, rfl⟩ | ⟨n, n', h1, _, rfl⟩⟩ := he
    · exact ⟨hf, fun j hj => Or.inl hj⟩
    · have key : ∀ j, upd p.new i (some n') j = none ↔ p.new j = none := by
        intro j
        by_cases hj : j = i
        · subst hj; rw [upd_eq, h1]; simp
        · rw [upd_ne hj]
      refine ⟨fun j => ?_, fun j hj => Or.inl ?_⟩
      · have := hf j
        simp only [Event.slot]
        cases hs : s j <;> rw [hs] at this <;> simpa only [Fits, key, ne_eq] using this
      · simpa only [Has, key, ne_eq] using hj
  | update i f =>
    obtain ⟨rfl, ⟨_, rfl⟩ | ⟨n, n', h1, _, rfl⟩⟩ := he
    · exact ⟨hf, fun j hj => Or.inl hj⟩
    · have key : ∀ j, upd p.new i (some n') j = none ↔ p.new j = none := by
        intro j
        by_cases hj : j = i
        · subst hj; rw [upd_eq, h1]; simp
        · rw [upd_ne hj]
      refine ⟨fun j => ?_, fun j hj => Or.inl ?_⟩
      · have := hf j
        simp only [Event.slot]
        cases hs : s j <;> rw [hs] at this <;> simpa only [Fits, key, ne_eq] using this
      · simpa only [Has, key, ne_eq] using hj
  | redirectAllLinks x y =>
    obtain ⟨rfl, rfl⟩ := he
    exact ⟨hf, fun j hj => Or.inl hj⟩
  | redirectLinks x y =>
    obtain ⟨rfl, rfl⟩ := he
    exact ⟨hf, fun j hj => Or.inl hj⟩

theorem performed_nodes {p : Pending} {v v6 : View} (h : Performed p v v6) (i : NodeIndex) (hi : v6 i ≠ none) : v i ≠ none ∨ p.new i ≠ none := by
  obtain ⟨v1, v2, v3, v4, v5, xs, ⟨ρ, _, a⟩, b, c, d, ⟨σ, _, e⟩, hxs, f⟩ := h
  by_contra hne
  simp only [not_or, ne_eq, Classical.not_not] at hne
  have h1 : v1 i = none := by
    have := a i
    rw [hne.1] at this
    cases h : v1 i with
    | none => rfl
    | some n => rw [h] at this; exact this.elim
  have h2 : v2 i = none := by rw [b.1 i hne.2, h1]
  have h4 : v4 i = none := (Graph.applied_exists d i).2 ((Graph.applied_exists c i).2 h2)
  have h5 : v5 i = none := by
    have := e i
    rw [h4] at this
    cases h : v5 i with
    | none => rfl
    | some n => rw [h] at this; exact this.elim
  by_cases hx : i ∈ xs
  · exact hi (f.1 i hx).2
  · have := f.2 i hx
    rw [h5] at this
    cases h : v6 i with
    | none => exact hi h
    | some n => rw [h] at this; exact this.elim

/-- Objects change hands (`f`), and one object `o0` may get indices that have not been used. -/
theorem Inv.next {a a' : State} (h : Inv a) (hu : ∀ c U, a.used c = some U → ∃ U', a'.used c = some U' ∧ ∀ i, U i → U' i)
    (f : Nat ⊕ Nat → Nat ⊕ Nat) (o0 : Nat ⊕ Nat)
    (ho : ∀ o c i, Owns a' o c i → (∃ o1, f o1 = o ∧ Owns a o1 c i) ∨
      (o = o0 ∧ (∃ U', a'.used c = some U' ∧ U' i) ∧ ∀ U, a.used c = some U → ¬ U i))
    (hf : ∀ k c p s, a'.trans k = some (c, p, s) → ∀ i, Fits p i (s i)) : Inv a' where
  used o c i hi := by
    rcases ho o c i hi with ⟨o1, _, h1⟩ | ⟨_, h1, _⟩
    · obtain ⟨U, hU, hi⟩ := h.used o1 c i h1
      obtain ⟨U', hU', hs⟩ := hu c U hU
      exact ⟨U', hU', hs i hi⟩
    · exact h1
  disj o o' c i hi hi' := by
    rcases ho o c i hi with ⟨o1, e1, h1⟩ | ⟨e1, _, h1⟩ <;> rcases ho o' c i hi' with ⟨o2, e2, h2⟩ | ⟨e2, _, h2⟩
    · rw [← e1, ← e2, h.disj o1 o2 c i h1 h2]
    · obtain ⟨U, hU, hi⟩ := h.used o1 c i h1
      exact absurd hi (h2 U hU)
    · obtain ⟨U, hU, hi⟩ := h.used o2 c i h2
      exact absurd hi (h1 U hU)
    · rw [e1, e2]
  fits := hf

theorem put_eq {α : Type} (f : Nat → α) (k : Nat) (v : α) : put f k v k = v := if_pos rfl
theorem put_ne {α : Type} (f : Nat → α) {k j : Nat} (v : α) (h : j ≠ k) : put f k v j = f j := if_neg h

theorem put_some {α : Type} {f : Nat → Option α} {k j : Nat} {v : Option α} {x : α} (h : put f k v j = some x) :
    (j = k ∧ v = some x) ∨ (j ≠ k ∧ f j = some x) := by
  by_cases hj : j = k
  · subst hj; rw [put_eq] at h; exact Or.inl ⟨rfl, h⟩
  · rw [put_ne _ _ hj] at h; exact Or.inr ⟨hj, h⟩

theorem Inv.init : Inv State.init where
  used o c i h := by
    cases o with
    | inl g => obtain ⟨v, hv, _⟩ := h; exact absurd hv (by simp [State.init])
    | inr k => obtain ⟨p, s, hv, _⟩ := h; exact absurd hv (by simp [State.init])
  disj o o' c i h _ := by
    cases o with
    | inl g => obtain ⟨v, hv, _⟩ := h; exact absurd hv (by simp [State.init])
    | inr k => obtain ⟨p, s, hv, _⟩ := h; exact absurd hv (by simp [State.init])
  fits k c p s h := absurd h (by simp [State.init])

/-- No object gets an index. -/
theorem Inv.less {a a' : State} (h : Inv a) (hu : a'.used = a.used) (hg : ∀ g c v, a'.graph g = some (c, v) → a.graph g = some (c, v) ∨ ∀ i, v i = none)
    (ht : ∀ k c p s, a'.trans k = some (c, p, s) → a.trans k = some (c, p, s) ∨ ((∀ i, ¬ Has p i) ∧ ∀ i, Fits p i (s i))) : Inv a' := by
  refine h.next (fun c U hU => ⟨U, by rw [hu]; exact hU, fun _ hi => hi⟩) id (.inl 0) (fun o c i ho => Or.inl ⟨o, rfl, ?_⟩) fun k c p s hk i => ?_
  · cases o with
    | inl g =>
      obtain ⟨v, hv, hi⟩ := ho
      rcases hg g c v hv with h1 | h1
      · exact ⟨v, h1, hi⟩
      · exact absurd (h1 i) hi
    | inr k =>
      obtain ⟨p, s, hv, hi⟩ := ho
      rcases ht k c p s hv with h1 | h1
      · exact ⟨p, s, h1, hi⟩
      · exact absurd hi (h1.1 i)
  · rcases ht k c p s hk with h1 | h1
    · exact h.fits k c p s h1 i
    · exact h1.2 i

theorem put_none_some {α : Type} {f : Nat → Option α} {k j : Nat} {x : α} (h : put f k none j = some x) : f j = some x := by
  rcases put_some h with ⟨_, h⟩ | ⟨_, h⟩
  · exact absurd h (by simp)
  · exact h

/-- A transaction is committed: its new nodes go to the graph. -/
theorem Inv.commit {a : State} (h : Inv a) {g k c : Nat} {p : Pending} {s : NodeIndex → Slot} {v v' : View} (ht : a.trans k = some (c, p, s))
    (hg : a.graph g = some (c, v)) (hc : Commits S dbg p v v') :
    Inv { a with trans := put a.trans k none, graph := put a.graph g (some (c, v')) } := by
  obtain ⟨_, v6, h1, h2, _⟩ := hc
  refine h.next (fun c U hU => ⟨U, hU, fun _ hi => hi⟩) (fun o => if o = .inr k then .inl g else o) (.inl 0) (fun o c1 i ho => Or.inl ?_) ?_
  · cases o with
    | inl g1 =>
      obtain ⟨v1, hv1, hi⟩ := ho
      rcases put_some hv1 with ⟨rfl, e⟩ | ⟨_, e⟩
      · simp only [Option.some.injEq, Prod.mk.injEq] at e
        obtain ⟨rfl, rfl⟩ := e
        rcases performed_nodes h1 i (fun e => hi ((h2.none_iff i).2 e)) with h3 | h3
        · exact ⟨.inl g1, by simp, v, hg, h3⟩
        · exact ⟨.inr k, by simp, p, s, ht, Or.inl h3⟩
      · exact ⟨.inl g1, by simp, v1, e, hi⟩
    | inr k1 =>
      obtain ⟨p1, s1, hv1, hi⟩ := ho
      rcases put_some hv1 with ⟨_, e⟩ | ⟨hne, e⟩
      · exact absurd e (by simp)
      · exact ⟨.inr k1, by simp [hne], p1, s1, e, hi⟩
  · intro k1 c1 p1 s1 hk1 i
    exact h.fits k1 c1 p1 s1 (put_none_some hk1) i

theorem Inv.step {a a' : State} {call : Call} (h : Inv a) (hs : Step S dbg a call a') : Inv a' := by
  cases hs with
  | missing _ => exact h
  | newContext hc =>
    refine h.next (fun c U hU => ⟨U, ?_, fun _ hi => hi⟩) id (.inl 0) (fun o c i ho => Or.inl ⟨o, rfl, ?_⟩) h.fits
    · exact (put_ne _ _ (fun e => by rw [e, hc] at hU; exact absurd hU (by simp))).trans hU
    · cases o <;> exact ho
  | defaultContext hc =>
    refine h.next (fun c U hU => ⟨U, ?_, fun _ hi => hi⟩) id (.inl 0) (fun o c i ho => Or.inl ⟨o, rfl, ?_⟩) h.fits
    · exact (put_ne _ _ (fun e => by rw [e, hc] at hU; exact absurd hU (by simp))).trans hU
    · cases o <;> exact ho
  | newGraph hc hg =>
    refine h.less rfl (fun g1 c1 v1 hg1 => ?_) fun k c p s hk => Or.inl hk
    rcases put_some hg1 with ⟨_, e⟩ | ⟨_, e⟩
    · simp only [Option.some.injEq, Prod.mk.injEq] at e
      obtain ⟨rfl, rfl⟩ := e
      exact Or.inr fun _ => rfl
    · exact Or.inl e
  | newTrans hc hk =>
    refine h.less rfl (fun _ _ _ hg1 => Or.inl hg1) fun k1 c1 p1 s1 hk1 => ?_
    rcases put_some hk1 with ⟨_, e⟩ | ⟨_, e⟩
    · simp only [Option.some.injEq, Prod.mk.injEq] at e
      obtain ⟨rfl, rfl, rfl⟩ := e
      exact Or.inr ⟨fun i hi => hi.elim (fun h => h rfl) id, fun i => ⟨rfl, id⟩⟩
    · exact Or.inl e
  | @op k c o U p p' s l hk hu hp hr hl he =>
    have hfresh : ∀ i ∈ l, ¬ Has p i := by
      intro i hi hh
      obtain ⟨U', hU', hi'⟩ := h.used (.inr k) c i ⟨p, s, hk, hh⟩
      rw [hu] at hU'
      simp only [Option.some.injEq] at hU'
      rw [← hU'] at hi'
      exact (hl.2 i hi).2 hi'
    obtain ⟨k1, k2⟩ := effect_fits hp hr he (h.fits k c p s hk) hfresh
    refine h.next (fun c1 U1 hU1 => ?_) id (.inr k) (fun o1 c1 i ho => ?_) ?_
    · by_cases hc1 : c1 = c
      · subst hc1
        rw [hu] at hU1
        simp only [Option.some.injEq] at hU1
        subst hU1
        exact ⟨_, put_eq _ _ _, fun i hi => Or.inl hi⟩
      · exact ⟨U1, (put_ne _ _ hc1).trans hU1, fun _ hi => hi⟩
    · cases o1 with
      | inl g1 => exact Or.inl ⟨.inl g1, rfl, ho⟩
      | inr k1 =>
        obtain ⟨p1, s1, hv1, hi⟩ := ho
        rcases put_some hv1 with ⟨rfl, e⟩ | ⟨hne, e⟩
        · simp only [Option.some.injEq, Prod.mk.injEq] at e
          obtain ⟨rfl, rfl, rfl⟩ := e
          rcases k2 i hi with h3 | h3
          · exact Or.inl ⟨.inr k1, rfl, p, s, hk, h3⟩
          · refine Or.inr ⟨rfl, ⟨_, put_eq _ _ _, Or.inr h3⟩, fun U1 hU1 => ?_⟩
            rw [hu] at hU1
            simp only [Option.some.injEq] at hU1
            rw [← hU1]
            exact (hl.2 i h3).2
        · exact Or.inl ⟨.inr k1, rfl, p1, s1, e, hi⟩
    · intro k3 c3 p3 s3 hk3 i
      rcases put_some hk3 with ⟨rfl, e⟩ | ⟨hne, e⟩
      · simp only [Option.some.injEq, Prod.mk.injEq] at e
        obtain ⟨rfl, rfl, rfl⟩ := e
        exact k1 i
      · exact h.fits k3 c3 p3 s3 e i
  | opPanics hk hp hr => exact h.less rfl (fun _ _ _ hg1 => Or.inl hg1) fun k1 c1 p1 s1 hk1 => Or.inl (put_none_some hk1)
  | @merge k g c p s v hk hg hd =>
    have hno : ∀ i, v i ≠ none → ¬ Has p i := by
      intro i hi hh
      have := h.disj (.inl g) (.inr k) c i ⟨v, hg, hi⟩ ⟨p, s, hk, hh⟩
      exact absurd this (by simp)
    refine h.next (fun c U hU => ⟨U, hU, fun _ hi => hi⟩) (fun o => if o = .inl g then .inr k else o) (.inl 0) (fun o1 c1 i ho => Or.inl ?_) ?_
    · cases o1 with
      | inl g1 =>
        obtain ⟨v1, hv1, hi⟩ := ho
        rcases put_some hv1 with ⟨_, e⟩ | ⟨hne, e⟩
        · exact absurd e (by simp)
        · exact ⟨.inl g1, by simp [hne], v1, e, hi⟩
      | inr k1 =>
        obtain ⟨p1, s1, hv1, hi⟩ := ho
        rcases put_some hv1 with ⟨rfl, e⟩ | ⟨hne, e⟩
        · simp only [Option.some.injEq, Prod.mk.injEq] at e
          obtain ⟨rfl, rfl, rfl⟩ := e
          by_cases hvi : v i = none
          · refine ⟨.inr k1, by simp, p, s, hk, ?_⟩
            simpa only [Has, union, hvi] using hi
          · exact ⟨.inl g, by simp, v, hg, hvi⟩
        · exact ⟨.inr k1, by simp, p1, s1, e, hi⟩
    · intro k3 c3 p3 s3 hk3 i
      rcases put_some hk3 with ⟨rfl, e⟩ | ⟨hne, e⟩
      · simp only [Option.some.injEq, Prod.mk.injEq] at e
        obtain ⟨rfl, rfl, rfl⟩ := e
        have h0 := h.fits k3 c p s hk i
        cases hvi : v i with
        | none =>
          simp only
          cases hs : s i <;> rw [hs] at h0 <;> simpa [Fits, union, hvi] using h0
        | some n =>
          simp only [Option.isSome_some, if_true, Fits, union, hvi]
          exact ⟨by simp, fun hh => hno i (by rw [hvi]; simp) (Or.inr hh)⟩
      · exact h.fits k3 c3 p3 s3 e i
  | commit hk hg hc => exact h.commit hk hg hc
  | commitPanics hk hg _ =>
    exact h.less rfl (fun _ _ _ hg1 => Or.inl (put_none_some hg1)) fun k1 c1 p1 s1 hk1 => Or.inl (put_none_some hk1)
  | commitChecked hk hg hc _ => exact h.commit hk hg hc
  | commitCheckedPanics hk hg _ =>
    exact h.less rfl (fun _ _ _ hg1 => Or.inl (put_none_some hg1)) fun k1 c1 p1 s1 hk1 => Or.inl (put_none_some hk1)
  | dropTrans => exact h.less rfl (fun _ _ _ hg1 => Or.inl hg1) fun k1 c1 p1 s1 hk1 => Or.inl (put_none_some hk1)
  | dropGraph => exact h.less rfl (fun _ _ _ hg1 => Or.inl (put_none_some hg1)) fun k1 c1 p1 s1 hk1 => Or.inl hk1
  | @switchContext g c c0 U v v' order l hg hu hl hsw =>
    obtain ⟨_, ρ, _, hl', _⟩ := hsw
    refine h.next (fun c1 U1 hU1 => ?_) id (.inl g) (fun o1 c1 i ho => ?_) h.fits
    · by_cases hc1 : c1 = c
      · subst hc1
        rw [hu] at hU1
        simp only [Option.some.injEq] at hU1
        subst hU1
        exact ⟨_, put_eq _ _ _, fun i hi => Or.inl hi⟩
      · exact ⟨U1, (put_ne _ _ hc1).trans hU1, fun _ hi => hi⟩
    · cases o1 with
      | inl g1 =>
        obtain ⟨v1, hv1, hi⟩ := ho
        rcases put_some hv1 with ⟨rfl, e⟩ | ⟨hne, e⟩
        · simp only [Option.some.injEq, Prod.mk.injEq] at e
          obtain ⟨rfl, rfl⟩ := e
          have hm := (hl' i).1 hi
          refine Or.inr ⟨rfl, ⟨_, put_eq _ _ _, Or.inr hm⟩, fun U1 hU1 => ?_⟩
          rw [hu] at hU1
          simp only [Option.some.injEq] at hU1
          rw [← hU1]
          exact (hl.2 i hm).2
        · exact Or.inl ⟨.inl g1, rfl, v1, e, hi⟩
      | inr k1 => exact Or.inl ⟨.inr k1, rfl, ho⟩
  | @switchPanics g c c0 U v l hg hu hl _ =>
    refine h.next (fun c1 U1 hU1 => ?_) id (.inl g) (fun o1 c1 i ho => Or.inl ⟨o1, rfl, ?_⟩) h.fits
    · by_cases hc1 : c1 = c
      · subst hc1
        rw [hu] at hU1
        simp only [Option.some.injEq] at hU1
        subst hU1
        exact ⟨_, put_eq _ _ _, fun i hi => Or.inl hi⟩
      · exact ⟨U1, (put_ne _ _ hc1).trans hU1, fun _ hi => hi⟩
    · cases o1 with
      | inl g1 =>
        obtain ⟨v1, hv1, hi⟩ := ho
        exact ⟨v1, put_none_some hv1, hi⟩
      | inr k1 => exact ho
  | @load g c input U v' hg hc hl hU =>
    refine h.next (fun c1 U1 hU1 => ⟨U1, ?_, fun _ hi => hi⟩) id (.inl g) (fun o1 c1 i ho => ?_) h.fits
    · exact (put_ne _ _ (fun e => by rw [e, hc] at hU1; exact absurd hU1 (by simp))).trans hU1
    · cases o1 with
      | inl g1 =>
        obtain ⟨v1, hv1, hi⟩ := ho
        rcases put_some hv1 with ⟨rfl, e⟩ | ⟨hne, e⟩
        · simp only [Option.some.injEq, Prod.mk.injEq] at e
          obtain ⟨rfl, rfl⟩ := e
          refine Or.inr ⟨rfl, ⟨_, put_eq _ _ _, hU i hi⟩, fun U1 hU1 => ?_⟩
          rw [hc] at hU1
          exact absurd hU1 (by simp)
        · exact Or.inl ⟨.inl g1, rfl, v1, e, hi⟩
      | inr k1 => exact Or.inl ⟨.inr k1, rfl, ho⟩
  | loadPanics _ => exact h

theorem Reaches.inv {a : State} (h : Reaches S dbg a) : Inv a := by
  induction h with
  | init => exact .init
  | step _ hs ih => exact ih.step hs

end Machine
end TTGraph
