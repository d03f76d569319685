import Verif.Lemmas.History
import Verif.Model.Check

/-!
# `check_backlinks`
-/

set_option autoImplicit false

namespace TTGraph
open Spec

namespace Graph
variable {S : Schema} {e0 : Prop}

theorem setEq_iff {a b : OrderSet (NodeIndex × Source)} : setEq a b = true ↔ ∀ e, e ∈ a ↔ e ∈ b := by
  simp only [setEq, Bool.and_eq_true, List.all_eq_true, decide_eq_true_eq]
  exact ⟨fun h e => ⟨h.1 e, h.2 e⟩, fun h => ⟨fun e => (h e).1, fun e => (h e).2⟩⟩

/-- The record that the first loop rebuilds. -/
def rebuilt (S : Schema) (g : Graph) : Back := (g.nodes.entries S).foldl (fun b e => addBackLinks b e.1 e.2) OrderMap.empty

theorem rebuilt_spec {g : Graph} (h : g.nodes.Inv S) :
    (∀ y e, (rebuilt S g).Rec y e ↔ View.Holds g.get? e.1 e.2 y) ∧ ∀ y, (rebuilt S g).Known y ↔ g.get? y ≠ none ∨ View.Linked g.get? y := by
  have outer : ∀ (l : List (NodeIndex × Node)) (b : Back),
      (∀ y e, (l.foldl (fun b e => addBackLinks b e.1 e.2) b).Rec y e ↔ b.Rec y e ∨ ∃ n, (e.1, n) ∈ l ∧ n.Holds e.2 y) ∧
        ∀ y, (l.foldl (fun b e => addBackLinks b e.1 e.2) b).Known y ↔ b.Known y ∨ ∃ x n, (x, n) ∈ l ∧ (y = x ∨ ∃ s, n.Holds s y) := by
    intro l
    induction l with
    | nil => intro b; exact ⟨by simp, by simp⟩
    | cons e l ih =>
      intro b
      obtain ⟨x, n⟩ := e
      obtain ⟨h2, h3⟩ := ih (addBackLinks b x n)
      obtain ⟨k1, k2⟩ := addBackLinks_spec b x n
      refine ⟨fun y e => ?_, fun y => ?_⟩
      · rw [List.foldl_cons, h2, k1]
        constructor
        · rintro ((a | ⟨a1, a2⟩) | ⟨m, a1, a2⟩)
          · exact Or.inl a
          · exact Or.inr ⟨n, by rw [a1]; exact List.mem_cons_self, a2⟩
          · exact Or.inr ⟨m, List.mem_cons_of_mem _ a1, a2⟩
        · rintro (a | ⟨m, a1, a2⟩)
          · exact Or.inl (Or.inl a)
          · rcases List.mem_cons.1 a1 with a1 | a1
            · simp only [Prod.mk.injEq] at a1
              exact Or.inl (Or.inr ⟨a1.1, a1.2 ▸ a2⟩)
            · exact Or.inr ⟨m, a1, a2⟩
      · rw [List.foldl_cons, h3, k2]
        constructor
        · rintro ((a | a) | ⟨x', m, a1, a2⟩)
          · exact Or.inl a
          · exact Or.inr ⟨x, n, List.mem_cons_self, a⟩
          · exact Or.inr ⟨x', m, List.mem_cons_of_mem _ a1, a2⟩
        · rintro (a | ⟨x', m, a1, a2⟩)
          · exact Or.inl (Or.inl a)
          · rcases List.mem_cons.1 a1 with a1 | a1
            · simp only [Prod.mk.injEq] at a1
              obtain ⟨rfl, rfl⟩ := a1
              exact Or.inl (Or.inr a2)
            · exact Or.inr ⟨x', m, a1, a2⟩
  obtain ⟨h2, h3⟩ := outer (g.nodes.entries S) OrderMap.empty
  refine ⟨fun y e => (h2 y e).trans ?_, fun y => (h3 y).trans ?_⟩
  · constructor
    · rintro (a | ⟨n, a1, a2⟩)
      · exact absurd a (Back.rec_empty _ _)
      · exact ⟨n, (Arena.mem_entries h).1 a1, a2⟩
    · rintro ⟨n, a1, a2⟩
      exact Or.inr ⟨n, (Arena.mem_entries h).2 a1, a2⟩
  · constructor
    · rintro (a | ⟨x, n, a1, rfl | ⟨s, a2⟩⟩)
      · exact absurd a (Back.known_empty _)
      · exact Or.inl (by rw [show g.get? y = some n from (Arena.mem_entries h).1 a1]; simp)
      · exact Or.inr ⟨x, s, n, (Arena.mem_entries h).1 a1, a2⟩
    · rintro (a | ⟨x, s, n, a1, a2⟩)
      · obtain ⟨n, hn⟩ := Option.ne_none_iff_exists'.1 a
        exact Or.inr ⟨y, n, (Arena.mem_entries h).2 hn, Or.inl rfl⟩
      · exact Or.inr ⟨x, n, (Arena.mem_entries h).2 a1, Or.inr ⟨s, a2⟩⟩

/-- If the first loop does not panic, it rebuilds the record. -/
theorem rebuildBack_eq {g : Graph} {dbg : Bool} {b : Back} (hb : rebuildBack S dbg g = .ok b) : b = rebuilt S g := by
  have inner : ∀ (x : NodeIndex) (l : List (NodeIndex × Source)) (b b' : Back), foldE (backStep dbg g x) b l = .ok b' →
      b' = l.foldl (fun b p => Back.link b p.1 (x, p.2)) b := by
    intro x l
    induction l with
    | nil => intro b b' h; simpa [foldE] using h.symm
    | cons p l ih =>
      intro b b' h
      simp only [foldE] at h
      cases hp : backStep dbg g x b p with
      | error e => rw [hp] at h; exact absurd h (by simp)
      | ok b1 =>
        rw [hp] at h
        have e1 : b1 = b.link p.1 (x, p.2) := by
          unfold backStep at hp
          split at hp
          · exact absurd hp (by simp)
          · split at hp
            · exact absurd hp (by simp)
            · simpa using hp.symm
        rw [List.foldl_cons, ← e1]
        exact ih _ _ h
  have outer : ∀ (l : List (NodeIndex × Node)) (b b' : Back),
      foldE (fun (b : Back) (e : NodeIndex × Node) => foldE (backStep dbg g e.1) (b.touch e.1) e.2.iterSources) b l = .ok b' →
      b' = l.foldl (fun b e => addBackLinks b e.1 e.2) b := by
    intro l
    induction l with
    | nil => intro b b' h; simpa [foldE] using h.symm
    | cons e l ih =>
      intro b b' h
      simp only [foldE] at h
      cases hp : foldE (backStep dbg g e.1) (b.touch e.1) e.2.iterSources with
      | error e => rw [hp] at h; exact absurd h (by simp)
      | ok b1 =>
        rw [hp] at h
        have e1 := inner _ _ _ _ hp
        rw [List.foldl_cons, ih _ _ h, e1]
        rfl
  exact outer _ _ _ hb

/-- The first loop does not panic if all links are recorded. -/
theorem rebuildBack_total {g : Graph} (h : g.nodes.Inv S) (hr : ∀ x s y, View.Holds g.get? x s y → g.back.Rec y (x, s)) (dbg : Bool) :
    ∃ b, rebuildBack S dbg g = .ok b := by
  have inner : ∀ (x : NodeIndex) (l : List (NodeIndex × Source)) (b : Back), (∀ p ∈ l, g.back.Rec p.1 (x, p.2)) →
      ∃ b', foldE (backStep dbg g x) b l = .ok b' := by
    intro x l
    induction l with
    | nil => intro b _; exact ⟨b, rfl⟩
    | cons p l ih =>
      intro b hl
      obtain ⟨st, h1, h2⟩ := hl p List.mem_cons_self
      have hp : backStep dbg g x b p = .ok (b.link p.1 (x, p.2)) := by
        simp only [backStep, h1]
        rw [if_neg]
        simp [h2]
      simp only [foldE, hp]
      exact ih _ fun q hq => hl q (List.mem_cons_of_mem _ hq)
  have outer : ∀ (l : List (NodeIndex × Node)) (b : Back), (∀ e ∈ l, ∀ p ∈ e.2.iterSources, g.back.Rec p.1 (e.1, p.2)) →
      ∃ b', foldE (fun (b : Back) (e : NodeIndex × Node) => foldE (backStep dbg g e.1) (b.touch e.1) e.2.iterSources) b l = .ok b' := by
    intro l
    induction l with
    | nil => intro b _; exact ⟨b, rfl⟩
    | cons e l ih =>
      intro b hl
      obtain ⟨b1, hi⟩ := inner e.1 e.2.iterSources (b.touch e.1) (hl e List.mem_cons_self)
      simp only [foldE, hi]
      exact ih _ fun e he => hl e (List.mem_cons_of_mem _ he)
  exact outer _ _ fun e he p hp => hr e.1 p.2 p.1 ⟨e.2, (Arena.mem_entries h).1 he, Node.mem_iterSources.1 hp⟩

/-- Whatever the index is, `check_backlinks` passes exactly if the record of every node and of every linked index is there and right. -/
theorem checkBacklinks_iff {g : Graph} (h : g.nodes.Inv S) (dbg : Bool) : checkBacklinks S dbg g = .ok () ↔
    ∀ y, g.get? y ≠ none ∨ View.Linked g.get? y → ∃ places, g.back.get? y = some places ∧ ∀ x s, (x, s) ∈ places ↔ View.Holds g.get? x s y := by
  obtain ⟨h2, h3⟩ := rebuilt_spec h
  have loop : ∀ l : List (NodeIndex × OrderSet (NodeIndex × Source)), foldE (fun _ (kv : NodeIndex × OrderSet (NodeIndex × Source)) =>
      match g.back.get? kv.1 with
      | none => Except.error Panic.backlinkCheck
      | some v2 => if setEq v2 kv.2 then .ok () else .error .backlinkCheck) () l = .ok () ↔
      ∀ kv ∈ l, ∃ v2, g.back.get? kv.1 = some v2 ∧ ∀ e, e ∈ v2 ↔ e ∈ kv.2 := by
    intro l
    induction l with
    | nil => simp [foldE]
    | cons kv l ih =>
      simp only [foldE, List.forall_mem_cons]
      cases hg : g.back.get? kv.1 with
      | none => simp
      | some v2 =>
        by_cases hs : setEq v2 kv.2 = true
        · simp only [hs, if_true, ih]
          have := setEq_iff.1 hs
          simp [this]
        · simp only [hs, if_false, Bool.false_eq_true, reduceCtorEq, false_iff]
          rintro ⟨⟨v2', e, he⟩, _⟩
          simp only [Option.some.injEq] at e
          exact hs (setEq_iff.2 (e ▸ he))
  have hget : ∀ kv : NodeIndex × OrderSet (NodeIndex × Source), kv ∈ (rebuilt S g).entries ↔ (rebuilt S g).get? kv.1 = some kv.2 := by
    rintro ⟨k, v⟩
    exact OrderMap.get?_eq_some.symm
  have hrec : ∀ {y : NodeIndex} {v : OrderSet (NodeIndex × Source)}, (rebuilt S g).get? y = some v → ∀ e, e ∈ v ↔ View.Holds g.get? e.1 e.2 y := by
    intro y v hv e
    rw [← h2 y e]
    constructor
    · exact fun he => ⟨v, hv, he⟩
    · rintro ⟨v', a1, a2⟩
      rw [hv] at a1
      obtain rfl : v = v' := by simpa using a1
      exact a2
  unfold checkBacklinks
  constructor
  · intro hc y hy
    cases hb : rebuildBack S dbg g with
    | error e => rw [hb] at hc; exact absurd hc (by simp)
    | ok b =>
      rw [hb] at hc
      obtain rfl := rebuildBack_eq hb
      have hall := (loop _).1 hc
      obtain ⟨v, hv⟩ := (h3 y).2 hy
      obtain ⟨v2, e1, e2⟩ := hall (y, v) ((hget _).2 hv)
      exact ⟨v2, e1, fun x s => (e2 (x, s)).trans (hrec hv (x, s))⟩
  · intro hall
    obtain ⟨b, hb⟩ := rebuildBack_total h (fun x s y hh => by
      obtain ⟨v, h4, h5⟩ := hall y (Or.inr ⟨x, s, hh⟩)
      exact ⟨v, h4, (h5 x s).2 hh⟩) dbg
    rw [hb]
    obtain rfl := rebuildBack_eq hb
    refine (loop _).2 ?_
    rintro ⟨y, v⟩ hkv
    have hv := (hget _).1 hkv
    obtain ⟨v2, h4, h5⟩ := hall y ((h3 y).1 ⟨v, hv⟩)
    exact ⟨v2, h4, fun e => (h5 e.1 e.2).trans (hrec hv e).symm⟩

/-- `check_backlinks` passes exactly if the records of nodes and of linked indices are right. -/
theorem checkBacklinks_ok {g : Graph} (h : g.Inv S e0) (dbg : Bool) : checkBacklinks S dbg g = .ok () ↔
    ∀ y, g.get? y ≠ none ∨ View.Linked g.get? y → ∀ x s, g.back.Rec y (x, s) → View.Holds g.get? x s y := by
  rw [checkBacklinks_iff h.arena]
  constructor
  · rintro hall y hy x s ⟨st, a1, a2⟩
    obtain ⟨v, h1, h2⟩ := hall y hy
    rw [a1] at h1
    obtain rfl : st = v := by simpa using h1
    exact (h2 x s).1 a2
  · intro hall y hy
    have hk : g.back.Known y := by
      rcases hy with a | ⟨x, s, a⟩
      · obtain ⟨n, hn⟩ := Option.ne_none_iff_exists'.1 a
        exact h.known y n hn
      · exact (h.recd x s y a).known
    obtain ⟨v, hv⟩ := hk
    refine ⟨v, hv, fun x s => ⟨fun he => hall y hy x s ⟨v, hv, he⟩, fun hh => ?_⟩⟩
    obtain ⟨v', a1, a2⟩ := h.recd x s y hh
    rw [hv] at a1
    obtain rfl : v = v' := by simpa using a1
    exact a2

end Graph
end TTGraph
