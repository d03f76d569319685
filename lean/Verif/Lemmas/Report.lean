import Verif.Spec.Report
import Verif.Lemmas.Check
import Verif.Lemmas.Meets

/-!
# Lemmas on the report of `commit_checked`
-/

set_option autoImplicit false

namespace TTGraph
namespace Graph

variable {φ α : Type}

theorem anyFails_true {ok : α → Except Panic Bool} {l : List α} (h : anyFails ok l = .ok true) : ∃ a ∈ l, ok a = .ok false := by
  induction l with
  | nil => simp [anyFails] at h
  | cons a l ih =>
    simp only [anyFails] at h
    cases ha : ok a with
    | error e => rw [ha] at h; exact absurd h (by simp)
    | ok b =>
      rw [ha] at h
      cases b with
      | false => exact ⟨a, List.mem_cons_self, ha⟩
      | true => obtain ⟨b, hb, h⟩ := ih h; exact ⟨b, List.mem_cons_of_mem _ hb, h⟩

theorem anyFails_error {ok : α → Except Panic Bool} {l : List α} {e : Panic} (h : anyFails ok l = .error e) : ∃ a ∈ l, ok a = .error e := by
  induction l with
  | nil => simp [anyFails] at h
  | cons a l ih =>
    simp only [anyFails] at h
    cases ha : ok a with
    | error e' => rw [ha] at h; exact ⟨a, List.mem_cons_self, by rw [ha]; exact h⟩
    | ok b =>
      rw [ha] at h
      cases b with
      | false => exact absurd h (by simp)
      | true => obtain ⟨b, hb, h⟩ := ih h; exact ⟨b, List.mem_cons_of_mem _ hb, h⟩

/-- If nothing panics, `anyFails` finds every failure. -/
theorem anyFails_of_quiet {ok : α → Except Panic Bool} {l : List α} (hq : ∀ a ∈ l, ∀ e, ok a ≠ .error e) :
    (∃ b, anyFails ok l = .ok b) ∧ (anyFails ok l = .ok true ↔ ∃ a ∈ l, ok a = .ok false) := by
  cases h : anyFails ok l with
  | error e => obtain ⟨a, ha, h⟩ := anyFails_error h; exact absurd h (hq a ha e)
  | ok b =>
    refine ⟨⟨b, rfl⟩, fun hb => anyFails_true (h.trans hb), fun ⟨a, ha, hf⟩ => ?_⟩
    cases b with
    | true => rfl
    | false => exact absurd (hf.symm.trans (anyFails_false.1 h a ha)) (by simp)

theorem runChecks_ok {run : φ → α → Except Panic Bool} {items : List α} {failed l : List Ident} {m : Sorted φ}
    (h : runChecks run items failed m = .ok l) :
    ∃ l', l = failed ++ l' ∧ l'.Pairwise (· < ·) ∧ ∀ name, name ∈ l' ↔ ∃ f, m.get? name = some f ∧ anyFails (run f) items = .ok true := by
  simp only [runChecks] at h
  have hs := m.sorted
  simp only [Sorted.get?_eq_some]
  generalize m.entries = es at h hs
  induction es generalizing failed with
  | nil =>
    simp only [foldE, Except.ok.injEq] at h
    exact ⟨[], by simp [h], List.Pairwise.nil, by simp⟩
  | cons c es ih =>
    obtain ⟨h1, h2⟩ := List.pairwise_cons.1 hs
    simp only [foldE] at h
    cases ha : anyFails (run c.2) items with
    | error e => rw [ha] at h; exact absurd h (by simp)
    | ok b =>
      rw [ha] at h
      cases b with
      | false =>
        obtain ⟨l', h3, h4, h5⟩ := ih h h2
        refine ⟨l', h3, h4, fun name => (h5 name).trans ?_⟩
        constructor
        · rintro ⟨f, hf, hr⟩; exact ⟨f, List.mem_cons_of_mem _ hf, hr⟩
        · rintro ⟨f, hf, hr⟩
          rcases List.mem_cons.1 hf with hf | hf
          · subst hf; rw [ha] at hr; exact absurd hr (by simp)
          · exact ⟨f, hf, hr⟩
      | true =>
        obtain ⟨l', h3, h4, h5⟩ := ih h h2
        refine ⟨c.1 :: l', by rw [h3]; simp, List.pairwise_cons.2 ⟨fun k hk => ?_, h4⟩, fun name => ?_⟩
        · obtain ⟨f, hf, _⟩ := (h5 k).1 hk
          exact h1 _ hf
        · rw [List.mem_cons, h5]
          constructor
          · rintro (rfl | ⟨f, hf, hr⟩)
            · exact ⟨c.2, List.mem_cons_self, ha⟩
            · exact ⟨f, List.mem_cons_of_mem _ hf, hr⟩
          · rintro ⟨f, hf, hr⟩
            rcases List.mem_cons.1 hf with hf | hf
            · exact .inl (congrArg Prod.fst hf)
            · exact .inr ⟨f, hf, hr⟩

theorem runChecks_error {run : φ → α → Except Panic Bool} {items : List α} {failed : List Ident} {m : Sorted φ} {e : Panic}
    (h : runChecks run items failed m = .error e) : ∃ name f, m.get? name = some f ∧ ∃ a ∈ items, run f a = .error e := by
  simp only [runChecks] at h
  simp only [Sorted.get?_eq_some]
  generalize m.entries = es at h
  induction es generalizing failed with
  | nil => simp [foldE] at h
  | cons c es ih =>
    simp only [foldE] at h
    cases ha : anyFails (run c.2) items with
    | error e' =>
      rw [ha] at h
      simp only [Except.error.injEq] at h
      subst h
      obtain ⟨a, h1, h2⟩ := anyFails_error ha
      exact ⟨c.1, c.2, List.mem_cons_self, a, h1, h2⟩
    | ok b =>
      rw [ha] at h
      have : ∃ failed', foldE (fun failed (c : Ident × φ) =>
          match anyFails (run c.2) items with
          | .error e => .error e
          | .ok true => .ok (failed ++ [c.1])
          | .ok false => .ok failed) failed' es = .error e := by
        cases b <;> exact ⟨_, h⟩
      obtain ⟨_, h⟩ := this
      obtain ⟨name, f, hf, hr⟩ := ih h
      exact ⟨name, f, List.mem_cons_of_mem _ hf, hr⟩

/-- The names that `check_change` returns. -/
theorem checkChange_ok {g : Graph} {r : Lcr} {cs : GraphCheck} {l : List Ident} (h : checkChange g r cs = .ok l) :
    ∃ l1 l2 l3, l = l1 ++ l2 ++ l3 ∧ l1.Pairwise (· < ·) ∧ l2.Pairwise (· < ·) ∧ l3.Pairwise (· < ·) ∧
      (∀ name, name ∈ l1 ↔ ∃ f, cs.nodeChecks.get? name = some f ∧ anyFails (runNodeCheck g f) (changedNodes r).elems = .ok true) ∧
      (∀ name, name ∈ l2 ↔ ∃ f, cs.addChecks.get? name = some f ∧ anyFails (runLinkCheck g f) r.adds.elems = .ok true) ∧
      ∀ name, name ∈ l3 ↔ ∃ f, cs.removeChecks.get? name = some f ∧ anyFails (runLinkCheck g f) r.adds.elems = .ok true := by
  simp only [checkChange] at h
  cases h1 : runChecks (runNodeCheck g) (changedNodes r).elems [] cs.nodeChecks with
  | error e => rw [h1] at h; exact absurd h (by simp)
  | ok f1 =>
    rw [h1] at h
    simp only at h
    cases h2 : runChecks (runLinkCheck g) r.adds.elems f1 cs.addChecks with
    | error e => rw [h2] at h; exact absurd h (by simp)
    | ok f2 =>
      rw [h2] at h
      simp only at h
      obtain ⟨l1, rfl, a1, b1⟩ := runChecks_ok h1
      obtain ⟨l2, rfl, a2, b2⟩ := runChecks_ok h2
      obtain ⟨l3, rfl, a3, b3⟩ := runChecks_ok h
      exact ⟨f1, l2, l3, rfl, a1, a2, a3, b1, b2, b3⟩

/-- Where a panic of `check_change` comes from. -/
theorem checkChange_error {g : Graph} {r : Lcr} {cs : GraphCheck} {e : Panic} (h : checkChange g r cs = .error e) :
    (∃ name f, cs.nodeChecks.get? name = some f ∧ ∃ x ∈ (changedNodes r).elems, runNodeCheck g f x = .error e) ∨
      (∃ name f, cs.addChecks.get? name = some f ∧ ∃ a ∈ r.adds.elems, runLinkCheck g f a = .error e) ∨
      ∃ name f, cs.removeChecks.get? name = some f ∧ ∃ a ∈ r.adds.elems, runLinkCheck g f a = .error e := by
  simp only [checkChange] at h
  cases h1 : runChecks (runNodeCheck g) (changedNodes r).elems [] cs.nodeChecks with
  | error e' => rw [h1] at h; simp only [Except.error.injEq] at h; subst h; exact .inl (runChecks_error h1)
  | ok f1 =>
    rw [h1] at h
    simp only at h
    cases h2 : runChecks (runLinkCheck g) r.adds.elems f1 cs.addChecks with
    | error e' => rw [h2] at h; simp only [Except.error.injEq] at h; subst h; exact .inr (.inl (runChecks_error h2))
    | ok f2 => rw [h2] at h; exact .inr (.inr (runChecks_error h))

theorem runNodeCheck_cases {g : Graph} {f : NodeCheck} {x : NodeIndex} :
    (g.get? x = none ∧ runNodeCheck g f x = .error .nodeMissing) ∨ ∃ n, g.get? x = some n ∧ runNodeCheck g f x = (f x n).run := by
  unfold runNodeCheck
  cases g.get? x <;> simp

theorem runLinkCheck_cases {g : Graph} {f : LinkCheck} {c : Change} : (g.get? c.1 = none ∧ runLinkCheck g f c = .error .nodeMissing) ∨
    ∃ n, g.get? c.1 = some n ∧ runLinkCheck g f c = (f c.1 c.2.1 n (g.get? c.2.1)).run := by
  unfold runLinkCheck
  cases g.get? c.1 <;> simp

end Graph

open Spec

variable [SetImpl] {S : Schema} {dbg : Bool} {R : World → Call → Prop}

/-- What the recorded changes of a commit that returns are, if no `Vec` field holds a node twice. -/
theorem recorded_changes (hw : WellNamed S) {g g' : Graph} {t : Trans} (hnv : ∀ x m y, Steady S t g.get? x m y) (h : Meets S dbg R g t)
    (hc : g.commit S dbg t = .ok g') :
    ∃ v6 r, Performed t g.get? v6 ∧ Completion S g.get? v6 g'.get? ∧
      (Graph.doCommit S dbg g t = .ok (g', r) ∧ Graph.checkLinkType S g' r = .ok ()) ∧
      (∀ x, x ∈ (Graph.changedNodes r).elems ↔ Relinked g.get? v6 x) ∧
      (∀ c : Change, c ∈ r.adds.elems ↔ AddedLink g.get? v6 c.1 c.2.2 c.2.1) ∧
      (∀ x m y, AddedLink g.get? v6 x m y → ∃ n, g'.get? x = some n) ∧
      ∀ x, Relinked g.get? v6 x → g'.get? x = none → ∃ m y, y ≠ emptyIdx ∧ View.Link g.get? x m y := by
  obtain ⟨r, h1, h2⟩ := Graph.commit_iff.1 hc
  obtain ⟨g6, h4, h5⟩ := Graph.doCommit_out hw (h.inv hw) (h.ready hw).good (h.disjoint hw).1 (h.ready hw).noFrom h1
  have hcomp : Completion S g.get? g6.get? g'.get? :=
    (Graph.completion_of hw h4.inv (fun _ => h4.adds (hnv _ _ _)) (fun _ => h4.removes (hnv _ _ _)) h5).1
  have hadd : ∀ c : Change, c ∈ r.adds.elems ↔ AddedLink g.get? g6.get? c.1 c.2.2 c.2.1 := fun c => h4.adds (hnv _ _ _)
  have hrem : ∀ c : Change, c ∈ r.removes.elems ↔ RemovedLink g.get? g6.get? c.1 c.2.2 c.2.1 := fun c => h4.removes (hnv _ _ _)
  have hsrc : ∀ x m y, AddedLink g.get? g6.get? x m y → ∃ n, g'.get? x = some n := by
    rintro x m y ⟨_, ⟨n, hn, _⟩, _⟩
    have := hcomp.1 x
    rw [hn] at this
    cases hn' : g'.get? x with
    | none => rw [hn'] at this; exact absurd this (by simp)
    | some n' => exact ⟨n', rfl⟩
  refine ⟨g6.get?, r, h4.performed, hcomp, ⟨h1, h2⟩, fun x => ?_, hadd, hsrc, ?_⟩
  · rw [Graph.mem_changedNodes]
    constructor
    · rintro ⟨c, hcr | hcr, rfl⟩
      · exact ⟨_, _, .inl ((hadd c).1 hcr)⟩
      · exact ⟨_, _, .inr ((hrem c).1 hcr)⟩
    · rintro ⟨m, y, ha | ha⟩
      · exact ⟨(x, y, m), .inl ((hadd (x, y, m)).2 ha), rfl⟩
      · exact ⟨(x, y, m), .inr ((hrem (x, y, m)).2 ha), rfl⟩
  · rintro x ⟨m, y, ha | ha⟩ hn
    · obtain ⟨n, hn'⟩ := hsrc x m y ha
      rw [hn] at hn'; exact absurd hn' (by simp)
    · exact ⟨m, y, ha.1, ha.2.1⟩

/-- What `commit_checked` does with the changes. -/
theorem recorded (hw : WellNamed S) {g g' : Graph} {t : Trans} (hnv : ∀ x m y, Steady S t g.get? x m y) (h : Meets S dbg R g t)
    (hc : g.commit S dbg t = .ok g') :
    ∃ v6 r, Performed t g.get? v6 ∧ Completion S g.get? v6 g'.get? ∧
      (∀ cs, g.commitChecked S dbg t cs = match Graph.checkChange g' r cs with
        | .error e => .error e
        | .ok [] => .ok g'
        | .ok (name :: names) => .error (.checkFailed (name :: names))) ∧
      (∀ x, x ∈ (Graph.changedNodes r).elems ↔ Relinked g.get? v6 x) ∧
      (∀ c : Change, c ∈ r.adds.elems ↔ AddedLink g.get? v6 c.1 c.2.2 c.2.1) ∧
      (∀ x m y, AddedLink g.get? v6 x m y → ∃ n, g'.get? x = some n) ∧
      ∀ x, Relinked g.get? v6 x → g'.get? x = none → ∃ m y, y ≠ emptyIdx ∧ View.Link g.get? x m y := by
  obtain ⟨v6, r, h1, h2, ⟨h3, h4⟩, h5⟩ := recorded_changes hw hnv h hc
  refine ⟨v6, r, h1, h2, fun cs => ?_, h5⟩
  simp only [Graph.commitChecked, h3, h4]
  cases Graph.checkChange g' r cs with
  | error e => rfl
  | ok l => cases l <;> rfl

end TTGraph
