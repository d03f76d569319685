import Verif.Model.Check
import Verif.Lemmas.Sorted
import Verif.Lemmas.CommitSpec

/-!
# `commit_checked`
-/

set_option autoImplicit false

namespace TTGraph

theorem CheckResult.run_true {c : CheckResult} : c.run = .ok true ↔ c = .ok := by cases c <;> simp [CheckResult.run]

theorem CheckResult.run_false {c : CheckResult} : c.run = .ok false ↔ c = .err := by cases c <;> simp [CheckResult.run]

theorem CheckResult.run_error {c : CheckResult} {e : Panic} : c.run = .error e ↔ c = .panics ∧ e = .user := by
  cases c <;> simp [CheckResult.run, eq_comm]

namespace Graph

theorem anyFails_false {α : Type} {ok : α → Except Panic Bool} : ∀ {l : List α}, anyFails ok l = .ok false ↔ ∀ a ∈ l, ok a = .ok true
  | [] => by simp [anyFails]
  | a :: l => by
    simp only [anyFails, List.forall_mem_cons]
    cases h : ok a with
    | error e => simp
    | ok b =>
      cases b with
      | false => simp
      | true => simp [anyFails_false (l := l)]

theorem runChecks_nil {φ α : Type} {run : φ → α → Except Panic Bool} {items : List α} {failed : List Ident} {checks : Sorted φ} :
    runChecks run items failed checks = .ok [] ↔ failed = [] ∧ ∀ c ∈ checks.entries, ∀ a ∈ items, run c.2 a = .ok true := by
  simp only [runChecks]
  generalize checks.entries = l
  induction l generalizing failed with
  | nil => simp [foldE]
  | cons c l ih =>
    simp only [foldE, List.forall_mem_cons]
    rw [← anyFails_false]
    cases h : anyFails (run c.2) items with
    | error e => simp
    | ok b =>
      cases b with
      | false => simp [ih]
      | true => simp [ih]

theorem checkChange_nil {g : Graph} {r : Lcr} {cs : GraphCheck} : checkChange g r cs = .ok [] ↔
    (∀ c ∈ cs.nodeChecks.entries, ∀ x ∈ (changedNodes r).elems, runNodeCheck g c.2 x = .ok true) ∧
    (∀ c ∈ cs.addChecks.entries, ∀ a ∈ r.adds.elems, runLinkCheck g c.2 a = .ok true) ∧
    ∀ c ∈ cs.removeChecks.entries, ∀ a ∈ r.adds.elems, runLinkCheck g c.2 a = .ok true := by
  simp only [checkChange]
  constructor
  · intro h
    cases h1 : runChecks (runNodeCheck g) (changedNodes r).elems [] cs.nodeChecks with
    | error e => rw [h1] at h; exact absurd h (by simp)
    | ok f1 =>
      rw [h1] at h
      simp only at h
      cases h2 : runChecks (runLinkCheck g) r.adds.elems f1 cs.addChecks with
      | error e => rw [h2] at h; exact absurd h (by simp)
      | ok f2 =>
        rw [h2] at h
        simp only at h
        obtain ⟨rfl, h3⟩ := runChecks_nil.1 h
        obtain ⟨rfl, h4⟩ := runChecks_nil.1 h2
        exact ⟨(runChecks_nil.1 h1).2, h4, h3⟩
  · rintro ⟨h1, h2, h3⟩
    rw [runChecks_nil.2 ⟨rfl, h1⟩]
    simp only
    rw [runChecks_nil.2 ⟨rfl, h2⟩]
    exact runChecks_nil.2 ⟨rfl, h3⟩

theorem mem_changedNodes {r : Lcr} {x : NodeIndex} : x ∈ (changedNodes r).elems ↔ ∃ c, (c ∈ r.adds ∨ c ∈ r.removes) ∧ c.1 = x := by
  have key : ∀ (l : List Change) (s : OrderSet NodeIndex),
      x ∈ (l.foldl (fun s (c : Change) => s.insert c.1) s) ↔ x ∈ s ∨ ∃ c ∈ l, c.1 = x := by
    intro l
    induction l with
    | nil => simp
    | cons c l ih =>
      intro s
      rw [List.foldl_cons, ih, OrderSet.mem_insert]
      constructor
      · rintro ((h | h) | ⟨c', h1, h2⟩)
        · exact Or.inr ⟨c, by simp, h.symm⟩
        · exact Or.inl h
        · exact Or.inr ⟨c', by simp [h1], h2⟩
      · rintro (h | ⟨c', h1, h2⟩)
        · exact Or.inl (Or.inr h)
        · rcases List.mem_cons.1 h1 with rfl | h1
          · exact Or.inl (Or.inl h2.symm)
          · exact Or.inr ⟨c', h1, h2⟩
  have := key (r.adds.elems ++ r.removes.elems) OrderSet.empty
  refine Iff.trans this ?_
  constructor
  · rintro (h | ⟨c, h, rfl⟩)
    · exact absurd h (OrderSet.not_mem_empty x)
    · exact ⟨c, List.mem_append.1 h, rfl⟩
  · rintro ⟨c, h, rfl⟩
    exact Or.inr ⟨c, List.mem_append.2 h, rfl⟩

theorem runNodeCheck_true {g : Graph} {f : NodeCheck} {x : NodeIndex} : runNodeCheck g f x = .ok true ↔ ∃ n, g.get? x = some n ∧ f x n = .ok := by
  simp only [runNodeCheck]
  cases g.get? x <;> simp [CheckResult.run_true]

theorem runLinkCheck_true {g : Graph} {f : LinkCheck} {c : Change} :
    runLinkCheck g f c = .ok true ↔ ∃ n, g.get? c.1 = some n ∧ f c.1 c.2.1 n (g.get? c.2.1) = .ok := by
  simp only [runLinkCheck]
  cases g.get? c.1 <;> simp [CheckResult.run_true]

variable [SetImpl] {S : Schema} {dbg : Bool} {e0 : Prop}

theorem commitChecked_iff {g g' : Graph} {t : Trans} {cs : GraphCheck} :
    g.commitChecked S dbg t cs = .ok g' ↔ ∃ r, doCommit S dbg g t = .ok (g', r) ∧ checkLinkType S g' r = .ok () ∧ checkChange g' r cs = .ok [] := by
  simp only [commitChecked]
  constructor
  · intro h
    cases h1 : doCommit S dbg g t with
    | error e => rw [h1] at h; exact absurd h (by simp)
    | ok p =>
      obtain ⟨g1, r⟩ := p
      rw [h1] at h
      simp only at h
      cases h2 : checkLinkType S g1 r with
      | error e => rw [h2] at h; exact absurd h (by simp)
      | ok u =>
        rw [h2] at h
        simp only at h
        cases h3 : checkChange g1 r cs with
        | error e => rw [h3] at h; exact absurd h (by simp)
        | ok l =>
          rw [h3] at h
          cases l with
          | cons a l => exact absurd h (by simp)
          | nil =>
            simp only [Except.ok.injEq] at h
            subst h
            exact ⟨r, rfl, h2, h3⟩
  · rintro ⟨r, h1, h2, h3⟩
    simp only [h1, h2, h3]

theorem commit_iff {g g' : Graph} {t : Trans} :
    g.commit S dbg t = .ok g' ↔ ∃ r, doCommit S dbg g t = .ok (g', r) ∧ checkLinkType S g' r = .ok () := by
  simp only [commit]
  constructor
  · intro h
    cases h1 : doCommit S dbg g t with
    | error e => rw [h1] at h; exact absurd h (by simp)
    | ok p =>
      obtain ⟨g1, r⟩ := p
      rw [h1] at h
      simp only at h
      cases h2 : checkLinkType S g1 r with
      | error e => rw [h2] at h; exact absurd h (by simp)
      | ok u =>
        rw [h2] at h
        simp only [Except.ok.injEq] at h
        subst h
        exact ⟨r, rfl, h2⟩
  · rintro ⟨r, h1, h2⟩
    simp only [h1, h2]

/-- The recorded changes of a commit and the graph between its operations and completion. -/
theorem doCommit_out (hw : Spec.WellNamed S) {g g' : Graph} {t : Trans} {r : Lcr} (h : g.Inv S e0) (ht : t.Good S) (hd : g.nodes.Disjoint t.inc)
    (hz : t.NoFromEmpty) (hc : doCommit S dbg g t = .ok (g', r)) :
    ∃ g6, PerformOut S e0 t g g6 r ∧ applyBidirectional S g6 r = .ok g' := by
  rw [doCommit_eq] at hc
  split at hc
  · exact absurd hc (by simp)
  · split at hc
    · exact absurd hc (by simp)
    · cases hp : perform S g t with
      | error e => rw [hp] at hc; exact absurd hc (by simp)
      | ok p =>
        obtain ⟨g6, r6⟩ := p
        rw [hp] at hc
        simp only at hc
        cases hb : applyBidirectional S g6 r6 with
        | error e => rw [hb] at hc; exact absurd hc (by simp)
        | ok g7 =>
          rw [hb] at hc
          simp only [Except.ok.injEq, Prod.mk.injEq] at hc
          obtain ⟨rfl, rfl⟩ := hc
          exact ⟨g6, perform_out hw.variants h ht hd hz hp, hb⟩

end Graph
end TTGraph
