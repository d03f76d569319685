import Verif.Lemmas.Report
import Verif.Lemmas.Effects
import Verif.Spec.Asked

/-!
# Check functions with side effects
-/

set_option autoImplicit false

namespace TTGraph
namespace Graph
open Spec
variable {σ φ α : Type}

/-- A call of a check: the panic of a missing node, or what `ask` says. -/
def CallsOne (ask : φ → α → σ → CheckResult × σ → Prop) (run : φ → α → σ → Except Panic Bool × σ) (missing : α → Prop) : Prop :=
  ∀ f a s, (run f a s = (.error .nodeMissing, s) ∧ missing a) ∨ ∃ c s1, ask f a s (c, s1) ∧ run f a s = (c.run, s1)

theorem calls_node (g : Graph) : CallsOne (AskNode g.get?) (runNodeCheckE (σ := σ) g) fun x => g.get? x = none := by
  intro f x s
  cases h : g.get? x with
  | none => exact Or.inl ⟨by simp only [runNodeCheckE, h], h⟩
  | some n => exact Or.inr ⟨(f x n s).1, (f x n s).2, ⟨n, h, rfl⟩, by simp only [runNodeCheckE, h]⟩

theorem calls_link (g : Graph) : CallsOne (AskLink g.get?) (runLinkCheckE (σ := σ) g) fun c => g.get? c.1 = none := by
  intro f c s
  cases h : g.get? c.1 with
  | none => exact Or.inl ⟨by simp only [runLinkCheckE, h], h⟩
  | some n => exact Or.inr ⟨(f c.1 c.2.1 n (g.get? c.2.1) s).1, (f c.1 c.2.1 n (g.get? c.2.1) s).2, ⟨n, h, rfl⟩, by simp only [runLinkCheckE, h]⟩

/-- The calls of one check. -/
def Asking1 (ask : α → σ → CheckResult × σ → Prop) : List (α × CheckResult) → σ → σ → Prop
  | [], s, s' => s' = s
  | a :: l, s, s' => ∃ s1, ask a.1 s (a.2, s1) ∧ Asking1 ask l s1 s'

theorem anyFailsE_log {ask : φ → α → σ → CheckResult × σ → Prop} {run : φ → α → σ → Except Panic Bool × σ} {missing : α → Prop}
    (hc : CallsOne ask run missing) (f : φ) (items : List α) (s : σ) :
    ∃ log, Asking1 (ask f) log s (anyFailsE (run f) items s).2 ∧ log.map Prod.fst <+: items ∧ log.Pairwise (fun a _ => a.2 = .ok) ∧
      (((anyFailsE (run f) items s).1 = .ok false ∧ log.map Prod.fst = items ∧ ∀ a ∈ log, a.2 = .ok) ∨
       ((anyFailsE (run f) items s).1 = .ok true ∧ ∃ pre a, log = pre ++ [(a, .err)] ∧ ∀ a ∈ pre, a.2 = .ok) ∨
       ((anyFailsE (run f) items s).1 = .error .user ∧ ∃ pre a, log = pre ++ [(a, .panics)] ∧ ∀ a ∈ pre, a.2 = .ok) ∨
       ((anyFailsE (run f) items s).1 = .error .nodeMissing ∧ (∀ a ∈ log, a.2 = .ok) ∧ ∃ a ∈ items, missing a)) := by
  induction items generalizing s with
  | nil => exact ⟨[], rfl, by simp, List.Pairwise.nil, Or.inl ⟨rfl, rfl, by simp⟩⟩
  | cons a l ih =>
    rcases hc f a s with ⟨h1, h2⟩ | ⟨c, s1, h1, h2⟩
    · simp only [anyFailsE, h1]
      exact ⟨[], rfl, by simp, List.Pairwise.nil, Or.inr (Or.inr (Or.inr ⟨by simp, by simp, a, by simp, h2⟩))⟩
    · simp only [anyFailsE, h2]
      cases c with
      | ok =>
        simp only [CheckResult.run]
        obtain ⟨log, k1, k2, k3, k4⟩ := ih s1
        refine ⟨(a, .ok) :: log, ⟨s1, h1, k1⟩, ?_, List.pairwise_cons.2 ⟨fun _ _ => rfl, k3⟩, ?_⟩
        · rw [List.map_cons]
          exact List.cons_prefix_cons.2 ⟨rfl, k2⟩
        · rcases k4 with ⟨e1, e2, e3⟩ | ⟨e1, pre, b, e2, e3⟩ | ⟨e1, pre, b, e2, e3⟩ | ⟨e1, e2, b, e3, e4⟩
          · exact Or.inl ⟨e1, by rw [List.map_cons, e2], List.forall_mem_cons.2 ⟨rfl, e3⟩⟩
          · exact Or.inr (Or.inl ⟨e1, (a, .ok) :: pre, b, by rw [e2, List.cons_append], List.forall_mem_cons.2 ⟨rfl, e3⟩⟩)
          · exact Or.inr (Or.inr (Or.inl ⟨e1, (a, .ok) :: pre, b, by rw [e2, List.cons_append], List.forall_mem_cons.2 ⟨rfl, e3⟩⟩))
          · exact Or.inr (Or.inr (Or.inr ⟨e1, List.forall_mem_cons.2 ⟨rfl, e2⟩, b, List.mem_cons_of_mem _ e3, e4⟩))
      | err =>
        simp only [CheckResult.run]
        exact ⟨[(a, .err)], ⟨s1, h1, rfl⟩, by simp, List.pairwise_singleton _ _, Or.inr (Or.inl ⟨by simp, [], a, rfl, by simp⟩)⟩
      | panics =>
        simp only [CheckResult.run]
        exact ⟨[(a, .panics)], ⟨s1, h1, rfl⟩, by simp, List.pairwise_singleton _ _, Or.inr (Or.inr (Or.inl ⟨by simp, [], a, rfl, by simp⟩))⟩

/-- The calls of one check, under its name. -/
def named (name : Ident) (log : List (α × CheckResult)) : List (Asked α) := log.map fun a => ⟨name, a.1, a.2⟩

theorem ofName_named (name : Ident) (log : List (α × CheckResult)) : OfName name (named name log) = log.map Prod.fst := by
  simp [OfName, named, List.filter_map, Function.comp_def]

theorem ofName_other {name : Ident} {log : List (Asked α)} (h : ∀ a ∈ log, a.name ≠ name) : OfName name log = [] := by
  rw [OfName, List.map_eq_nil_iff, List.filter_eq_nil_iff]
  intro a ha
  simpa using h a ha

theorem ofName_append (name : Ident) (l l' : List (Asked α)) : OfName name (l ++ l') = OfName name l ++ OfName name l' := by
  simp [OfName]

theorem asking_append {ask : φ → α → σ → CheckResult × σ → Prop} {m : Sorted φ} {l l' : List (Asked α)} {s s1 s2 : σ}
    (h : Asking ask m l s s1) (h' : Asking ask m l' s1 s2) : Asking ask m (l ++ l') s s2 := by
  induction l generalizing s with
  | nil => have e : s1 = s := h; subst e; exact h'
  | cons a l ih =>
    obtain ⟨f, s0, h1, h2, h3⟩ := h
    exact ⟨f, s0, h1, h2, ih h3⟩

theorem asking_named {ask : φ → α → σ → CheckResult × σ → Prop} {m : Sorted φ} {name : Ident} {f : φ} (hf : m.get? name = some f)
    {log : List (α × CheckResult)} {s s' : σ} (h : Asking1 (ask f) log s s') : Asking ask m (named name log) s s' := by
  induction log generalizing s with
  | nil => exact h
  | cons a l ih =>
    obtain ⟨s0, h1, h2⟩ := h
    exact ⟨f, s0, hf, h1, ih h2⟩

theorem runChecksE_log {ask : φ → α → σ → CheckResult × σ → Prop} {run : φ → α → σ → Except Panic Bool × σ} {missing : α → Prop}
    (hc : CallsOne ask run missing) (m : Sorted φ) (items : List α) (es : List (Ident × φ)) (hes : ∀ e ∈ es, m.get? e.1 = some e.2)
    (hs : es.Pairwise fun a b => a.1 < b.1) (failed : List Ident) (s : σ) :
    ∃ log, Asking ask m log s (runChecksE run items failed es s).2 ∧ InTurn items log ∧ (∀ a ∈ log, ∃ e ∈ es, e.1 = a.name) ∧
      (((runChecksE run items failed es s).1 = .ok (failed ++ Failed log) ∧ (∀ a ∈ log, a.answer ≠ .panics) ∧
          ∀ e ∈ es, (∃ a ∈ log, a.name = e.1 ∧ a.answer = .err) ∨ OfName e.1 log = items) ∨
       ((runChecksE run items failed es s).1 = .error .user ∧ LastPanics log) ∨
       ((runChecksE run items failed es s).1 = .error .nodeMissing ∧ es ≠ [] ∧ ∃ a ∈ items, missing a)) := by
  induction es generalizing failed s with
  | nil => exact ⟨[], rfl, ⟨List.Pairwise.nil, by simp [OfName], List.Pairwise.nil⟩, by simp, Or.inl ⟨by simp [runChecksE, Failed], by simp, by simp⟩⟩
  | cons e es ih =>
    obtain ⟨name, f⟩ := e
    obtain ⟨hs1, hs2⟩ := List.pairwise_cons.1 hs
    have hf : m.get? name = some f := hes _ List.mem_cons_self
    have hes' : ∀ e ∈ es, m.get? e.1 = some e.2 := fun e he => hes e (List.mem_cons_of_mem _ he)
    obtain ⟨log, k1, k2, k3, k4⟩ := anyFailsE_log hc f items s
    have hmem : ∀ a ∈ named name log, a.name = name := by
      intro a ha
      obtain ⟨p, _, rfl⟩ := List.mem_map.1 ha
      rfl
    have hone : InTurn items (named name log) := by
      refine ⟨List.pairwise_map.2 (List.Pairwise.imp (fun _ => Nat.le_refl _) k3), fun n => ?_, List.pairwise_map.2 (List.Pairwise.imp Or.inl k3)⟩
      by_cases hn : name = n
      · subst hn; rw [ofName_named]; exact k2
      · rw [ofName_other (fun a ha => by rw [hmem a ha]; exact hn)]; exact List.nil_prefix
    have glue : ∀ (log' : List (Asked α)), InTurn items log' → (∀ a ∈ log', ∃ e ∈ es, e.1 = a.name) →
        (∀ a ∈ log, a.2 = .ok ∨ a.2 = .err) → InTurn items (named name log ++ log') := by
      intro log' h1 h2 h3
      have hlt : ∀ b ∈ log', name < b.name := by
        intro b hb
        obtain ⟨e, he, hb'⟩ := h2 b hb
        rw [← hb']; exact hs1 e he
      refine ⟨List.pairwise_append.2 ⟨hone.order, h1.order, fun a ha b hb => ?_⟩, fun n => ?_, List.pairwise_append.2 ⟨hone.stops, h1.stops, fun a ha b hb => ?_⟩⟩
      · rw [hmem a ha]; exact Nat.le_of_lt (hlt b hb)
      · rw [ofName_append]
        by_cases hn : name = n
        · subst hn
          rw [ofName_other (log := log') fun b hb => (Nat.ne_of_lt (hlt b hb)).symm, List.append_nil]
          exact hone.each name
        · rw [ofName_other (log := named name log) (fun a ha => by rw [hmem a ha]; exact hn), List.nil_append]
          exact h1.each n
      · obtain ⟨p, hp, rfl⟩ := List.mem_map.1 ha
        rcases h3 p hp with h4 | h4
        · exact Or.inl h4
        · exact Or.inr ⟨h4, Nat.ne_of_lt (hlt b hb)⟩
    have hmem' : ∀ (log' : List (Asked α)), (∀ a ∈ log', ∃ e ∈ es, e.1 = a.name) → ∀ a ∈ named name log ++ log', ∃ e ∈ (name, f) :: es, e.1 = a.name := by
      intro log' h2 a ha
      rcases List.mem_append.1 ha with ha | ha
      · exact ⟨_, List.mem_cons_self, (hmem a ha).symm⟩
      · obtain ⟨e, he, h3⟩ := h2 a ha
        exact ⟨e, List.mem_cons_of_mem _ he, h3⟩
    cases hr : anyFailsE (run f) items s with
    | mk r s1 =>
      rw [hr] at k1 k4
      simp only at k1 k4
      rcases k4 with ⟨rfl, e2, e3⟩ | ⟨rfl, pre, b, e2, e3⟩ | ⟨rfl, pre, b, e2, e3⟩ | ⟨rfl, e2, b, e3, e4⟩
      · simp only [runChecksE, hr]
        obtain ⟨log', j1, j2, j3, j4⟩ := ih hes' hs2 failed s1
        refine ⟨named name log ++ log', asking_append (asking_named hf k1) j1, glue log' j2 j3 (fun a ha => Or.inl (e3 a ha)), hmem' log' j3, ?_⟩
        have hnf : Failed (named name log) = [] := by
          simp only [Failed, named, List.map_eq_nil_iff, List.filter_eq_nil_iff, List.mem_map]
          rintro _ ⟨p, hp, rfl⟩
          simp [e3 p hp]
        rcases j4 with ⟨l1, l2, l3⟩ | ⟨l1, pre, a, l2, l3⟩ | ⟨l1, l2, l3⟩
        · refine Or.inl ⟨?_, fun a ha => ?_, fun e he => ?_⟩
          · have : Failed (named name log ++ log') = Failed log' := by
              rw [show Failed (named name log ++ log') = Failed (named name log) ++ Failed log' from by simp [Failed], hnf, List.nil_append]
            rw [this]; exact l1
          · rcases List.mem_append.1 ha with ha | ha
            · obtain ⟨p, hp, rfl⟩ := List.mem_map.1 ha
              show p.2 ≠ _
              rw [e3 p hp]; simp
            · exact l2 a ha
          · rcases List.mem_cons.1 he with rfl | he
            · right
              have h5 : ∀ b ∈ log', b.name ≠ name := by
                intro b hb
                obtain ⟨e, he, hb'⟩ := j3 b hb
                rw [← hb']; exact (Nat.ne_of_lt (hs1 e he)).symm
              rw [ofName_append, ofName_other h5, ofName_named, List.append_nil, e2]
            · rcases l3 e he with ⟨a, ha, h6⟩ | h6
              · exact Or.inl ⟨a, List.mem_append_right _ ha, h6⟩
              · right
                rw [ofName_append, h6, ofName_other (log := named name log) (fun a ha => by rw [hmem a ha]; exact Nat.ne_of_lt (hs1 e he)), List.nil_append]
        · exact Or.inr (Or.inl ⟨l1, named name log ++ pre, a, by rw [l2, List.append_assoc], l3⟩)
        · exact Or.inr (Or.inr ⟨l1, by simp, l3⟩)
      · simp only [runChecksE, hr]
        obtain ⟨log', j1, j2, j3, j4⟩ := ih hes' hs2 (failed ++ [name]) s1
        have hall : ∀ a ∈ log, a.2 = .ok ∨ a.2 = .err := by
          intro a ha
          rw [e2, List.mem_append, List.mem_singleton] at ha
          rcases ha with ha | rfl
          · exact Or.inl (e3 a ha)
          · exact Or.inr rfl
        refine ⟨named name log ++ log', asking_append (asking_named hf k1) j1, glue log' j2 j3 hall, hmem' log' j3, ?_⟩
        have hnf : Failed (named name log) = [name] := by
          have h7 : Failed (named name pre) = [] := by
            simp only [Failed, named, List.map_eq_nil_iff, List.filter_eq_nil_iff, List.mem_map]
            rintro _ ⟨p, hp, rfl⟩
            simp [e3 p hp]
          rw [e2, show named name (pre ++ [(b, .err)]) = named name pre ++ [⟨name, b, .err⟩] from by simp [named],
            show Failed (named name pre ++ [⟨name, b, .err⟩]) = Failed (named name pre) ++ Failed [⟨name, b, CheckResult.err⟩] from by simp [Failed], h7]
          rfl
        rcases j4 with ⟨l1, l2, l3⟩ | ⟨l1, pre', a, l2, l3⟩ | ⟨l1, l2, l3⟩
        · refine Or.inl ⟨?_, fun a ha => ?_, fun e he => ?_⟩
          · rw [show Failed (named name log ++ log') = Failed (named name log) ++ Failed log' from by simp [Failed], hnf, l1, List.append_assoc]
          · rcases List.mem_append.1 ha with ha | ha
            · obtain ⟨p, hp, rfl⟩ := List.mem_map.1 ha
              show p.2 ≠ _
              rcases hall p hp with h6 | h6 <;> rw [h6] <;> simp
            · exact l2 a ha
          · rcases List.mem_cons.1 he with rfl | he
            · exact Or.inl ⟨⟨name, b, .err⟩, List.mem_append_left _ (by rw [e2]; simp [named]), rfl, rfl⟩
            · rcases l3 e he with ⟨a, ha, h6⟩ | h6
              · exact Or.inl ⟨a, List.mem_append_right _ ha, h6⟩
              · right
                rw [ofName_append, h6, ofName_other (log := named name log) (fun a ha => by rw [hmem a ha]; exact Nat.ne_of_lt (hs1 e he)), List.nil_append]
        · exact Or.inr (Or.inl ⟨l1, named name log ++ pre', a, by rw [l2, List.append_assoc], l3⟩)
        · exact Or.inr (Or.inr ⟨l1, by simp, l3⟩)
      · simp only [runChecksE, hr]
        refine ⟨named name log, asking_named hf k1, hone, fun a ha => ⟨_, List.mem_cons_self, (hmem a ha).symm⟩, Or.inr (Or.inl ⟨by simp, named name pre,
          ⟨name, b, .panics⟩, by rw [e2]; simp [named], rfl⟩)⟩
      · simp only [runChecksE, hr]
        exact ⟨named name log, asking_named hf k1, hone, fun a ha => ⟨_, List.mem_cons_self, (hmem a ha).symm⟩, Or.inr (Or.inr ⟨by simp, by simp, b, e3, e4⟩)⟩

/-- The calls of one of the three kinds of checks. -/
theorem runChecksE_round {ask : φ → α → σ → CheckResult × σ → Prop} {run : φ → α → σ → Except Panic Bool × σ} {missing : α → Prop}
    (hc : CallsOne ask run missing) (m : Sorted φ) (items : List α) (failed : List Ident) (s : σ) :
    ∃ log, Asking ask m log s (runChecksE run items failed m.entries s).2 ∧ InTurn items log ∧
      (((runChecksE run items failed m.entries s).1 = .ok (failed ++ Failed log) ∧ AllAsked m items log) ∨
       ((runChecksE run items failed m.entries s).1 = .error .user ∧ LastPanics log) ∨
       ((runChecksE run items failed m.entries s).1 = .error .nodeMissing ∧ (∃ name f, m.get? name = some f) ∧ ∃ a ∈ items, missing a)) := by
  obtain ⟨log, h1, h2, _, h3⟩ := runChecksE_log hc m items m.entries (fun e he => Sorted.get?_eq_some.2 he) m.sorted failed s
  refine ⟨log, h1, h2, ?_⟩
  rcases h3 with ⟨h4, h5, h6⟩ | h4 | ⟨h4, h5, h6⟩
  · exact Or.inl ⟨h4, h5, fun name f hf => h6 (name, f) (Sorted.get?_eq_some.1 hf)⟩
  · exact Or.inr (Or.inl h4)
  · obtain ⟨e, he⟩ := List.exists_mem_of_ne_nil _ h5
    exact Or.inr (Or.inr ⟨h4, ⟨e.1, e.2, Sorted.get?_eq_some.2 he⟩, h6⟩)

/-! ### Checks without side effects -/

theorem anyFailsE_quiet {ok : α → Except Panic Bool} {okE : α → σ → Except Panic Bool × σ} (h : ∀ a s, okE a s = (ok a, s)) (items : List α) (s : σ) :
    anyFailsE okE items s = (anyFails ok items, s) := by
  induction items with
  | nil => rfl
  | cons a l ih =>
    simp only [anyFailsE, anyFails, h]
    cases ok a with
    | error e => rfl
    | ok b => cases b with
      | true => exact ih
      | false => rfl

theorem runChecksE_quiet {ψ : Type} {run : φ → α → Except Panic Bool} {runE : ψ → α → σ → Except Panic Bool × σ} {lift : φ → ψ}
    (h : ∀ f a s, runE (lift f) a s = (run f a, s)) (items : List α) (m : Sorted φ) (es : List (Ident × ψ))
    (hes : es = m.entries.map fun e => (e.1, lift e.2)) (failed : List Ident) (s : σ) :
    runChecksE runE items failed es s = (runChecks run items failed m, s) := by
  subst hes
  simp only [runChecks]
  generalize m.entries = l
  induction l generalizing failed with
  | nil => rfl
  | cons c l ih =>
    simp only [List.map_cons, runChecksE, foldE, anyFailsE_quiet (h c.2)]
    cases anyFails (run c.2) items with
    | error e => rfl
    | ok b => cases b <;> exact ih _

theorem checkChangeE_quiet (g : Graph) (r : Lcr) (cs : GraphCheck) (s : σ) : checkChangeE g r (quiet cs) s = (checkChange g r cs, s) := by
  have hn : ∀ (f : NodeCheck) x (s : σ), runNodeCheckE g (fun x n s => (f x n, s)) x s = (runNodeCheck g f x, s) := by
    intro f x s
    simp only [runNodeCheckE, runNodeCheck]
    cases g.get? x <;> rfl
  have hl : ∀ (f : LinkCheck) c (s : σ), runLinkCheckE g (fun x y n ny s => (f x y n ny, s)) c s = (runLinkCheck g f c, s) := by
    intro f c s
    simp only [runLinkCheckE, runLinkCheck]
    cases g.get? c.1 <;> rfl
  have h1 : ∀ s : σ, runChecksE (runNodeCheckE g) (changedNodes r).elems [] (quiet cs).nodeChecks.entries s =
      (runChecks (runNodeCheck g) (changedNodes r).elems [] cs.nodeChecks, s) := runChecksE_quiet hn _ _ _ rfl _
  have h2 : ∀ l (s : σ), runChecksE (runLinkCheckE g) r.adds.elems l (quiet cs).addChecks.entries s =
      (runChecks (runLinkCheck g) r.adds.elems l cs.addChecks, s) := fun l => runChecksE_quiet hl _ _ _ rfl _
  have h3 : ∀ l (s : σ), runChecksE (runLinkCheckE g) r.adds.elems l (quiet cs).removeChecks.entries s =
      (runChecks (runLinkCheck g) r.adds.elems l cs.removeChecks, s) := fun l => runChecksE_quiet hl _ _ _ rfl _
  simp only [checkChangeE, checkChange, h1]
  cases runChecks (runNodeCheck g) (changedNodes r).elems [] cs.nodeChecks with
  | error e => rfl
  | ok l1 =>
    simp only [h2]
    cases runChecks (runLinkCheck g) r.adds.elems l1 cs.addChecks with
    | error e => rfl
    | ok l2 => simp only [h3]

end Graph
end TTGraph
