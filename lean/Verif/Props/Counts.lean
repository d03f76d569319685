import Mathlib.Data.List.Induction
import Verif.Demo.Decls
import Verif.Props.Iter
import Verif.Props.Commit
import Verif.Spec.Worlds

/-!
# The number of nodes after a commit, and the build profile: C47, C48
-/

set_option autoImplicit false

namespace TTGraph
open Spec
variable [SetImpl] {S : Schema} {dbg : Bool} {R : World → Call → Prop}

/-! ### C47 -/

/-- After a commit the graph has as many nodes as before, plus the nodes that were to be inserted, minus those that were to be removed.  `new`
and `removed` list the pending insertions and removals. -/
theorem C47_len (hw : WellNamed S) {g g' : Graph} {t : Trans} (h : Meets S dbg R g t) (hc : g.commit S dbg t = .ok g')
    {new removed : List NodeIndex} (hn : new.Nodup) (hn' : ∀ i, i ∈ new ↔ t.pending.new i ≠ none) (hr : removed.Nodup)
    (hr' : ∀ i, i ∈ removed ↔ t.pending.removed i) : g'.len S + removed.length = g.len S + new.length := by
  obtain ⟨v6, out⟩ := h.commit hw hc
  obtain ⟨l, _, _, _, hl1, hl2, _, hl3, _⟩ := C18_iter hw h.reachable
  have hinv' : g'.Inv S False := out.inv.mono (by simp)
  have hk' : ((g'.iter S).map Prod.fst).Nodup := Arena.entries_nodup hw.variants hinv'.arena
  have hm' : ∀ i, i ∈ (g'.iter S).map Prod.fst ↔ g'.get? i ≠ none := by
    intro i
    rw [List.mem_map, Option.ne_none_iff_exists']
    constructor
    · rintro ⟨⟨j, n⟩, h1, rfl⟩; exact ⟨n, (Arena.mem_entries hinv'.arena).1 h1⟩
    · rintro ⟨n, h1⟩; exact ⟨(i, n), (Arena.mem_entries hinv'.arena).2 h1, rfl⟩
  have hlen' : g'.len S = ((g'.iter S).map Prod.fst).length := by rw [List.length_map]; exact Arena.len_eq _ _
  have hm : ∀ i, i ∈ l.map Prod.fst ↔ g.get? i ≠ none := by
    intro i
    rw [List.mem_map, Option.ne_none_iff_exists']
    constructor
    · rintro ⟨⟨j, n⟩, h1, rfl⟩; exact ⟨n, (hl2 _ _).1 h1⟩
    · rintro ⟨n, h1⟩; exact ⟨(i, n), (hl2 _ _).2 h1, rfl⟩
  have hsub : ∀ i ∈ removed, g.get? i ≠ none ∨ t.inc.get? i ≠ none := by
    intro i hi
    obtain ⟨v1, v2, v3, v4, v5, h1, h2, h3, h4, h5, h6⟩ := out.performed
    obtain ⟨ρ, _, h5⟩ := h5
    obtain ⟨ρ1, _, h1⟩ := h1
    have h7 := (h6.1 i ((hr' i).1 hi)).1
    by_contra hno
    simp only [ne_eq, not_or, not_not] at hno
    refine h7 ((renamed_none h5 i).2 ((applied_none h4 i).2 ((applied_none h3 i).2 ?_)))
    rw [h2.1 i hno.2]
    exact (renamed_none h1 i).2 hno.1
  rw [hlen', hl3, ← List.length_map (f := Prod.fst) (as := l), ← List.length_append, ← List.length_append]
  refine List.Perm.length_eq ((List.perm_ext_iff_of_nodup ?_ ?_).2 ?_)
  · rw [List.nodup_append]
    refine ⟨hk', hr, ?_⟩
    rintro i hi j hj rfl
    exact (hm' i).1 hi ((CommitOut.none_iff out i).2 (Or.inr ((hr' i).1 hj)))
  · rw [List.nodup_append]
    refine ⟨hl1, hn, ?_⟩
    rintro i hi j hj rfl
    have h1 := (hm i).1 hi
    have h2 := (hn' i).1 hj
    obtain ⟨n, h2⟩ := Option.ne_none_iff_exists'.1 h2
    obtain ⟨d, hd, _⟩ := Arena.get?_eq_some.1 (show t.inc.get? i = some n from h2)
    obtain ⟨n, h1⟩ := Option.ne_none_iff_exists'.1 h1
    obtain ⟨d', hd', _⟩ := Arena.get?_eq_some.1 h1
    exact (h.disjoint hw).2.2 i (Or.inl (by simp [hd])) (by simp [Graph.Owns, hd'])
  · intro i
    rw [List.mem_append, List.mem_append, hm', hm, hn', hr']
    have h1 := CommitOut.none_iff out i
    have h2 := fun hi => hsub i ((hr' i).2 hi)
    constructor
    · rintro (h3 | h3)
      · by_contra hno
        simp only [ne_eq, not_or, not_not] at hno
        exact h3 (h1.2 (Or.inl hno))
      · exact h2 h3
    · intro h3
      by_cases h4 : t.pending.removed i
      · exact Or.inr h4
      · refine Or.inl fun h5 => ?_
        rcases h1.1 h5 with ⟨h6, h7⟩ | h6
        · rcases h3 with h3 | h3
          · exact h3 h6
          · exact h3 h7
        · exact h4 h6

/-! ### C48 -/

/-- A debug build behaves like a release build, except that it refuses transactions of another context and those with unfilled allocations. -/
theorem C48_commit (g : Graph) (t : Trans) (cs : GraphCheck) :
    (t.ctxId = g.ctxId → (∀ i, ¬ t.pending.unfilled i) →
      g.commit S true t = g.commit S false t ∧ g.commitChecked S true t cs = g.commitChecked S false t cs ∧
        g.commitLeft S true t = g.commitLeft S false t) ∧
    (t.ctxId ≠ g.ctxId → g.commit S true t = .error .ctxMismatch ∧ g.commitChecked S true t cs = .error .ctxMismatch) ∧
    (t.ctxId = g.ctxId → ∀ i, t.pending.unfilled i →
      g.commit S true t = .error .unfilledAlloc ∧ g.commitChecked S true t cs = .error .unfilledAlloc) := by
  have hall : (∀ i, ¬ t.pending.unfilled i) → t.allocs.isEmpty = true := by
    intro h
    cases hx : t.allocs.isEmpty with
    | true => rfl
    | false =>
      simp only [OrderSet.isEmpty, List.isEmpty_eq_false_iff] at hx
      obtain ⟨i, hi⟩ := List.exists_mem_of_ne_nil _ hx
      exact absurd hi (h i)
  have hall' : ∀ i, t.pending.unfilled i → t.allocs.isEmpty = false := by
    intro i hi
    simp only [OrderSet.isEmpty, List.isEmpty_eq_false_iff]
    exact List.ne_nil_of_mem hi
  refine ⟨fun h1 h2 => ?_, fun h1 => ?_, fun h1 i hi => ?_⟩
  · have : g.doCommit S true t = g.doCommit S false t := by simp [Graph.doCommit, h1, hall h2]
    exact ⟨by simp only [Graph.commit, this], by simp only [Graph.commitChecked, this], by simp [Graph.commitLeft, Graph.commitLeftWith, h1, hall h2]⟩
  · have : g.doCommit S true t = .error .ctxMismatch := by simp [Graph.doCommit, h1]
    exact ⟨by simp only [Graph.commit, this], by simp only [Graph.commitChecked, this]⟩
  · have : g.doCommit S true t = .error .unfilledAlloc := by simp [Graph.doCommit, h1, hall' i hi]
    exact ⟨by simp only [Graph.commit, this], by simp only [Graph.commitChecked, this]⟩

/-- A call has the same effect in a debug and in a release build, unless it commits a transaction with unfilled allocations. -/
theorem C48_call (hw : WellNamed S) {w : World} (h : Reaches S dbg R w) {call : Call} (ha : call.Allowed S w)
    (hf : Filled w call) : w.exec S true call = w.exec S false call := by
  have key : ∀ {k gh : Nat} {p : Nat × Trans} {q : Nat × Graph}, w.trans k = some p → w.graph gh = some q → p.1 = q.1 → p.2.ctxId = q.2.ctxId := by
    rintro k gh ⟨c, t⟩ ⟨c', g⟩ ht hg e
    simp only at e
    subst e
    obtain ⟨x, _, h2, h3, _⟩ := (h.inv hw).pair ht hg
    rw [h2, h3]
  cases call with
  | commit gh k =>
    simp only [World.exec]
    cases ht : w.trans k with
    | none => rfl
    | some p =>
      cases hg : w.graph gh with
      | none => rfl
      | some q =>
        simp only
        rw [((C48_commit q.2 p.2 GraphCheck.new).1 (key ht hg (ha _ _ _ _ ht hg)) (hf p.1 p.2 ht)).1]
  | commitChecked gh k cs =>
    simp only [World.exec]
    cases ht : w.trans k with
    | none => rfl
    | some p =>
      cases hg : w.graph gh with
      | none => rfl
      | some q =>
        simp only
        rw [((C48_commit q.2 p.2 cs).1 (key ht hg (ha _ _ _ _ ht hg)) (hf p.1 p.2 ht)).2.1]
  | commitCaught gh k =>
    simp only [World.exec]
    cases ht : w.trans k with
    | none => rfl
    | some p =>
      cases hg : w.graph gh with
      | none => rfl
      | some q =>
        simp only
        rw [((C48_commit q.2 p.2 GraphCheck.new).1 (key ht hg (ha _ _ _ _ ht hg)) (hf p.1 p.2 ht)).2.2]
  | _ => rfl

/-- A program that commits no transaction with unfilled allocations does the same in a debug and in a release build. -/
theorem C48_program (hw : WellNamed S) (l : List Call)
    (hl : ∀ pre call post, l = pre ++ call :: post → let w := runCalls S true World.init pre; call.Allowed S w ∧ Filled w call) :
    runCalls S false World.init l = runCalls S true World.init l ∧ Reaches S true Filled (runCalls S true World.init l) := by
  induction l using List.reverseRecOn with
  | nil => exact ⟨rfl, .init⟩
  | append_singleton l call ih =>
    obtain ⟨h1, h2⟩ := ih (fun pre c post e => hl pre c (post ++ [call]) (by rw [e]; simp))
    obtain ⟨h3, h4⟩ := hl l call [] rfl
    have e : ∀ b, runCalls S b World.init (l ++ [call]) = (runCalls S b World.init l).exec S b call := fun b => by
      simp only [runCalls, List.foldl_append, List.foldl_cons, List.foldl_nil]
    rw [e, e, h1]
    exact ⟨(C48_call hw h2 h3 h4).symm, h2.step h3 h4⟩

end TTGraph

namespace TTGraph
namespace Demo
open Spec

/-- C47: the hypotheses are met, with a node that is inserted and two that are removed. -/
def count3 : List Step := base3 ++
  [.call (.op 1 (.insert (nA 2 [2] [3] 1))), .call (.op 1 (.remove 2)), .call (.op 1 (.remove 3))]

example :
    let w := run plain true World.init count3
    let g := graphAt w 0
    let t := transAt w 1
    ∃ (g' : Graph) (new removed : List NodeIndex), Meets plain true AnyCall g t ∧ g.commit plain true t = .ok g' ∧ new.Nodup ∧ (∀ i, i ∈ new ↔ t.pending.new i ≠ none) ∧
      removed.Nodup ∧ (∀ i, i ∈ removed ↔ t.pending.removed i) ∧ g.len plain = 3 ∧ new.length = 1 ∧ removed.length = 2 ∧ g'.len plain = 2 := by
  have hm : Meets plain true AnyCall (graphAt (run plain true World.init count3) 0) (transAt (run plain true World.init count3) 1) :=
    meets_of (reaches count3 (by decide +kernel)) 0 1 (by decide +kernel)
  have hr := hm.ready plain_named
  refine ⟨_, ((transAt (run plain true World.init count3) 1).inc.entries plain).map Prod.fst, (transAt (run plain true World.init count3) 1).dec.elems,
    hm, got_ok (d := Graph.new 0) (by decide +kernel), Arena.entries_nodup plain_named.variants hr.good.inv, ?_, by decide +kernel, fun i => Iff.rfl,
    by decide +kernel, by decide +kernel, by decide +kernel, by decide +kernel⟩
  intro i
  rw [List.mem_map, Option.ne_none_iff_exists']
  constructor
  · rintro ⟨⟨j, n⟩, h1, rfl⟩; exact ⟨n, (Arena.mem_entries hr.good.inv).1 h1⟩
  · rintro ⟨n, h1⟩; exact ⟨(i, n), (Arena.mem_entries hr.good.inv).2 h1, rfl⟩

/-- `Filled` by evaluation. -/
def filledStep (w : World) : Step → Bool
  | .call (.commit _ k) => (transAt w k).allocs.elems.isEmpty
  | .call (.commitChecked _ k _) => (transAt w k).allocs.elems.isEmpty
  | .call (.commitCaught _ k) => (transAt w k).allocs.elems.isEmpty
  | _ => true

theorem filledStep_sound (w : World) (s : Step) (h : filledStep w s = true) : Filled w s.call' := by
  have key : ∀ k, (transAt w k).allocs.elems.isEmpty = true → ∀ c t, w.trans k = some (c, t) → ∀ i, ¬ t.pending.unfilled i := by
    intro k hk c t ht i hi
    simp only [transAt, ht, Option.map_some, Option.getD_some, List.isEmpty_iff] at hk
    exact absurd (show i ∈ t.allocs.elems from hi) (by rw [hk]; exact List.not_mem_nil)
  cases s with
  | call c => cases c <;> first | trivial | exact key _ h
  | mutate k i n => trivial
  | update k i n => trivial
  | edit k i n => trivial
  | swap k i n => trivial

/-- Every call of a program that is checked by evaluation is allowed when it is made. -/
theorem calls_ok [SetImpl] {S : Schema} {dbg : Bool} {R : World → Call → Prop} {r : World → Step → Bool}
    (hr : ∀ w s, r w s = true → R w s.call') (l : List Step) : ∀ {us : List Nat} {w : World}, Ids us w → runOk S dbg r us w l = true →
      ∀ pre call post, l.map Step.call' = pre ++ call :: post → call.Allowed S (runCalls S dbg w pre) ∧ R (runCalls S dbg w pre) call := by
  induction l with
  | nil => intro us w _ _ pre call post e; exact absurd e (by simp)
  | cons s l ih =>
    intro us w hu hok pre call post e
    simp only [runOk, Bool.and_eq_true] at hok
    cases pre with
    | nil =>
      simp only [List.map_cons, List.nil_append, List.cons.injEq] at e
      obtain ⟨rfl, _⟩ := e
      exact ⟨stepOk_sound hu hok.1.1, hr w s hok.1.2⟩
    | cons p pre =>
      simp only [List.map_cons, List.cons_append, List.cons.injEq] at e
      obtain ⟨rfl, e⟩ := e
      exact ih (hu.exec s.call') hok.2 pre call post e

/-- A program that fills what it allocates, commits and moves the graph to another context. -/
def filled3 : List Step := base3 ++
  [.call (.op 1 (.alloc 2)), .call (.op 1 (.insert (nA 4 [4] [3] 1))), .call (.op 1 (.fillBack 4 (nB 5))), .call (.commit 0 1),
   .call (.newContext 1 78), .call (.switchContext 0 1)]

/-- C48: the hypotheses are met. -/
example : (∀ pre call post, filled3.map Step.call' = pre ++ call :: post →
      let w := runCalls plain true World.init pre; call.Allowed plain w ∧ Filled w call) ∧
    (graphAt (runCalls plain false World.init (filled3.map Step.call')) 0).len plain = 5 :=
  ⟨calls_ok filledStep_sound filled3 (us := []) (fun _ _ h => absurd h (by simp [World.init])) (by decide +kernel), by decide +kernel⟩

end Demo
end TTGraph
