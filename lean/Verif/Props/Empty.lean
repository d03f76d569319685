import Verif.Demo.Traced
import Verif.Demo.Decls
import Verif.Props.Commit

/-!
# The empty index: C05
-/

set_option autoImplicit false

namespace TTGraph
open Spec

theorem first_request {reqs : List (NodeIndex × NodeIndex)} {u n : NodeIndex} (h : (u, n) ∈ reqs) :
    ∃ pre m post, reqs = pre ++ (u, m) :: post ∧ ∀ k, (u, k) ∉ pre := by
  induction reqs with
  | nil => exact absurd h (by simp)
  | cons p l ih =>
    by_cases hp : p.1 = u
    · exact ⟨[], p.2, l, by rw [← hp]; rfl, by simp⟩
    · rcases List.mem_cons.1 h with rfl | h
      · exact absurd rfl hp
      · obtain ⟨pre, m, post, e, hk⟩ := ih h
        refine ⟨p :: pre, m, post, by rw [e]; rfl, fun k hk' => ?_⟩
        rcases List.mem_cons.1 hk' with rfl | hk'
        · exact hp rfl
        · exact hk k hk'

/-- Requests that all go to the empty index, none of which starts there. -/
theorem redirectMap_empty {reqs : List (NodeIndex × NodeIndex)} {ρ : NodeIndex → NodeIndex} (h : RedirectMap reqs ρ)
    (hto : ∀ p ∈ reqs, p.2 = emptyIdx) (hfrom : ∀ n, (emptyIdx, n) ∉ reqs) (u : NodeIndex) :
    ((∀ p ∈ reqs, p.1 ≠ u) ∧ ρ u = u) ∨ ((∃ p ∈ reqs, p.1 = u) ∧ u ≠ emptyIdx ∧ ρ u = emptyIdx) := by
  by_cases hu : ∃ p ∈ reqs, p.1 = u
  · obtain ⟨p, hp, rfl⟩ := hu
    obtain ⟨pre, m, post, e, hk⟩ := first_request (u := p.1) (n := p.2) hp
    obtain ⟨hc, _⟩ := h.first pre p.1 m post e hk
    have hm : m = emptyIdx := hto (p.1, m) (by rw [e]; simp)
    subst hm
    refine Or.inr ⟨⟨p, hp, rfl⟩, fun e0 => hfrom p.2 (e0 ▸ hp), ?_⟩
    generalize ρ p.1 = z at hc
    cases hc with
    | here => rfl
    | step h1 _ => exact absurd h1 (hfrom _)
  · refine Or.inl ⟨fun p hp e => hu ⟨p, hp, e⟩, h.other u fun n hn => hu ⟨_, hn, rfl⟩⟩

variable [SetImpl] {S : Schema} {dbg : Bool} {R : World → Call → Prop}

/-- Redirecting nodes to `NodeIndex::empty()` clears exactly the links to these nodes.  No node, no data, no other link and no `Vec` length
changes.  (Fields that occur in `bidirectional!` lines are governed by C23 as well.)

Full statement of C05: moreover a later redirect *from* `NodeIndex::empty()` does not touch links that were set to real nodes in between.
That is false, see below. -/
theorem C05_clears_partial (hw : WellNamed S) {g g' : Graph} {t : Trans} (h : Meets S dbg R g t) (hc : g.commit S dbg t = .ok g')
    (hnew : ∀ i, t.pending.new i = none) (hrem : ∀ i, ¬ t.pending.removed i) (hm : t.pending.muts = []) (hu : t.pending.upds = [])
    (hto : ∀ p ∈ t.pending.redir ++ t.pending.redirAll, p.2 = emptyIdx) :
    SameButLinks g.get? g'.get? ∧ ∀ x s y, (∀ m, ¬ Opposite S m s.mirror) →
      (View.Holds g'.get? x s y ↔ View.Holds g.get? x s y ∧ ∀ p ∈ t.pending.redir ++ t.pending.redirAll, p.1 ≠ y) := by
  obtain ⟨ρ, ρ', v1, v2, m1, m2, r1, r2, hs⟩ := C07_redirects hw h hc hnew hrem hm hu
  have hz := (h.ready hw).noFrom
  have k1 := redirectMap_empty m1 (fun p hp => hto p (List.mem_append_left _ hp)) fun n hn => hz n (List.mem_append_left _ hn)
  have k2 := redirectMap_empty m2 (fun p hp => hto p (List.mem_append_right _ hp)) fun n hn => hz n (List.mem_append_right _ hn)
  have hold : ∀ {reqs : List (NodeIndex × NodeIndex)} {ρ : NodeIndex → NodeIndex} {v v' : View}, View.Renamed ρ v v' →
      (∀ u, ((∀ p ∈ reqs, p.1 ≠ u) ∧ ρ u = u) ∨ ((∃ p ∈ reqs, p.1 = u) ∧ u ≠ emptyIdx ∧ ρ u = emptyIdx)) →
      SameButLinks v v' ∧ ∀ x s y, View.Holds v' x s y ↔ View.Holds v x s y ∧ ∀ p ∈ reqs, p.1 ≠ y := by
    intro reqs ρ v v' hr hk
    refine ⟨fun x => ?_, fun x s y => ?_⟩
    · have := hr x
      revert this
      cases v x <;> cases v' x <;> simp
      exact fun a => a.shape
    · constructor
      · rintro ⟨n', hn', hh⟩
        have := hr x
        rw [hn'] at this
        cases hn : v x with
        | none => rw [hn] at this; exact this.elim
        | some n =>
          rw [hn] at this
          obtain ⟨u, hu1, hu2, hu3⟩ := (this.holds s y).1 hh
          rcases hk u with ⟨a, b⟩ | ⟨a, b, c⟩
          · obtain rfl : u = y := b.symm.trans hu2
            exact ⟨⟨n, hn, hu1⟩, a⟩
          · rcases hu3 with d | d
            · exact absurd (hu2.symm.trans c) d
            · exact absurd d b
      · rintro ⟨⟨n, hn, hh⟩, hne⟩
        obtain ⟨n', hn', hren⟩ := renamed_node hr hn
        refine ⟨n', hn', (hren.holds s y).2 ⟨y, hh, ?_⟩⟩
        rcases hk y with ⟨a, b⟩ | ⟨⟨p, hp, e⟩, _⟩
        · exact ⟨b, (Classical.em _).symm⟩
        · exact absurd e (hne p hp)
  obtain ⟨s1, h1⟩ := hold r1 k1
  obtain ⟨s2, h2⟩ := hold r2 k2
  refine ⟨fun x => ((hs.1 x).trans (s2 x)).trans (s1 x), fun x s y hno => ?_⟩
  rw [hs.2 x s y hno, h2, h1, List.forall_mem_append, and_assoc]

end TTGraph

namespace TTGraph
namespace Demo
open Spec

/-- `base3`, with the links to 2 redirected to the empty index. -/
def clear3 : List Step := base3 ++ [.call (.op 1 (.redirectLinks 2 0))]

/-- C05: the hypotheses of `C05_clears_partial` are met, and links are cleared. -/
example : let w := run plain true World.init clear3
    let g := graphAt w 0
    let t := transAt w 1
    Meets plain true AnyCall g t ∧ (g.commit plain true t).toOption.isSome = true ∧ (∀ i, ¬ t.pending.removed i) ∧ t.pending.muts = [] ∧
    t.pending.upds = [] ∧ (∀ p ∈ t.pending.redir ++ t.pending.redirAll, p.2 = emptyIdx) ∧
    (g.get? 1, (got g (g.commit plain true t)).get? 1) = (some (nA 2 [2, 3] [2, 3, 2] 5), some (nA 0 [3] [0, 3, 0] 5)) := by
  refine ⟨meets_of (reaches clear3 (by decide +kernel)) 0 1 (by decide +kernel), by decide +kernel, fun i hi => absurd hi List.not_mem_nil, rfl, rfl,
    by decide +kernel, by decide +kernel⟩

/-- The cleared field is set to the node 2 again. -/
def trace3 : List Step := clear3 ++ [.call (.commit 0 1), .call (.newTrans 2 0), .mutate 2 1 (nA 2 [] [0, 3, 0] 5), .call (.commit 0 2), .call (.newTrans 3 0)]

/-- C05 fails: the direct field of node 1 links to 2, and a redirect from the empty index to 3 makes it link to 3; the set, which was empty, gets 3 as well. -/
theorem C05_trace_fails : ∃ g t g', Meets plain true AnyCall g t ∧ g.commit plain true (t.redirectLinks emptyIdx 3) = .ok g' ∧
    g.get? 1 = some (nA 2 [] [0, 3, 0] 5) ∧ g'.get? 1 = some (nA 3 [3] [3, 3, 3] 5) := by
  refine ⟨_, _, _, meets_of (reaches trace3 (by decide +kernel)) 0 3 (by decide +kernel), got_ok (d := Graph.new 0) ?_, ?_, ?_⟩
  all_goals decide +kernel

/-- The cleared `Vec` is made shorter. -/
def shorter3 : List Step := clear3 ++ [.call (.commit 0 1), .call (.newTrans 2 0), .mutate 2 1 (nA 2 [] [] 5), .call (.commit 0 2), .call (.newTrans 3 0)]

/-- C05 fails in another way: the redirect from the empty index panics, because a trace points behind the end of a `Vec`. -/
theorem C05_panic_fails : ∃ g t, Meets plain true AnyCall g t ∧ (g.commit plain true (t.redirectLinks emptyIdx 3)).toOption.isNone = true ∧
    g.get? 1 = some (nA 2 [] [] 5) := by
  refine ⟨_, _, meets_of (reaches shorter3 (by decide +kernel)) 0 3 (by decide +kernel), ?_, ?_⟩
  all_goals decide +kernel

end Demo
end TTGraph
