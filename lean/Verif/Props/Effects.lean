import Verif.Lemmas.Shadow
import Verif.Lemmas.TransOps
import Verif.Demo.Run
import Verif.Demo.Decls

/-!
# C64: closures with side effects

The closures given to `mutate` and `update` may read and change anything they have captured: count, log, draw random numbers, share state with
each other.  Each runs at most once, in a fixed order, and the crate depends on nothing but the node that each closure leaves.  So all
properties that are proved for closures that are functions of the node hold for these programs as well.
-/

set_option autoImplicit false

namespace TTGraph
open Spec

variable [SetImpl] {S : Schema} {dbg : Bool} {σ : Type}

/-- C64.  A commit calls the closures of `mutate`, then those of `update`, each at most once, in the order in which they were given to the
transaction; if it returns, it has called them all.  Each call sees the state that the one before has left, and what the closures leave is the
state after the commit.  The result is that of a commit with any functions in place of the closures that give the same on these calls. -/
theorem C64_calls {g : Graph} {t : Trans} {p : Pend σ} {s s' : σ} {r : Except Panic Graph} (h : g.commitE S dbg t p s = (r, s')) :
    ∃ calls : List (Ran σ), calls.map (·.fn) <+: (p.muts ++ p.upds).map Prod.snd ∧
      ((∃ g', r = .ok g') → calls.map (·.fn) = (p.muts ++ p.upds).map Prod.snd) ∧ Played calls s s' ∧
      ∀ ms us : List Closure, ms.length = p.muts.length → us.length = p.upds.length → Reproduces (ms ++ us) calls →
        g.commit S dbg (withClosures t p ms us) = r := by
  obtain ⟨l, hl⟩ := Graph.commitE_calls S dbg g t p s
  rw [h] at hl
  refine ⟨l, hl.called, fun ⟨g', hg⟩ => ?_, hl.played, hl.same⟩
  exact hl.called.eq_of_length (by simpa using hl.all g' hg)

/-- C64.  The same for `commit_checked`. -/
theorem C64_calls_checked {g : Graph} {t : Trans} {p : Pend σ} {cs : GraphCheck} {s s' : σ} {r : Except Panic Graph}
    (h : g.commitCheckedE S dbg t p cs s = (r, s')) :
    ∃ calls : List (Ran σ), calls.map (·.fn) <+: (p.muts ++ p.upds).map Prod.snd ∧
      ((∃ g', r = .ok g') → calls.map (·.fn) = (p.muts ++ p.upds).map Prod.snd) ∧ Played calls s s' ∧
      ∀ ms us : List Closure, ms.length = p.muts.length → us.length = p.upds.length → Reproduces (ms ++ us) calls →
        g.commitChecked S dbg (withClosures t p ms us) cs = r := by
  obtain ⟨l, hl⟩ := Graph.commitCheckedE_calls S dbg g t p cs s
  rw [h] at hl
  refine ⟨l, hl.called, fun ⟨g', hg⟩ => ?_, hl.played, hl.same⟩
  exact hl.called.eq_of_length (by simpa using hl.all g' hg)

/-- C64.  A closure for a node that is not a new node of the transaction does not run when it is given to the transaction: it waits. -/
theorem C64_waits {ew : EWorld σ} {k c : Nat} {t : Trans} (hk : ew.world.trans k = some (c, t)) {i : NodeIndex} (hi : t.pending.new i = none)
    (f : EClosure σ) :
    ew.exec S dbg (.mutate k i f) = { ew with pend := World.put ew.pend k { ew.pend k with muts := (ew.pend k).muts ++ [(i, f)] } } ∧
    ew.exec S dbg (.update k i f) = { ew with pend := World.put ew.pend k { ew.pend k with upds := (ew.pend k).upds ++ [(i, f)] } } := by
  have hc : t.inc.contains i = false := by
    rw [Arena.contains_eq]
    exact Option.isSome_eq_false_iff.2 (Option.isNone_iff_eq_none.2 hi)
  exact ⟨by simp only [EWorld.exec, hk, hc, Bool.false_eq_true, if_false], by simp only [EWorld.exec, hk, hc, Bool.false_eq_true, if_false]⟩

/-- C64.  A closure for a new node of the transaction runs at once, on that node, in the present state.  Afterwards the transaction has the node
that the closure left; if the closure panics, the call panics. -/
theorem C64_now {ew : EWorld σ} {k c : Nat} {t : Trans} (hk : ew.world.trans k = some (c, t)) {i : NodeIndex} {n : Node}
    (hi : t.pending.new i = some n) (f : EClosure σ) {e : ECall σ} (he : e = .mutate k i f ∨ e = .update k i f) :
    (ew.exec S dbg e).env = (f n ew.env).2 ∧ (ew.exec S dbg e).pend = ew.pend ∧ match (f n ew.env).1 with
      | .ok n' => ∃ t', (ew.exec S dbg e).world = ew.world.setTrans k (some (c, t')) ∧ t'.pending = { t.pending with new := upd t.pending.new i (some n') }
      | .error _ => (ew.exec S dbg e).world = ew.world.setTrans k none := by
  have hi : t.inc.get? i = some n := hi
  have hc : t.inc.contains i = true := by
    rw [Arena.contains_eq, hi]
    rfl
  rcases he with rfl | rfl
  · have h := Arena.modifyAtE_at hi f ew.env
    simp only [EWorld.exec, hk, hc, if_true]
    exact EWorld.ran_at h.1 h.2
  · have h := Arena.updateWithE_at hi f ew.env
    simp only [EWorld.exec, hk, hc, if_true]
    exact EWorld.ran_at h.1 h.2

/-- C64.  Take any state of a program with effectful closures and put, in the place of each closure that waits, any function that on every node
does what the closure does in some state.  The result is a state of a program of `Model/World.lean`.  `R` is any restriction on programs that
the steps satisfy whatever their closures do. -/
theorem C64_programs {R : World → Call → Prop} {s : σ} {ew : EWorld σ} (h : EReaches S dbg (Whatever R) s ew) :
    (∃ w, Shadow ew w) ∧ ∀ w, Shadow ew w → Reaches S dbg R w := ⟨Shadow.ex ew, h.shadow⟩

/-- C64.  A graph of a program with effectful closures is a graph of a program whose closures are functions. -/
theorem C64_graphs {R : World → Call → Prop} {s : σ} {ew : EWorld σ} (h : EReaches S dbg (Whatever R) s ew) {k c : Nat} {g : Graph}
    (hg : ew.world.graph k = some (c, g)) : Reachable S dbg R g := by
  obtain ⟨w, hw⟩ := Shadow.ex ew
  exact ⟨w, k, c, h.shadow w hw, by rw [hw.graph]; exact hg⟩

omit [SetImpl] in
theorem shadow_with {ew : EWorld σ} {k a : Nat} {t t' : Trans} (hk : ew.world.trans k = some (a, t)) (hs : Poses (some (a, t)) (ew.pend k) (some (a, t'))) :
    ∃ w, Shadow ew w ∧ w.trans k = some (a, t') := by
  obtain ⟨w, hw⟩ := Shadow.ex ew
  exact ⟨ew.back w k (some (a, t')), EWorld.back_shadow (fun j _ => hw.trans j) (by rw [hk]; exact hs), World.put_at _ _ _⟩

/-- C64.  When a program with effectful closures is about to commit the transaction `t` to the graph `g`, a program whose closures are functions
can be about to commit a transaction with the same operations to the same graph, and the two commits do the same. -/
theorem C64_commits {R : World → Call → Prop} {s : σ} {ew : EWorld σ} (h : EReaches S dbg (Whatever R) s ew) {j k c : Nat} {g : Graph} {t : Trans}
    (hg : ew.world.graph j = some (c, g)) (ht : ew.world.trans k = some (c, t)) :
    ∃ t', Poses (some (c, t)) (ew.pend k) (some (c, t')) ∧ Meets S dbg R g t' ∧ g.commit S dbg t' = (g.commitE S dbg t (ew.pend k) ew.env).1 := by
  obtain ⟨l, hl⟩ := Graph.commitE_calls S dbg g t (ew.pend k) ew.env
  obtain ⟨ms, us, h1, h2, h3⟩ := hl.pick
  have hs : Poses (some (c, t)) (ew.pend k) (some (c, withClosures t (ew.pend k) ms us)) := ⟨rfl, _, _, rfl, h2, h3⟩
  obtain ⟨w, hw, hk⟩ := shadow_with ht hs
  exact ⟨_, hs, ⟨w, j, k, c, h.shadow w hw, by rw [hw.graph]; exact hg, hk⟩, h1⟩

/-- C64.  The same for `commit_checked`. -/
theorem C64_commits_checked {R : World → Call → Prop} {s : σ} {ew : EWorld σ} (h : EReaches S dbg (Whatever R) s ew) {j k c : Nat} {g : Graph}
    {t : Trans} (cs : GraphCheck) (hg : ew.world.graph j = some (c, g)) (ht : ew.world.trans k = some (c, t)) :
    ∃ t', Poses (some (c, t)) (ew.pend k) (some (c, t')) ∧ Meets S dbg R g t' ∧
      g.commitChecked S dbg t' cs = (g.commitCheckedE S dbg t (ew.pend k) cs ew.env).1 := by
  obtain ⟨l, hl⟩ := Graph.commitCheckedE_calls S dbg g t (ew.pend k) cs ew.env
  obtain ⟨ms, us, h1, h2, h3⟩ := hl.pick
  have hs : Poses (some (c, t)) (ew.pend k) (some (c, withClosures t (ew.pend k) ms us)) := ⟨rfl, _, _, rfl, h2, h3⟩
  obtain ⟨w, hw, hk⟩ := shadow_with ht hs
  exact ⟨_, hs, ⟨w, j, k, c, h.shadow w hw, by rw [hw.graph]; exact hg, hk⟩, h1⟩

/-- C64.  Every program with effectful closures satisfies `AnyCall` and `NoCatch`; if its closures keep the variant, it satisfies `KeepVariants`. -/
theorem C64_restrictions {s : σ} {ew : EWorld σ} :
    (EReaches S dbg EAny s ew → EReaches S dbg (Whatever AnyCall) s ew) ∧ (EReaches S dbg EAny s ew → EReaches S dbg (Whatever NoCatch) s ew) ∧
    (EReaches S dbg EKeepVariants s ew → EReaches S dbg (Whatever KeepVariants) s ew) := by
  refine ⟨fun h => ?_, fun h => ?_, fun h => ?_⟩
  · induction h with
    | init => exact .init
    | step _ h1 _ ih => exact .step ih h1 fun _ _ _ _ => trivial
  · induction h with
    | init => exact .init
    | step _ h1 _ ih =>
      refine .step ih h1 fun w c _ hi => ?_
      cases hi with
      | plain c => cases c <;> first | trivial | exact h1.1
      | _ => trivial
  · induction h with
    | init => exact .init
    | step _ h1 h2 ih =>
      refine .step ih h1 fun w c _ hi => ?_
      cases hi with
      | plain c =>
        cases c with
        | op k o => cases o <;> first | trivial | exact h1.1.elim
        | _ => trivial
      | mutate hb =>
        intro n n' hn
        obtain ⟨s, hs⟩ := hb n
        exact h2 n n' s (hs ▸ hn)
      | update hb =>
        intro n n' hn
        obtain ⟨s, hs⟩ := hb n
        exact h2 n n' s (hs ▸ hn)
      | _ => trivial

end TTGraph

/-! ### Programs that meet the hypotheses -/

namespace TTGraph.Demo
open Spec

/-- A closure that writes the next number of a shared counter into the data of the node. -/
def stamp : EClosure Nat := fun n s => (.ok { n with data := n.data.map fun d => ⟨d.ty, s⟩ }, s + 1)

/-- A closure that counts and panics. -/
def boom : EClosure Nat := fun _ s => (.error .user, s + 10)

theorem stamp_typed (S : Schema) : ETyped S stamp := by
  intro n n' s hn h
  simp only [stamp, Except.ok.injEq] at h
  obtain ⟨sd, h1, h2, h3⟩ := hn
  rw [← h]
  exact ⟨sd, h1, h2, by rw [← h3]; simp [Function.comp_def]⟩

theorem stamp_keeps : EKeepsVariant stamp := by
  intro n n' s h
  simp only [stamp, Except.ok.injEq] at h
  rw [← h]

/-- Calls that neither take nor run closures, by evaluation. -/
def plainCall : Call → Bool
  | .op _ (.mutate _ _) => false
  | .op _ (.update _ _) => false
  | .commit _ _ => false
  | .commitChecked _ _ _ => false
  | .commitCaught _ _ => false
  | _ => true

theorem plainCall_sound {c : Call} (h : plainCall c = true) : c.Plain := by
  cases c with
  | op k o => cases o <;> simp_all [plainCall, Call.Plain]
  | _ => simp_all [plainCall, Call.Plain]

/-- Steps whose conditions can be checked by evaluation. -/
inductive EStep
  | call (c : Call)
  | stamp (k : Nat) (i : NodeIndex)
  | stampU (k : Nat) (i : NodeIndex)
  | boom (k : Nat) (i : NodeIndex)
  | commit (g k : Nat)

/-- The step itself. -/
def EStep.call' : EStep → ECall Nat
  | .call c => .plain c
  | .stamp k i => .mutate k i Demo.stamp
  | .stampU k i => .update k i Demo.stamp
  | .boom k i => .mutate k i Demo.boom
  | .commit g k => .commit g k

/-- `EAllowed` by evaluation. -/
def estepOk (S : Schema) (us : List Nat) (w : World) : EStep → Bool
  | .call c => plainCall c && stepOk S us w (.call c)
  | .commit g k => sameCtx w k g
  | _ => true

/-- Run a program. -/
def erun [SetImpl] (S : Schema) (dbg : Bool) (w : EWorld Nat) : List EStep → EWorld Nat
  | [] => w
  | s :: l => erun S dbg (w.exec S dbg s.call') l

/-- Context ids of a step. -/
def enewId : EStep → List Nat
  | .call c => newId c
  | _ => []

/-- All steps are allowed. -/
def erunOk [SetImpl] (S : Schema) (dbg : Bool) (us : List Nat) (w : EWorld Nat) : List EStep → Bool
  | [] => true
  | s :: l => estepOk S us w.world s && erunOk S dbg (enewId s ++ us) (w.exec S dbg s.call') l

theorem ereaches_from [SetImpl] {S : Schema} {dbg : Bool} (l : List EStep) : ∀ {us : List Nat} {w : EWorld Nat},
    EReaches S dbg EAny 0 w → Ids us w.world → erunOk S dbg us w l = true → EReaches S dbg EAny 0 (erun S dbg w l) := by
  induction l with
  | nil => exact fun h _ _ => h
  | cons s l ih =>
    intro us w h hu hok
    simp only [erunOk, Bool.and_eq_true] at hok
    have hran : ∀ k c t q, Ids us (w.ran k c t q).world := by
      intro k c t q
      obtain ⟨_ | _, _⟩ := q <;> exact hu
    have hcom : ∀ g k c q, Ids us (w.committed g k c q).world := by
      intro g k c q
      obtain ⟨_ | _, _⟩ := q <;> exact hu
    refine ih (h.step (c := s.call') ?_ trivial) ?_ hok.2
    · cases s with
      | call c =>
        simp only [estepOk, Bool.and_eq_true] at hok
        exact ⟨plainCall_sound hok.1.1, stepOk_sound hu hok.1.2⟩
      | stamp k i => exact stamp_typed S
      | stampU k i => exact stamp_typed S
      | boom k i => exact fun n n' s _ h => by simp [Demo.boom] at h
      | commit g k => exact sameCtx_sound hok.1
    · cases s with
      | call c => exact hu.exec c
      | stamp k i =>
        simp only [EStep.call', EWorld.exec, enewId, List.nil_append]
        split
        · split
          · exact hran _ _ _ _
          · exact hu
        · exact hu
      | stampU k i =>
        simp only [EStep.call', EWorld.exec, enewId, List.nil_append]
        split
        · split
          · exact hran _ _ _ _
          · exact hu
        · exact hu
      | boom k i =>
        simp only [EStep.call', EWorld.exec, enewId, List.nil_append]
        split
        · split
          · exact hran _ _ _ _
          · exact hu
        · exact hu
      | commit g k =>
        simp only [EStep.call', EWorld.exec, enewId, List.nil_append]
        split
        · exact hcom _ _ _ _
        · exact hu

theorem ereaches [SetImpl] {S : Schema} {dbg : Bool} (l : List EStep) (h : erunOk S dbg [] (EWorld.init 0) l = true) :
    EReaches S dbg EAny 0 (erun S dbg (EWorld.init 0) l) :=
  ereaches_from l .init (fun _ _ h => absurd h (by simp [EWorld.init, World.init])) h

/-- Two nodes are inserted; the first closure runs at once (counter 0). -/
def stamps : List EStep := [.call (.newContext 0 5), .call (.newGraph 0 0), .call (.newTrans 0 0), .call (.op 0 (.insert (nA 0 [] [] 7))),
  .call (.op 0 (.insert (nA 1 [] [] 8))), .stamp 0 1, .commit 0 0, .call (.newTrans 1 0), .stampU 1 1, .stamp 1 2, .stamp 1 1]

/-- The state after a program. -/
def stampsAt : EWorld Nat := erun plain true (EWorld.init 0) stamps

theorem stamps_reaches : EReaches plain true EAny 0 stampsAt := ereaches stamps (by decide +kernel)

/-- The counter is 1 before the commit: one closure has run, three wait. -/
example : stampsAt.env = 1 ∧ (stampsAt.pend 1).muts.length = 2 ∧ (stampsAt.pend 1).upds.length = 1 := by decide +kernel

/-- The commit runs the three, the `update` last. -/
example : (graphAt (stampsAt.exec plain true (.commit 0 1)).world 0).get? 1 = some (nA 0 [] [] 3) ∧
    (graphAt (stampsAt.exec plain true (.commit 0 1)).world 0).get? 2 = some (nA 1 [] [] 1) ∧ (stampsAt.exec plain true (.commit 0 1)).env = 4 := by
  decide +kernel

/-- `C64_calls` applies to it: all three are called. -/
example : ∃ calls : List (Ran Nat), calls.length = 3 ∧ Played calls 1 4 := by
  have h : Graph.commitE plain true (graphAt stampsAt.world 0) (transAt stampsAt.world 1) (stampsAt.pend 1) 1 =
      (.ok (got (Graph.new 0) (Graph.commitE plain true (graphAt stampsAt.world 0) (transAt stampsAt.world 1) (stampsAt.pend 1) 1).1), 4) :=
    Prod.ext (got_ok (by decide +kernel)) (by decide +kernel)
  obtain ⟨calls, _, h2, h3, _⟩ := C64_calls h
  refine ⟨calls, ?_, h3⟩
  have := congrArg List.length (h2 ⟨_, rfl⟩)
  rw [List.length_map] at this
  rw [this]
  decide +kernel

/-- `C64_commits` applies to it. -/
example : ∃ t', Meets plain true AnyCall (graphAt stampsAt.world 0) t' ∧ (∃ g', Graph.commit plain true (graphAt stampsAt.world 0) t' = .ok g') := by
  have hg : stampsAt.world.graph 0 = some (0, graphAt stampsAt.world 0) := by
    have : (stampsAt.world.graph 0).map Prod.fst = some 0 := by decide +kernel
    obtain ⟨⟨c, g⟩, h1, h2⟩ := Option.map_eq_some_iff.1 this
    simp only at h2
    subst h2
    simp [graphAt, h1]
  have ht : stampsAt.world.trans 1 = some (0, transAt stampsAt.world 1) := by
    have : (stampsAt.world.trans 1).map Prod.fst = some 0 := by decide +kernel
    obtain ⟨⟨c, g⟩, h1, h2⟩ := Option.map_eq_some_iff.1 this
    simp only at h2
    subst h2
    simp [transAt, h1]
  obtain ⟨t', _, h2, h3⟩ := C64_commits (C64_restrictions.1 stamps_reaches) hg ht
  exact ⟨t', h2, _, h3.trans (got_ok (d := Graph.new 0) (by decide +kernel))⟩

/-- A closure that panics: the closures before it have run, those after it have not, and what they did stays done. -/
example : (Graph.commitE plain true (graphAt stampsAt.world 0) (transAt stampsAt.world 1)
    ⟨[(1, stamp), (2, boom), (1, stamp)], [(1, stamp)]⟩ 1).2 = 12 := by decide +kernel

end TTGraph.Demo
