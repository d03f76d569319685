import Verif.Spec.Effects

/-!
# Specification of closures that call the API

A closure given to `mutate` or `update` may hold references to other graphs and own other transactions, and call their methods while it runs.
The calls in progress hold some objects: `commit` and `commit_checked` borrow their graph mutably and have taken their transaction
(src/typed_graph.rs:423, 432), `mutate` and `update` on a new node borrow their transaction mutably (transaction.rs:274, 328).  Rust does not let
a closure use those, nor may a new object take their place.  Everything else it may use, and the closures that these calls run may do the same
in turn.
-/

set_option autoImplicit false

namespace TTGraph
namespace Spec

/-- The graphs and transactions that calls in progress hold. -/
structure Busy where
  graph : Nat → Prop
  trans : Nat → Prop

/-- No call is in progress. -/
def Busy.none : Busy := ⟨fun _ => False, fun _ => False⟩

/-- Besides, a commit of transaction `k` to graph `g` is in progress. -/
def Busy.commit (b : Busy) (g k : Nat) : Busy := ⟨fun j => j = g ∨ b.graph j, fun j => j = k ∨ b.trans j⟩

/-- Besides, a method of transaction `k` is in progress. -/
def Busy.method (b : Busy) (k : Nat) : Busy := ⟨b.graph, fun j => j = k ∨ b.trans j⟩

/-- The graph that a call uses or creates. -/
def Call.usesGraph : Call → Nat → Prop
  | .newGraph g _, j => j = g
  | .merge _ g, j => j = g
  | .commit g _, j => j = g
  | .commitChecked g _ _, j => j = g
  | .commitCaught g _, j => j = g
  | .dropGraph g, j => j = g
  | .switchContext g _, j => j = g
  | .deserialize g _ _, j => j = g
  | _, _ => False

/-- The transaction that a call uses or creates. -/
def Call.usesTrans : Call → Nat → Prop
  | .newTrans k _, j => j = k
  | .op k _, j => j = k
  | .merge k _, j => j = k
  | .commit _ k, j => j = k
  | .commitChecked _ k _, j => j = k
  | .commitCaught _ k, j => j = k
  | .dropTrans k, j => j = k
  | _, _ => False

/-- The step does not use an object that a call in progress holds. -/
def Free {σ : Type} (b : Busy) : ECall σ → Prop
  | .think _ => True
  | .plain c => (∀ g, Call.usesGraph c g → ¬ b.graph g) ∧ ∀ k, Call.usesTrans c k → ¬ b.trans k
  | .mutate k _ _ => ¬ b.trans k
  | .update k _ _ => ¬ b.trans k
  | .commit g k => ¬ b.graph g ∧ ¬ b.trans k
  | .commitChecked g k _ => ¬ b.graph g ∧ ¬ b.trans k

/-- A closure on the whole state of the program: `d` may do anything with the state, and makes of each node something that `f` may make of it. -/
def Deep {σ : Type} (f : EClosure σ) (d : EClosure (EWorld σ)) : Prop := ∀ n w, ∃ s, (d n w).1 = (f n s).1

/-- The same for the closures that wait in a transaction, one by one. -/
def DeepPend {σ : Type} (p : Pend σ) (q : Pend (EWorld σ)) : Prop :=
  List.Forall₂ (fun e d => d.1 = e.1 ∧ Deep e.2 d.2) p.muts q.muts ∧ List.Forall₂ (fun e d => d.1 = e.1 ∧ Deep e.2 d.2) p.upds q.upds

/-- `Goes b w w'`: while the calls in progress hold `b`, the program goes from `w` to `w'`.  The closures of a call may themselves run the program
on: from the state `w1` in which the call starts to the state `w2` in which its last closure returns.  Then the call puts its result in place.
All steps satisfy `R`. -/
inductive Goes {σ : Type} [SetImpl] (S : Schema) (dbg : Bool) (R : EWorld σ → ECall σ → Prop) : Busy → EWorld σ → EWorld σ → Prop
  /-- nothing happens -/
  | done (b : Busy) (w : EWorld σ) : Goes S dbg R b w w
  /-- a step whose closures do not call the API -/
  | step {b : Busy} {w w1 : EWorld σ} {e : ECall σ} : Goes S dbg R b w w1 → Free b e → EAllowed S w1 e → R w1 e → Goes S dbg R b w (w1.exec S dbg e)
  /-- `k.mutate(i, d)` on a new node -/
  | mutate {b : Busy} {w w1 w2 : EWorld σ} {k c : Nat} {i : NodeIndex} {t : Trans} {f : EClosure σ} {d : EClosure (EWorld σ)}
      {r : Except Panic Arena} : Goes S dbg R b w w1 → ¬ b.trans k → w1.world.trans k = some (c, t) → t.inc.contains i = true → ETyped S f → Deep f d →
      t.inc.modifyAtE i d w1 = (r, w2) → Goes S dbg R (b.method k) w1 w2 → R w2 (.mutate k i f) → Goes S dbg R b w (w2.ran k c t (r, w2.env))
  /-- `k.update(i, d)` on a new node -/
  | update {b : Busy} {w w1 w2 : EWorld σ} {k c : Nat} {i : NodeIndex} {t : Trans} {f : EClosure σ} {d : EClosure (EWorld σ)}
      {r : Except Panic Arena} : Goes S dbg R b w w1 → ¬ b.trans k → w1.world.trans k = some (c, t) → t.inc.contains i = true → ETyped S f → Deep f d →
      t.inc.updateWithE i d w1 = (r, w2) → Goes S dbg R (b.method k) w1 w2 → R w2 (.update k i f) → Goes S dbg R b w (w2.ran k c t (r, w2.env))
  /-- `g.commit(k)` -/
  | commit {b : Busy} {w w1 w2 : EWorld σ} {g k c : Nat} {t : Trans} {gr : Graph} {q : Pend (EWorld σ)} {r : Except Panic Graph} :
      Goes S dbg R b w w1 → ¬ b.graph g → ¬ b.trans k → w1.world.trans k = some (c, t) → w1.world.graph g = some (c, gr) → DeepPend (w1.pend k) q →
      gr.commitE S dbg t q w1 = (r, w2) → Goes S dbg R (b.commit g k) w1 w2 → R w2 (.commit g k) → Goes S dbg R b w (w2.committed g k c (r, w2.env))
  /-- `g.commit_checked(k, checks)` -/
  | commitChecked {b : Busy} {w w1 w2 : EWorld σ} {g k c : Nat} {t : Trans} {gr : Graph} {q : Pend (EWorld σ)} {r : Except Panic Graph}
      {checks : GraphCheck} :
      Goes S dbg R b w w1 → ¬ b.graph g → ¬ b.trans k → w1.world.trans k = some (c, t) → w1.world.graph g = some (c, gr) → DeepPend (w1.pend k) q →
      gr.commitCheckedE S dbg t q checks w1 = (r, w2) → Goes S dbg R (b.commit g k) w1 w2 → R w2 (.commitChecked g k checks) →
      Goes S dbg R b w (w2.committed g k c (r, w2.env))

/-- The states that a program reaches from the initial state `s`, also while calls are in progress. -/
inductive NReaches {σ : Type} [SetImpl] (S : Schema) (dbg : Bool) (R : EWorld σ → ECall σ → Prop) (s : σ) : Busy → EWorld σ → Prop
  | init : NReaches S dbg R s Busy.none (EWorld.init s)
  /-- the program goes on -/
  | run {b : Busy} {w w' : EWorld σ} : NReaches S dbg R s b w → Goes S dbg R b w w' → NReaches S dbg R s b w'
  /-- a call starts and runs a closure -/
  | enter {b b' : Busy} {w : EWorld σ} : NReaches S dbg R s b w → (∀ g, b.graph g → b'.graph g) → (∀ k, b.trans k → b'.trans k) → NReaches S dbg R s b' w

end Spec
end TTGraph
