import Verif.Spec.Rename
import Verif.Spec.Vec

/-!
# Several threads that build transactions in one context

Each thread builds one transaction.  The threads share the context, so the indices they get depend on the schedule.
-/

set_option autoImplicit false

namespace TTGraph
namespace Spec

/-- What a thread has got so far: the indices that each of its calls has returned, in order. -/
abbrev Returned := List (List NodeIndex)

/-- The program of a thread: its next call, which can depend on everything that its earlier calls have returned. -/
abbrev Thread := Returned → Option TOp

/-- The thread only makes calls that are allowed, whatever it has got; `fill_back_untyped` is allowed if the index has been allocated by this
transaction and is not filled. -/
def Thread.Typed (S : Schema) (p : Thread) : Prop :=
  ∀ h o, p h = some o → ∀ t : Trans, (∀ i n, o = .fillBackUntyped i n → i ∈ t.allocs) → o.Allowed S t

/-- The thread does not depend on the values of the indices it gets: if they are replaced by others, it makes the same call with the indices
replaced.  The indices up to `c`, which existed before, are known to the thread. -/
def Thread.Generic (c : Nat) (p : Thread) : Prop :=
  ∀ (σ : Equiv.Perm NodeIndex), (∀ i : Nat, i ≤ c → σ i = i) → ∀ h : Returned,
    match p h, p (h.map (List.map σ)) with
    | some o, some o2 => AlikeOp σ o o2
    | none, none => True
    | _, _ => False

/-- The threads `P` make calls in the order of the schedule: `k :: ks` means that thread `k`, which has the transaction `k`, makes the next call.
All these calls return.  `h` and `h'` say what each thread has got before and after. -/
inductive Runs [SetImpl] (S : Schema) (dbg : Bool) (P : Nat → Thread) : World → (Nat → Returned) → List Nat → World → (Nat → Returned) → Prop
  | done {w : World} {h : Nat → Returned} : Runs S dbg P w h [] w h
  | step {w w' : World} {h h' : Nat → Returned} {k c : Nat} {ks : List Nat} {o : TOp} {l : List NodeIndex} :
      P k (h k) = some o → (Call.op k o).Allowed S w → Hands w k o c l →
      Runs S dbg P (w.exec S dbg (.op k o)) (World.put h k (h k ++ [l])) ks w' h' → Runs S dbg P w h (k :: ks) w' h'

/-- Commit the transactions `ks` to the graph `gh`, one after the other. -/
def commitAll [SetImpl] (S : Schema) (dbg : Bool) (gh : Nat) (ks : List Nat) (w : World) : World :=
  ks.foldl (fun w k => w.exec S dbg (.commit gh k)) w

/-- None of these commits lets a `Vec` field of a `bidirectional!` line hold a node twice on the way. -/
def SteadyCommits [SetImpl] (S : Schema) (dbg : Bool) (gh : Nat) (ks : List Nat) (w : World) : Prop :=
  ∀ pre k post, ks = pre ++ k :: post → SteadyBidirCalls S (commitAll S dbg gh pre w) (.commit gh k)

end Spec
end TTGraph
