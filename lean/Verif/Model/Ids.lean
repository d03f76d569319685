/-!
# `IdDistributer` (src/id_distributer.rs)

The graph model threads the counter as a natural number (`idAlloc`).  The second model is the code as written, on the machine word of a
64-bit target and with any number of threads: one call of `alloc` is an atomic `fetch_add` followed by a local addition, and the steps of
different threads interleave freely.

`Ordering::Relaxed` still gives every atomic object a single modification order that every `fetch_add` takes part in, so the `fetch_add`s of
all threads form one sequence (`Exec.fetch`).
-/

set_option autoImplicit false

namespace TTGraph

/-- `IdDistributer::alloc` on an unbounded counter, src/id_distributer.rs:14-17: the result and the new counter. -/
def idAlloc (cnt : Nat) : Nat × Nat := (cnt + 1, cnt + 1)

/-- `usize` on a 64-bit target. -/
abbrev Word := BitVec 64

/-- `self.cnt.fetch_add(1, Ordering::Relaxed)`, src/id_distributer.rs:15: the value before, and the new counter (wraps around). -/
def fetchAdd (cnt : Word) : Word × Word := (cnt, cnt + 1)

/-- `c + 1`, src/id_distributer.rs:16 (release build; a debug build panics if it overflows). -/
def plusOne (c : Word) : Word := c + 1

namespace Threads

/-- A moment of an execution: the shared counter, the calls that have fetched `c` but have not returned (with their threads), and the
results so far (with the threads that got them). -/
structure State where
  cnt : Word
  inside : List (Nat × Word)
  out : List (Nat × Word)

/-- `IdDistributer::new` (counter 0) and `from_count`, src/id_distributer.rs:10-12, 19-21. -/
def start (cnt : Word) : State := ⟨cnt, [], []⟩

/-- Executions from the counter `cnt`; the number counts the calls made so far. -/
inductive Exec (cnt : Word) : Nat → State → Prop
  | start : Exec cnt 0 (start cnt)
  | fetch {n : Nat} {s : State} (t : Nat) : Exec cnt n s → Exec cnt (n + 1) ⟨(fetchAdd s.cnt).2, (t, (fetchAdd s.cnt).1) :: s.inside, s.out⟩
  | ret {n : Nat} {s : State} (t : Nat) (c : Word) (l r : List (Nat × Word)) : Exec cnt n s → s.inside = l ++ (t, c) :: r →
      Exec cnt n ⟨s.cnt, l ++ r, s.out ++ [(t, plusOne c)]⟩

end Threads
end TTGraph
