import Verif.Model.Arena

/-!
# The rest of the public trait `CateArena`

The graph does not use `get_mut` and `iter_mut` with arbitrary changes; a user of a generated arena can.
-/

set_option autoImplicit false

namespace TTGraph
namespace Arena

/-- `dispatch`, ttgraph_macros/src/cate_arena.rs:337-339. -/
def dispatch (a : Arena) (i : NodeIndex) : Option Ident := a.disp.get? i

/-- `get_mut(i)`, src/cate_arena.rs:95-97, and then, if it is `Some(n)`, `*n = f(*n)`.  `none` stands for the result `None`. -/
def getMut (a : Arena) (i : NodeIndex) (f : Node → Node) : Option Arena :=
  match a.disp.get? i with
  | none => none
  | some d =>
    match (a.cont d).get? i with
    | none => none
    | some n => some (a.setCont d ((a.cont d).insert i (f n)))

/-- The loop `for (i, n) in it { *n = f(i, *n) }` over the generated `IterMut`, ttgraph_macros/src/cate_arena.rs:110-167: its `next` is the one of
`Iter` (lines 121-131, 148-153), and the reference that it yields points into the container of the variant that the iterator is at. -/
def iterMutLoop (S : Schema) (f : NodeIndex → Node → Node) : Nat → Iter → Arena → Arena
  | 0, _, a => a
  | fuel + 1, it, a =>
    match it.next S (S.discs.length + 1) with
    | (none, _) => a
    | (some e, it') =>
      match it'.state with
      | none => a
      | some d => iterMutLoop S f fuel it' (a.setCont d ((a.cont d).insert e.1 (f e.1 e.2)))

/-- `for (i, n) in arena.iter_mut() { *n = f(i, *n) }`, ttgraph_macros/src/cate_arena.rs:377-379; the loop runs at most once per node. -/
def iterMut (S : Schema) (a : Arena) (f : NodeIndex → Node → Node) : Arena := iterMutLoop S f (a.len S + 1) (Iter.start S a) a

end Arena
end TTGraph
