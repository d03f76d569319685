import Verif.Model.OrderMap
import Verif.Model.Node
import Verif.Model.Ids

/-!
# The generated arena (ttgraph_macros/src/cate_arena.rs) and the trait `CateArena` (src/cate_arena.rs)

The arena's own handle on the id distributer is not stored in the record: the counter is passed to and returned by the functions
that use it.
-/

set_option autoImplicit false

namespace TTGraph

/-- Left fold that stops at the first panic: a `for` loop. -/
def foldE {σ α : Type} (f : σ → α → Except Panic σ) : σ → List α → Except Panic σ
  | s, [] => .ok s
  | s, a :: as =>
    match f s a with
    | .ok s' => foldE f s' as
    | .error e => .error e

/-- The generated arena struct, ttgraph_macros/src/cate_arena.rs:307-312: a dispatcher and one container per variant. -/
structure Arena where
  disp : OrderMap NodeIndex Ident
  cont : Ident → OrderMap NodeIndex Node

namespace Arena

/-- `Arena::new`, ttgraph_macros/src/cate_arena.rs:321-323. -/
def new : Arena := ⟨OrderMap.empty, fun _ => OrderMap.empty⟩

/-- Replace one container (`get_container_mut`, ttgraph_macros/src/cate_arena.rs:343-345). -/
def setCont (a : Arena) (d : Ident) (c : OrderMap NodeIndex Node) : Arena :=
  { a with cont := fun d' => if d' = d then c else a.cont d' }

/-- `alloc`, ttgraph_macros/src/cate_arena.rs:346-352. -/
def alloc (a : Arena) (cnt : Nat) (d : Ident) : Except Panic (NodeIndex × Arena × Nat) :=
  let (idx, cnt') := idAlloc cnt
  if a.disp.contains idx then .error .dupAlloc
  else .ok (idx, { a with disp := a.disp.insert idx d }, cnt')

/-- `alloc_untyped`, ttgraph_macros/src/cate_arena.rs:353-355. -/
def allocUntyped (cnt : Nat) : NodeIndex × Nat := idAlloc cnt

/-- `fill_back_untyped`, ttgraph_macros/src/cate_arena.rs:356-362. -/
def fillBackUntyped (a : Arena) (i : NodeIndex) (n : Node) : Except Panic Arena :=
  let d := n.disc
  let a1 := { a with disp := a.disp.insert i d }
  if (a1.cont d).contains i then .error .fillOccupied
  else .ok (a1.setCont d ((a1.cont d).insert i n))

/-- `insert`, src/cate_arena.rs:72-79. -/
def insert (a : Arena) (cnt : Nat) (n : Node) : Except Panic (NodeIndex × Arena × Nat) :=
  let d := n.disc
  match a.alloc cnt d with
  | .error e => .error e
  | .ok (idx, a1, cnt') =>
    if (a1.cont d).contains idx then .error .allocExists
    else .ok (idx, a1.setCont d ((a1.cont d).insert idx n), cnt')

/-- `fill_back`, src/cate_arena.rs:80-88. -/
def fillBack (a : Arena) (i : NodeIndex) (n : Node) : Except Panic Arena :=
  match a.disp.get? i with
  | none => .error .fillNonexisting
  | some d =>
    if n.disc ≠ d then .error .fillType
    else if (a.cont d).contains i then .error .fillOccupied
    else .ok (a.setCont d ((a.cont d).insert i n))

/-- `get`, src/cate_arena.rs:92-94. -/
def get? (a : Arena) (i : NodeIndex) : Option Node := (a.disp.get? i).bind fun d => (a.cont d).get? i

/-- `contains`, src/cate_arena.rs:89-91. -/
def contains (a : Arena) (i : NodeIndex) : Bool :=
  match a.disp.get? i with
  | some d => (a.cont d).contains i
  | none => false

/-- `get_mut(i).unwrap()` followed by an in-place change `f` of the node, src/cate_arena.rs:95-97.  `e` is the panic if there is no
such node. -/
def modifyAt {β : Type} (a : Arena) (i : NodeIndex) (f : Node → Except Panic (Node × β)) : Except Panic (Arena × β) :=
  match a.disp.get? i with
  | none => .error .nodeMissing
  | some d =>
    match (a.cont d).get? i with
    | none => .error .nodeMissing
    | some n =>
      match f n with
      | .error e => .error e
      | .ok (n', r) => .ok (a.setCont d ((a.cont d).insert i n'), r)

/-- `update_with`, src/cate_arena.rs:98-105: the new value goes back into the old container. -/
def updateWith (a : Arena) (i : NodeIndex) (f : Node → Except Panic Node) : Except Panic Arena :=
  match a.disp.get? i with
  | none => .error .updateMissing
  | some d =>
    match (a.cont d).get? i with
    | none => .error .updateMissing
    | some n =>
      match f n with
      | .error e => .error e
      | .ok n' => .ok (a.setCont d (((a.cont d).swapRemove i).insert i n'))

/-- `remove`, ttgraph_macros/src/cate_arena.rs:363-366: the removed node (if any) and the new arena. -/
def remove (a : Arena) (i : NodeIndex) : Option Node × Arena :=
  match a.disp.get? i with
  | none => (none, a)
  | some d =>
    ((a.cont d).get? i, { disp := a.disp.swapRemove i, cont := fun d' => if d' = d then (a.cont d).swapRemove i else a.cont d' })

/-- `merge`, ttgraph_macros/src/cate_arena.rs:367-370. -/
def merge (a b : Arena) : Arena :=
  { disp := a.disp.append b.disp, cont := fun d => (a.cont d).append (b.cont d) }

/-- `len`, ttgraph_macros/src/cate_arena.rs:371-373. -/
def len (S : Schema) (a : Arena) : Nat := (S.discs.map fun d => (a.cont d).len).sum

/-- The items produced by `iter`/`into_iter`, in order, ttgraph_macros/src/cate_arena.rs:374-382: container after container.
The iterator itself is modelled by `Iter` below. -/
def entries (S : Schema) (a : Arena) : List (NodeIndex × Node) := S.discs.flatMap fun d => (a.cont d).entries

/-- One step of `new_from_iter`, ttgraph_macros/src/cate_arena.rs:326-334. -/
def newFromIterStep (a : Arena) (e : NodeIndex × Node) : Except Panic Arena :=
  let d := e.2.disc
  if a.disp.contains e.1 then .error .dupIndex
  else
    let a1 := { a with disp := a.disp.insert e.1 d }
    if (a1.cont d).contains e.1 then .error .dupIndex
    else .ok (a1.setCont d ((a1.cont d).insert e.1 e.2))

/-- `new_from_iter`, ttgraph_macros/src/cate_arena.rs:324-336. -/
def newFromIter (l : List (NodeIndex × Node)) : Except Panic Arena := foldE newFromIterStep new l

end Arena

/-! ### The generated iterator (ttgraph_macros/src/cate_arena.rs:49-108) -/

/-- `next` of the generated discriminant, ttgraph_macros/src/cate_arena.rs:16-25. -/
def nextDisc (ds : List Ident) (d : Ident) : Option Ident :=
  match ds with
  | [] => none
  | x :: r => if x = d then r.head? else nextDisc r d

/-- Iterator state: the current variant and what is left of each container's iterator,
ttgraph_macros/src/cate_arena.rs:77-82. -/
structure Iter where
  state : Option Ident
  rest : Ident → List (NodeIndex × Node)

namespace Iter

/-- `iter()`, ttgraph_macros/src/cate_arena.rs:374-376 (`first` is the first variant, line 27). -/
def start (S : Schema) (a : Arena) : Iter := ⟨S.discs.head?, fun d => (a.cont d).entries⟩

/-- `next`, ttgraph_macros/src/cate_arena.rs:60-70, 87-92; the recursion visits every variant at most once, so the number of
variants plus one is enough fuel (`fuel` counts the remaining variants). -/
def next (S : Schema) (fuel : Nat) (it : Iter) : Option (NodeIndex × Node) × Iter :=
  match fuel with
  | 0 => (none, it)
  | fuel + 1 =>
    match it.state with
    | none => (none, it)
    | some d =>
      match it.rest d with
      | e :: r => (some e, { it with rest := fun d' => if d' = d then r else it.rest d' })
      | [] => next S fuel { it with state := nextDisc S.discs d }

/-- `size_hint` (both bounds are equal), ttgraph_macros/src/cate_arena.rs:93-95. -/
def sizeHint (S : Schema) (it : Iter) : Nat := (S.discs.map fun d => (it.rest d).length).sum

/-- Calling `next` until it returns `None`, at most `fuel` times: the items and the size hints before each call. -/
def drain (S : Schema) : Nat → Iter → List ((NodeIndex × Node) × Nat)
  | 0, _ => []
  | fuel + 1, it =>
    match next S (S.discs.length + 1) it with
    | (none, _) => []
    | (some e, it') => (e, it.sizeHint S) :: drain S fuel it'

end Iter
end TTGraph
