import Verif.Model.Arena

/-!
# `Transaction` (src/typed_graph/transaction.rs)
-/

set_option autoImplicit false

namespace TTGraph

/-- A closure given to `mutate` or `update` (`MutFunc`, `UpdateFunc`, src/typed_graph.rs:859-862): it computes the new node or panics. -/
abbrev Closure := Node → Except Panic Node

/-- `Transaction`, src/typed_graph/transaction.rs:12-25. -/
structure Trans where
  ctxId : Nat
  allocs : OrderSet NodeIndex
  inc : Arena
  dec : OrderSet NodeIndex
  muts : List (NodeIndex × Closure)
  upds : List (NodeIndex × Closure)
  redirAll : List (NodeIndex × NodeIndex)
  redir : List (NodeIndex × NodeIndex)

namespace Trans

/-- `Transaction::new`, src/typed_graph/transaction.rs:58-70. -/
def new (ctxId : Nat) : Trans :=
  { ctxId, allocs := OrderSet.empty, inc := Arena.new, dec := OrderSet.empty, muts := [], upds := [], redirAll := [], redir := [] }

/-- `alloc`, src/typed_graph/transaction.rs:110-114. -/
def alloc (t : Trans) (cnt : Nat) (d : Ident) : Except Panic (NodeIndex × Trans × Nat) :=
  match t.inc.alloc cnt d with
  | .error e => .error e
  | .ok (idx, inc, cnt') => .ok (idx, { t with inc, allocs := t.allocs.insert idx }, cnt')

/-- `alloc_untyped`, src/typed_graph/transaction.rs:146-150. -/
def allocUntyped (t : Trans) (cnt : Nat) : NodeIndex × Trans × Nat :=
  let (idx, cnt') := Arena.allocUntyped cnt
  (idx, { t with allocs := t.allocs.insert idx }, cnt')

/-- `fill_back`, src/typed_graph/transaction.rs:153-156. -/
def fillBack (t : Trans) (i : NodeIndex) (n : Node) : Except Panic Trans :=
  match t.inc.fillBack i n with
  | .error e => .error e
  | .ok inc => .ok { t with inc, allocs := t.allocs.swapRemove i }

/-- `fill_back_untyped`, src/typed_graph/transaction.rs:159-162. -/
def fillBackUntyped (t : Trans) (i : NodeIndex) (n : Node) : Except Panic Trans :=
  match t.inc.fillBackUntyped i n with
  | .error e => .error e
  | .ok inc => .ok { t with inc, allocs := t.allocs.swapRemove i }

/-- `insert`, src/typed_graph/transaction.rs:189-191. -/
def insert (t : Trans) (cnt : Nat) (n : Node) : Except Panic (NodeIndex × Trans × Nat) :=
  match t.inc.insert cnt n with
  | .error e => .error e
  | .ok (idx, inc, cnt') => .ok (idx, { t with inc }, cnt')

/-- `extend`, src/typed_graph/transaction.rs:579-585.  The indices that `insert` returns are dropped there; here they are returned. -/
def extend (t : Trans) (cnt : Nat) (l : List Node) : Except Panic (Trans × Nat × List NodeIndex) :=
  foldE (fun (st : Trans × Nat × List NodeIndex) n =>
    match st.1.insert st.2.1 n with
    | .error e => .error e
    | .ok (i, t', cnt') => .ok (t', cnt', st.2.2 ++ [i])) (t, cnt, []) l

/-- `remove`, src/typed_graph/transaction.rs:227-231. -/
def remove (t : Trans) (i : NodeIndex) : Trans :=
  let (r, inc) := t.inc.remove i
  let t1 := { t with inc }
  match r with
  | some _ => t1
  | none =>
    if i ∈ t1.allocs then { t1 with allocs := t1.allocs.swapRemove i }
    else { t1 with dec := t1.dec.insert i }

/-- `mutate`, src/typed_graph/transaction.rs:274-282. -/
def mutate (t : Trans) (i : NodeIndex) (f : Closure) : Except Panic Trans :=
  if t.inc.contains i then
    match t.inc.modifyAt i (fun n => (f n).map (·, ())) with
    | .error e => .error e
    | .ok (inc, _) => .ok { t with inc }
  else .ok { t with muts := t.muts ++ [(i, f)] }

/-- `update`, src/typed_graph/transaction.rs:328-337. -/
def update (t : Trans) (i : NodeIndex) (f : Closure) : Except Panic Trans :=
  if t.inc.contains i then
    match t.inc.updateWith i f with
    | .error e => .error e
    | .ok inc => .ok { t with inc }
  else .ok { t with upds := t.upds ++ [(i, f)] }

/-- `redirect_all_links`, src/typed_graph/transaction.rs:387-389. -/
def redirectAllLinks (t : Trans) (old new : NodeIndex) : Trans := { t with redirAll := t.redirAll ++ [(old, new)] }

/-- `redirect_links`, src/typed_graph/transaction.rs:449-451. -/
def redirectLinks (t : Trans) (old new : NodeIndex) : Trans := { t with redir := t.redir ++ [(old, new)] }

/-- `is_empty`, src/typed_graph/transaction.rs:555-557. -/
def isEmpty (S : Schema) (t : Trans) : Bool :=
  t.allocs.isEmpty && decide (t.inc.len S = 0) && t.dec.isEmpty && t.muts.isEmpty && t.upds.isEmpty && t.redir.isEmpty &&
    t.redirAll.isEmpty

end Trans
end TTGraph
