import Verif.Model.World

/-!
# Counters that wrap around

In the rest of the model the counter of a context is a natural number.  Here are the functions that draw indices once more, on a machine whose
`usize` has `W` values (`W = 2^64` or `2^32`).  The parameter `chk` says whether arithmetic overflow panics (it does in a debug build).  The
counter is advanced before anything panics, so a function returns the counter whether or not it panics.
-/

set_option autoImplicit false

namespace TTGraph

/-- `IdDistributer::alloc`, src/id_distributer.rs:14-17.  `fetch_add` (15) wraps around; `c + 1` (16) panics or wraps around. -/
def idAllocW (W : Nat) (chk : Bool) (cnt : Nat) : Nat × Except Panic NodeIndex :=
  ((cnt + 1) % W, if chk && decide (W ≤ cnt + 1) then .error .overflow else .ok ((cnt + 1) % W))

/-- `alloc`, ttgraph_macros/src/cate_arena.rs:346-352. -/
def Arena.allocW (W : Nat) (chk : Bool) (a : Arena) (cnt : Nat) (d : Ident) : Nat × Except Panic (NodeIndex × Arena) :=
  match idAllocW W chk cnt with
  | (cnt', .error e) => (cnt', .error e)
  | (cnt', .ok idx) => (cnt', if a.disp.contains idx then .error .dupAlloc else .ok (idx, { a with disp := a.disp.insert idx d }))

/-- `insert`, src/cate_arena.rs:72-79. -/
def Arena.insertW (W : Nat) (chk : Bool) (a : Arena) (cnt : Nat) (n : Node) : Nat × Except Panic (NodeIndex × Arena) :=
  match a.allocW W chk cnt n.disc with
  | (cnt', .error e) => (cnt', .error e)
  | (cnt', .ok (idx, a1)) =>
    (cnt', if (a1.cont n.disc).contains idx then .error .allocExists else .ok (idx, a1.setCont n.disc ((a1.cont n.disc).insert idx n)))

namespace Trans

/-- `alloc`, src/typed_graph/transaction.rs:110-114. -/
def allocW (W : Nat) (chk : Bool) (t : Trans) (cnt : Nat) (d : Ident) : Nat × Except Panic (NodeIndex × Trans) :=
  match t.inc.allocW W chk cnt d with
  | (cnt', .error e) => (cnt', .error e)
  | (cnt', .ok (idx, inc)) => (cnt', .ok (idx, { t with inc, allocs := t.allocs.insert idx }))

/-- `alloc_untyped`, src/typed_graph/transaction.rs:146-150, ttgraph_macros/src/cate_arena.rs:353-355. -/
def allocUntypedW (W : Nat) (chk : Bool) (t : Trans) (cnt : Nat) : Nat × Except Panic (NodeIndex × Trans) :=
  match idAllocW W chk cnt with
  | (cnt', .error e) => (cnt', .error e)
  | (cnt', .ok idx) => (cnt', .ok (idx, { t with allocs := t.allocs.insert idx }))

/-- `insert`, src/typed_graph/transaction.rs:189-191. -/
def insertW (W : Nat) (chk : Bool) (t : Trans) (cnt : Nat) (n : Node) : Nat × Except Panic (NodeIndex × Trans) :=
  match t.inc.insertW W chk cnt n with
  | (cnt', .error e) => (cnt', .error e)
  | (cnt', .ok (idx, inc)) => (cnt', .ok (idx, { t with inc }))

/-- `extend`, src/typed_graph/transaction.rs:579-585; with the indices of the nodes. -/
def extendW (W : Nat) (chk : Bool) (t : Trans) (cnt : Nat) : List Node → Nat × Except Panic (Trans × List NodeIndex)
  | [] => (cnt, .ok (t, []))
  | n :: l =>
    match t.insertW W chk cnt n with
    | (cnt', .error e) => (cnt', .error e)
    | (cnt', .ok (i, t')) =>
      match extendW W chk t' cnt' l with
      | (cnt'', .error e) => (cnt'', .error e)
      | (cnt'', .ok (t'', is)) => (cnt'', .ok (t'', i :: is))

end Trans

/-- The methods of a transaction.  Those that draw no index are as before. -/
def TOp.runW (W : Nat) (chk : Bool) (t : Trans) (cnt : Nat) : TOp → Nat × Except Panic (Trans × List NodeIndex)
  | .insert n => let r := t.insertW W chk cnt n; (r.1, r.2.map fun r => (r.2, [r.1]))
  | .extend l => t.extendW W chk cnt l
  | .alloc d => let r := t.allocW W chk cnt d; (r.1, r.2.map fun r => (r.2, [r.1]))
  | .allocUntyped => let r := t.allocUntypedW W chk cnt; (r.1, r.2.map fun r => (r.2, [r.1]))
  | o => (cnt, (o.run t cnt).map fun r => (r.1, r.2.2))

namespace Graph

/-- First loop of `switch_context`, src/typed_graph.rs:451-457. -/
def switchInsertW (W : Nat) (chk : Bool) (st : Arena × OrderMap NodeIndex NodeIndex) (cnt : Nat) :
    List (NodeIndex × Node) → Nat × Except Panic (Arena × OrderMap NodeIndex NodeIndex)
  | [] => (cnt, .ok st)
  | e :: l =>
    match st.1.insertW W chk cnt e.2 with
    | (cnt', .error p) => (cnt', .error p)
    | (cnt', .ok (new, a)) => switchInsertW W chk (a, st.2.insert e.1 new) cnt' l

/-- The rest of `switch_context`, src/typed_graph.rs:458-476. -/
def switchRest [SetImpl] (S : Schema) (g : Graph) (newId : Nat) (st : Arena × OrderMap NodeIndex NodeIndex) : Except Panic Graph :=
  match foldE (switchNode g.back st.2) st.1 st.2.entries with
  | .error e => .error e
  | .ok nodes =>
    let (g1, r) := mergeNodes S (Graph.new newId) nodes Lcr.new
    match applyBidirectional S g1 r with
    | .error e => .error e
    | .ok g2 =>
      match checkLinkType S g2 r with
      | .error e => .error e
      | .ok _ => .ok g2

end Graph

namespace World

/-- The effect of one call.  `deserialize_graph` sets the counter to the largest index of the file (src/typed_graph/serialize.rs:106-113), which
is a `usize`; the calls that draw no index are as before. -/
def execW [SetImpl] (W : Nat) (chk : Bool) (S : Schema) (dbg : Bool) (w : World) : Call → World
  | .op k o =>
    match w.trans k with
    | some (c, t) =>
      match w.ctx c with
      | some x =>
        match o.runW W chk t x.cnt with
        | (cnt, .ok (t', l)) => (w.issue c x cnt l).setTrans k (some (c, t'))
        | (cnt, .error _) => (w.issue c x cnt []).setTrans k none
      | none => w
    | none => w
  | .switchContext g c =>
    match w.graph g, w.ctx c with
    | some (_, gr), some x =>
      match Graph.switchInsertW W chk (Arena.new, OrderMap.empty) x.cnt (gr.nodes.entries S) with
      | (cnt, .error _) => (w.issue c x cnt []).setGraph g none
      | (cnt, .ok st) =>
        let w1 := w.issue c x cnt (st.2.entries.map Prod.snd)
        match gr.switchRest S x.uuid st with
        | .ok gr' => w1.setGraph g (some (c, gr'))
        | .error _ => w1.setGraph g none
    | _, _ => w
  | call => w.exec S dbg call

end World
end TTGraph
