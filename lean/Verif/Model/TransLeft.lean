import Verif.Model.World

/-!
# What a panicking method of a transaction leaves behind

The methods of `Transaction` take `&mut self`; a program that catches the panic can go on using the transaction.
-/

set_option autoImplicit false

namespace TTGraph

/-- The transaction after a call that panics.  `part` says what a panicking `mutate` closure has made of the node so far.

* `fill_back` (src/cate_arena.rs:80-88): the first two panics (81-84) come before any change; the third one (85-87) is raised after the node
  has been stored.  `alloc_nodes` is changed after that (src/typed_graph/transaction.rs:155).
* `fill_back_untyped` (ttgraph_macros/src/cate_arena.rs:356-362): the panic is raised after the dispatcher has been changed and the node stored.
* `mutate` (src/typed_graph/transaction.rs:278-280): the closure works in place.
* `update` (src/cate_arena.rs:98-105): the node has been taken out of its container when the closure is called.
* The other methods do not panic on transactions of a program (`C45_panics`); for them nothing is specified here. -/
def TOp.left (part : Node → Node) (t : Trans) : TOp → Trans
  | .fillBack i n =>
    match t.inc.disp.get? i with
    | none => t
    | some d => if n.disc ≠ d then t else { t with inc := t.inc.setCont d ((t.inc.cont d).insert i n) }
  | .fillBackUntyped i n =>
    let a1 := { t.inc with disp := t.inc.disp.insert i n.disc }
    { t with inc := a1.setCont n.disc ((a1.cont n.disc).insert i n) }
  | .mutate i _ =>
    match t.inc.modifyAt i (fun n => .ok (part n, ())) with
    | .error _ => t
    | .ok (inc, _) => { t with inc }
  | .update i _ =>
    match t.inc.disp.get? i with
    | none => t
    | some d => { t with inc := t.inc.setCont d ((t.inc.cont d).swapRemove i) }
  | _ => t

end TTGraph
