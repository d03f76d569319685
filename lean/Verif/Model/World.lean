import Verif.Model.Check
import Verif.Model.Switch
import Verif.Model.Serialize
import Verif.Model.Unwind

/-!
# Programs that use the API

A world holds the contexts, graphs and transactions that a program has at one moment, under handles (natural numbers).  `exec` is the effect
of one API call.  Calls of several threads are interleaved; a transaction is owned by one thread, and the only thing shared is the counter of
a context, which every call reads and advances atomically (`Model/Ids.lean` has the interleaving of single
`fetch_add`s; an `extend` that another thread interrupts is a sequence of `insert`s here).

A call that panics drops the objects that it owns or has borrowed mutably.  The exception is `commitCaught`: a commit whose panic, if any, the
program catches, to go on with the graph it finds (`Model/Unwind.lean`).
-/

set_option autoImplicit false

namespace TTGraph

/-- `Context`, src/typed_graph.rs:866-869.  Clones of a context share the counter and are the same handle. -/
structure Ctx where
  uuid : Nat
  cnt : Nat

/-- The calls that build a transaction. -/
inductive TOp
  | insert (n : Node)
  | extend (l : List Node)
  | alloc (d : Ident)
  | allocUntyped
  | fillBack (i : NodeIndex) (n : Node)
  | fillBackUntyped (i : NodeIndex) (n : Node)
  | remove (i : NodeIndex)
  | mutate (i : NodeIndex) (f : Closure)
  | update (i : NodeIndex) (f : Closure)
  | redirectAllLinks (old new : NodeIndex)
  | redirectLinks (old new : NodeIndex)

/-- The effect of such a call on the transaction and the counter, and the indices it hands out. -/
def TOp.run (t : Trans) (cnt : Nat) : TOp → Except Panic (Trans × Nat × List NodeIndex)
  | .insert n => (t.insert cnt n).map fun r => (r.2.1, r.2.2, [r.1])
  | .extend l => t.extend cnt l
  | .alloc d => (t.alloc cnt d).map fun r => (r.2.1, r.2.2, [r.1])
  | .allocUntyped => let r := t.allocUntyped cnt; .ok (r.2.1, r.2.2, [r.1])
  | .fillBack i n => (t.fillBack i n).map fun t' => (t', cnt, [])
  | .fillBackUntyped i n => (t.fillBackUntyped i n).map fun t' => (t', cnt, [])
  | .remove i => .ok (t.remove i, cnt, [])
  | .mutate i f => (t.mutate i f).map fun t' => (t', cnt, [])
  | .update i f => (t.update i f).map fun t' => (t', cnt, [])
  | .redirectAllLinks old new => .ok (t.redirectAllLinks old new, cnt, [])
  | .redirectLinks old new => .ok (t.redirectLinks old new, cnt, [])

/-- The objects of a program.  `graph` and `trans` also record the context whose counter the object shares; `issued` is the history of the
indices handed out by each context. -/
structure World where
  ctx : Nat → Option Ctx
  graph : Nat → Option (Nat × Graph)
  trans : Nat → Option (Nat × Trans)
  issued : Nat → List NodeIndex

/-- One API call. -/
inductive Call
  /-- `Context::new()`; `u` is the random id. -/
  | newContext (c u : Nat)
  /-- `Context::default()` -/
  | defaultContext (c : Nat)
  /-- `Graph::new(&c)` -/
  | newGraph (g c : Nat)
  /-- `Transaction::new(&c)` -/
  | newTrans (k c : Nat)
  /-- a method of `Transaction` -/
  | op (k : Nat) (o : TOp)
  /-- `k.merge(g)` -/
  | merge (k g : Nat)
  /-- `g.commit(k)` -/
  | commit (g k : Nat)
  /-- `g.commit_checked(k, checks)` -/
  | commitChecked (g k : Nat) (checks : GraphCheck)
  /-- `g.commit(k)` or `g.commit_checked(k, ..)` inside `catch_unwind`: the program goes on with `g`, whether or not the call panics.  The
  checks only read the graph, so both calls leave the same graph. -/
  | commitCaught (g k : Nat)
  /-- `k.give_up()` or drop -/
  | dropTrans (k : Nat)
  /-- drop, `into_iter` or `GraphSerializer::from` -/
  | dropGraph (g : Nat)
  /-- `g = g.switch_context(&c)` -/
  | switchContext (g c : Nat)
  /-- `(c, g) = deserialize_graph(input)` -/
  | deserialize (g c : Nat) (input : GraphSerializer)

namespace World

/-- The start of a program. -/
def init : World := ⟨fun _ => none, fun _ => none, fun _ => none, fun _ => []⟩

/-- Change one entry of a table. -/
def put {α : Type} (f : Nat → α) (k : Nat) (v : α) : Nat → α := fun j => if j = k then v else f j

/-- Create a context with counter `cnt` (src/typed_graph.rs:866-886). -/
def addCtx (w : World) (c u cnt : Nat) : World := { w with ctx := put w.ctx c (some ⟨u, cnt⟩) }

/-- Advance the counter of a context and record the indices it handed out. -/
def issue (w : World) (c : Nat) (x : Ctx) (cnt : Nat) (l : List NodeIndex) : World :=
  { w with ctx := put w.ctx c (some { x with cnt }), issued := put w.issued c (w.issued c ++ l) }

/-- Store a graph (`none`: it is dropped). -/
def setGraph (w : World) (g : Nat) (v : Option (Nat × Graph)) : World := { w with graph := put w.graph g v }

/-- Store a transaction (`none`: it is dropped). -/
def setTrans (w : World) (k : Nat) (v : Option (Nat × Trans)) : World := { w with trans := put w.trans k v }

/-- The effect of one call.  A call that names an object that does not exist cannot be written in Rust; it has no effect here. -/
def exec [SetImpl] (S : Schema) (dbg : Bool) (w : World) : Call → World
  | .newContext c u => w.addCtx c u 0
  | .defaultContext c => w.addCtx c 0 0
  | .newGraph g c =>
    match w.ctx c with
    | some x => w.setGraph g (some (c, Graph.new x.uuid))
    | none => w
  | .newTrans k c =>
    match w.ctx c with
    | some x => w.setTrans k (some (c, Trans.new x.uuid))
    | none => w
  | .op k o =>
    match w.trans k with
    | some (c, t) =>
      match w.ctx c with
      | some x =>
        match o.run t x.cnt with
        | .ok (t', cnt, l) => (w.issue c x cnt l).setTrans k (some (c, t'))
        | .error _ => w.setTrans k none
      | none => w
    | none => w
  | .merge k g =>
    match w.trans k, w.graph g with
    | some (c, t), some (_, gr) =>
      match t.merge gr with
      | .ok t' => (w.setTrans k (some (c, t'))).setGraph g none
      | .error _ => (w.setTrans k none).setGraph g none
    | _, _ => w
  | .commit g k =>
    match w.trans k, w.graph g with
    | some (_, t), some (c, gr) =>
      match gr.commit S dbg t with
      | .ok gr' => (w.setTrans k none).setGraph g (some (c, gr'))
      | .error _ => (w.setTrans k none).setGraph g none
    | _, _ => w
  | .commitChecked g k checks =>
    match w.trans k, w.graph g with
    | some (_, t), some (c, gr) =>
      match gr.commitChecked S dbg t checks with
      | .ok gr' => (w.setTrans k none).setGraph g (some (c, gr'))
      | .error _ => (w.setTrans k none).setGraph g none
    | _, _ => w
  | .commitCaught g k =>
    match w.trans k, w.graph g with
    | some (_, t), some (c, gr) => (w.setTrans k none).setGraph g ((gr.commitLeft S dbg t).map fun gr' => (c, gr'))
    | _, _ => w
  | .dropTrans k => w.setTrans k none
  | .dropGraph g => w.setGraph g none
  | .switchContext g c =>
    match w.graph g, w.ctx c with
    | some (_, gr), some x =>
      match gr.switchInsert S x.cnt with
      | .error _ => w.setGraph g none
      | .ok (_, idMap, cnt) =>
        let w1 := w.issue c x cnt (idMap.entries.map Prod.snd)
        match gr.switchContext S x.uuid x.cnt with
        | .ok (gr', _) => w1.setGraph g (some (c, gr'))
        | .error _ => w1.setGraph g none
    | _, _ => w
  | .deserialize g c input =>
    match Graph.deserializeGraph S input with
    | .ok (cnt, gr) => (w.addCtx c input.ctxId cnt).setGraph g (some (c, gr))
    | .error _ => w

end World
end TTGraph
