import Verif.Spec.History

/-!
# The protocol of `alloc`, `alloc_untyped`, `fill_back`

What the caller of a transaction's methods knows about an index, from the calls made so far and the indices they returned.
-/

set_option autoImplicit false

namespace TTGraph
namespace Spec

/-- The state of an index in a transaction. -/
inductive Slot
  /-- not handed out by this transaction, or withdrawn by `remove` -/
  | unknown
  /-- handed out by `alloc_untyped`, not filled -/
  | untyped
  /-- handed out by `alloc` for the variant `d`, not filled -/
  | reserved (d : Ident)
  /-- a node of the transaction -/
  | filled
  deriving DecidableEq

/-- A call that returned: a method with the indices it handed out, or `merge` of a graph. -/
inductive Event
  | op (o : TOp) (l : List NodeIndex)
  | merged (g : Graph)

/-- The state of the index `i` after a call. -/
def Event.slot (i : NodeIndex) (s : Slot) : Event → Slot
  | .op (.insert _) l => if i ∈ l then .filled else s
  | .op (.extend _) l => if i ∈ l then .filled else s
  | .op (.alloc d) l => if i ∈ l then .reserved d else s
  | .op .allocUntyped l => if i ∈ l then .untyped else s
  | .op (.fillBack j _) _ => if i = j then .filled else s
  | .op (.fillBackUntyped j _) _ => if i = j then .filled else s
  | .op (.remove j) _ => if i = j then .unknown else s
  | .op _ _ => s
  | .merged g => if (g.get? i).isSome then .filled else s

/-- The state of the index `i` after a sequence of calls. -/
def slotAfter (tr : List Event) (i : NodeIndex) : Slot := tr.foldl (fun s e => e.slot i s) .unknown

end Spec
open Spec

/-- Record a call in the trace of its transaction. -/
def record (w : World) (tr : Nat → List Event) : Call → Nat → List Event
  | .newTrans k _ => World.put tr k []
  | .op k o =>
    match w.trans k with
    | some (c, t) =>
      match w.ctx c with
      | some x =>
        match o.run t x.cnt with
        | .ok (_, _, l) => World.put tr k (tr k ++ [.op o l])
        | .error _ => tr
      | none => tr
    | none => tr
  | .merge k g =>
    match w.graph g with
    | some (_, gr) => World.put tr k (tr k ++ [.merged gr])
    | none => tr
  | _ => tr

/-- The worlds that a program reaches, with the calls made so far on each transaction. -/
inductive Traced [SetImpl] (S : Schema) (dbg : Bool) (R : World → Call → Prop) : World → (Nat → List Event) → Prop
  | init : Traced S dbg R World.init (fun _ => [])
  | step {w : World} {tr : Nat → List Event} {c : Call} : Traced S dbg R w tr → c.Allowed S w → R w c →
      Traced S dbg R (w.exec S dbg c) (record w tr c)

end TTGraph
