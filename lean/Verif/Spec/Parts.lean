import Verif.Spec.Rerun

/-!
# Parts of a program that have nothing to do with each other
-/

set_option autoImplicit false

namespace TTGraph
namespace Spec

/-- The objects of a program are divided into parts: to which part each context, graph and transaction belongs. -/
structure Parts where
  ctx : Nat → Nat
  graph : Nat → Nat
  trans : Nat → Nat

/-- The call names only objects of part `i`. -/
def Within (o : Parts) (i : Nat) : Call → Prop
  | .newContext c _ => o.ctx c = i
  | .defaultContext c => o.ctx c = i
  | .newGraph g c => o.graph g = i ∧ o.ctx c = i
  | .newTrans k c => o.trans k = i ∧ o.ctx c = i
  | .op k _ => o.trans k = i
  | .merge k g => o.trans k = i ∧ o.graph g = i
  | .commit g k => o.graph g = i ∧ o.trans k = i
  | .commitChecked g k _ => o.graph g = i ∧ o.trans k = i
  | .commitCaught g k => o.graph g = i ∧ o.trans k = i
  | .dropTrans k => o.trans k = i
  | .dropGraph g => o.graph g = i
  | .switchContext g c => o.graph g = i ∧ o.ctx c = i
  | .deserialize g c _ => o.graph g = i ∧ o.ctx c = i

/-- A program that makes the calls one after the other. -/
def execAll [SetImpl] (S : Schema) (dbg : Bool) (w : World) (l : List Call) : World := l.foldl (fun w c => w.exec S dbg c) w

/-- The calls of part `i`, in their order, without those of the other parts in between. -/
def callsOf (i : Nat) (l : List (Nat × Call)) : List Call := (l.filter fun e => e.1 = i).map Prod.snd

/-- Every object of part `i` is the same in both programs, or exists in neither; its contexts have handed out the same indices. -/
structure SamePart (o : Parts) (i : Nat) (w w2 : World) : Prop where
  ctx : ∀ c, o.ctx c = i → w2.ctx c = w.ctx c
  issued : ∀ c, o.ctx c = i → w2.issued c = w.issued c
  graph : ∀ g, o.graph g = i → w2.graph g = w.graph g
  trans : ∀ k, o.trans k = i → w2.trans k = w.trans k

end Spec
end TTGraph
