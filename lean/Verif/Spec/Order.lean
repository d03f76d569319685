import Verif.Spec.Pending

/-!
# The order in which nodes are iterated

`iter_type` yields the nodes of a variant in an order that is determined by the calls of the program.  This file says how.
-/

set_option autoImplicit false

namespace TTGraph

/-- What of the pending operations matters for the order of nodes. -/
structure Orders where
  /-- the new nodes of each variant, in the order in which they will be appended -/
  new : Ident → List NodeIndex
  /-- the nodes of the graph to be updated, in call order -/
  updated : List NodeIndex
  /-- the nodes of the graph to be removed, in call order -/
  removed : List NodeIndex

/-- The orders of a transaction. -/
def Trans.orders (t : Trans) : Orders := ⟨fun d => (t.inc.cont d).keys, t.upds.map Prod.fst, t.dec.elems⟩

/-- The indices that `iter_type` yields, in order. -/
def Graph.order (g : Graph) (d : Ident) : List NodeIndex := (g.iterType d).map Prod.fst

namespace Spec

/-- `x` is taken out of the list; the last element takes its place. -/
def swapOut (x : NodeIndex) : List NodeIndex → List NodeIndex
  | [] => []
  | y :: r =>
    if y = x then
      match r.getLast? with
      | none => []
      | some z => z :: r.dropLast
    else y :: swapOut x r

/-- `x`, if it is in the list, goes to the end; the last element takes its place. -/
def toEnd (x : NodeIndex) (l : List NodeIndex) : List NodeIndex := if x ∈ l then swapOut x l ++ [x] else l

/-- Append `i` to the list of the variant `d`. -/
def appendTo (new : Ident → List NodeIndex) (d : Ident) (i : NodeIndex) : Ident → List NodeIndex :=
  fun d' => if d' = d then new d' ++ [i] else new d'

/-- Append the indices `l` of the nodes `ns`. -/
def appendAll : List Node → List NodeIndex → (Ident → List NodeIndex) → Ident → List NodeIndex
  | n :: ns, i :: l, new => appendAll ns l (appendTo new n.disc i)
  | _, _, new => new

/-- The effect on the orders of a method that returns the indices `l`; `p` is what was pending before. -/
def OrderEffect (o : TOp) (l : List NodeIndex) (p : Pending) (q q' : Orders) : Prop :=
  match o with
  | .insert n => ∃ i, l = [i] ∧ q' = { q with new := appendTo q.new n.disc i }
  | .extend ns => q' = { q with new := appendAll ns l q.new }
  | .fillBack i n => q' = { q with new := appendTo q.new n.disc i }
  | .fillBackUntyped i n => q' = { q with new := appendTo q.new n.disc i }
  | .remove i =>
      (p.new i ≠ none ∧ q' = { q with new := fun d => swapOut i (q.new d) }) ∨
      (p.new i = none ∧ (p.unfilled i ∨ p.removed i) ∧ q' = q) ∨
      (p.new i = none ∧ ¬ p.unfilled i ∧ ¬ p.removed i ∧ q' = { q with removed := q.removed ++ [i] })
  | .update i _ =>
      (p.new i ≠ none ∧ q' = { q with new := fun d => toEnd i (q.new d) }) ∨
      (p.new i = none ∧ q' = { q with updated := q.updated ++ [i] })
  | _ => q' = q

/-- The order of the nodes of a variant after a commit: the new nodes follow the old ones, updated nodes move to the end, removed nodes are
replaced by the last one. -/
def orderAfter (old : List NodeIndex) (d : Ident) (q : Orders) : List NodeIndex :=
  q.removed.foldl (fun l x => swapOut x l) (q.updated.foldl (fun l x => toEnd x l) (old ++ q.new d))

end Spec
end TTGraph
