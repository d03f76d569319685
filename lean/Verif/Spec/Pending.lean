import Verif.Spec.History

/-!
# What a transaction is going to do

The pending operations of a transaction, as its documentation names them, and the effect of each method on them.
-/

set_option autoImplicit false

namespace TTGraph

/-- Pending operations. -/
structure Pending where
  /-- nodes to be inserted -/
  new : View
  /-- allocated indices that are not filled -/
  unfilled : NodeIndex → Prop
  /-- nodes of the graph to be removed -/
  removed : NodeIndex → Prop
  /-- `mutate` and `update` closures for nodes of the graph, in call order -/
  muts : List (NodeIndex × Closure)
  upds : List (NodeIndex × Closure)
  /-- requests of `redirect_all_links` and `redirect_links`, in call order -/
  redirAll : List (NodeIndex × NodeIndex)
  redir : List (NodeIndex × NodeIndex)

/-- The pending operations of a transaction. -/
def Trans.pending (t : Trans) : Pending :=
  ⟨t.inc.get?, (· ∈ t.allocs), (· ∈ t.dec), t.muts, t.upds, t.redirAll, t.redir⟩

namespace Spec

/-- `v` with the entry `i` replaced. -/
def upd (v : View) (i : NodeIndex) (o : Option Node) : View := fun j => if j = i then o else v j

/-- The nodes `ns` are added under the indices `l`, which are not in use. -/
def Adds : List Node → List NodeIndex → View → View → Prop
  | [], [], v, v' => v' = v
  | n :: ns, i :: l, v, v' => v i = none ∧ Adds ns l (upd v i (some n)) v'
  | _, _, _, _ => False

/-- The effect of a method that returns the indices `l`. -/
def Effect (o : TOp) (l : List NodeIndex) (p p' : Pending) : Prop :=
  match o with
  | .insert n => ∃ i, l = [i] ∧ p.new i = none ∧ p' = { p with new := upd p.new i (some n) }
  | .extend ns => ∃ v, Adds ns l p.new v ∧ p' = { p with new := v }
  | .alloc _ => ∃ i, l = [i] ∧ ¬ p.unfilled i ∧ p.new i = none ∧ p' = { p with unfilled := fun j => j = i ∨ p.unfilled j }
  | .allocUntyped => ∃ i, l = [i] ∧ ¬ p.unfilled i ∧ p.new i = none ∧ p' = { p with unfilled := fun j => j = i ∨ p.unfilled j }
  | .fillBack i n => l = [] ∧ p.new i = none ∧ p' = { p with new := upd p.new i (some n), unfilled := fun j => p.unfilled j ∧ j ≠ i }
  | .fillBackUntyped i n => l = [] ∧ p.new i = none ∧ p' = { p with new := upd p.new i (some n), unfilled := fun j => p.unfilled j ∧ j ≠ i }
  | .remove i => l = [] ∧
      ((p.new i ≠ none ∧ p' = { p with new := upd p.new i none }) ∨
       (p.new i = none ∧ p.unfilled i ∧ p' = { p with unfilled := fun j => p.unfilled j ∧ j ≠ i }) ∨
       (p.new i = none ∧ ¬ p.unfilled i ∧ p' = { p with removed := fun j => j = i ∨ p.removed j }))
  | .mutate i f => l = [] ∧
      ((p.new i = none ∧ p' = { p with muts := p.muts ++ [(i, f)] }) ∨
       ∃ n n', p.new i = some n ∧ f n = .ok n' ∧ p' = { p with new := upd p.new i (some n') })
  | .update i f => l = [] ∧
      ((p.new i = none ∧ p' = { p with upds := p.upds ++ [(i, f)] }) ∨
       ∃ n n', p.new i = some n ∧ f n = .ok n' ∧ p' = { p with new := upd p.new i (some n') })
  | .redirectAllLinks old new => l = [] ∧ p' = { p with redirAll := p.redirAll ++ [(old, new)] }
  | .redirectLinks old new => l = [] ∧ p' = { p with redir := p.redir ++ [(old, new)] }

/-- The node that a method is called on. -/
def target : TOp → Option NodeIndex
  | .fillBack i _ => some i
  | .fillBackUntyped i _ => some i
  | .remove i => some i
  | .mutate i _ => some i
  | .update i _ => some i
  | _ => none

/-- The kinds of calls: those that only build new nodes, and five kinds that can concern nodes of the graph. -/
inductive Kind | build | remove | mutate | update | redirectAll | redirect
  deriving DecidableEq

/-- The kind of a call. -/
def kind : TOp → Kind
  | .remove _ => .remove
  | .mutate _ _ => .mutate
  | .update _ _ => .update
  | .redirectAllLinks _ _ => .redirectAll
  | .redirectLinks _ _ => .redirect
  | _ => .build

/-- The same operations, but the redirects of each kind requested in another order. -/
structure Reordered (p p' : Pending) : Prop where
  new : p'.new = p.new
  unfilled : p'.unfilled = p.unfilled
  removed : p'.removed = p.removed
  muts : p'.muts = p.muts
  upds : p'.upds = p.upds
  redirAll : p.redirAll.Perm p'.redirAll
  redir : p.redir.Perm p'.redir

/-- The calls of one kind, in order. -/
def ofKind (k : Kind) (os : List TOp) : List TOp := os.filter fun o => decide (kind o = k)

end Spec

/-- A sequence of method calls on a transaction: the transaction and the counter afterwards, and the indices that each call returned. -/
def runOps (t : Trans) (cnt : Nat) : List TOp → Except Panic (Trans × Nat × List (List NodeIndex))
  | [] => .ok (t, cnt, [])
  | o :: os =>
    match o.run t cnt with
    | .error e => .error e
    | .ok (t', cnt', l) =>
      match runOps t' cnt' os with
      | .error e => .error e
      | .ok (t'', cnt'', ls) => .ok (t'', cnt'', l :: ls)

/-- Every call of the sequence is allowed when it is made. -/
def OpsAllowed (S : Schema) (t : Trans) (cnt : Nat) : List TOp → Prop
  | [] => True
  | o :: os => o.Allowed S t ∧ ∀ t' cnt' l, o.run t cnt = .ok (t', cnt', l) → OpsAllowed S t' cnt' os

end TTGraph
