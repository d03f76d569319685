import Verif.Model.Graph

/-!
# The macros `get_node!`, `iter_nodes!`, `mut_node!`, `update_node!`, `alloc_node!` (src/typed_graph/macros.rs)
-/

set_option autoImplicit false

namespace TTGraph

/-- The struct inside a node of the enum, without the variant. -/
structure Payload where
  links : List LinkVal
  data : List DataVal
  deriving DecidableEq, Repr

/-- The struct inside a node. -/
def Node.payload (n : Node) : Payload := ⟨n.links, n.data⟩

/-- `$var(x)`: the node of variant `d` with the given struct. -/
def Payload.toNode (p : Payload) (d : Ident) : Node := ⟨d, p.links, p.data⟩

namespace Macros

/-- `get_node!(graph, d, i)`, src/typed_graph/macros.rs:37-45. -/
def getNode (g : Graph) (d : Ident) (i : NodeIndex) : Option Payload :=
  match g.get? i with
  | some n => if n.disc = d then some n.payload else none
  | none => none

/-- `iter_nodes!(graph, d)`, src/typed_graph/macros.rs:87-91, with all items consumed. -/
def iterNodes (g : Graph) (d : Ident) : Except Panic (List (NodeIndex × Payload)) :=
  (g.iterType d).mapM fun e => if e.2.disc = d then .ok (e.1, e.2.payload) else .error .typeMismatch

/-- The closure of `mut_node!(trans, d, i, |x| { .. })`, src/typed_graph/macros.rs:137-165: `f` changes the struct in place. -/
def mutClosure (d : Ident) (f : Payload → Except Panic Payload) : Closure := fun n =>
  if n.disc = d then (f n.payload).map fun p => ⟨n.disc, p.links, p.data⟩ else .error .typeMismatch

/-- The closure of `update_node!(trans, d, i, |x| { .. })`, src/typed_graph/macros.rs:213-241: the new struct is wrapped in the variant. -/
def updateClosure (d : Ident) (f : Payload → Except Panic Payload) : Closure := fun n =>
  if n.disc = d then (f n.payload).map fun p => p.toNode d else .error .typeMismatch

/-- `mut_node!`, src/typed_graph/macros.rs:137-165. -/
def mutNode (t : Trans) (d : Ident) (i : NodeIndex) (f : Payload → Except Panic Payload) : Except Panic Trans := t.mutate i (mutClosure d f)

/-- `update_node!`, src/typed_graph/macros.rs:213-241. -/
def updateNode (t : Trans) (d : Ident) (i : NodeIndex) (f : Payload → Except Panic Payload) : Except Panic Trans :=
  t.update i (updateClosure d f)

/-- `alloc_node!`, src/typed_graph/macros.rs:247-251. -/
def allocNode (t : Trans) (cnt : Nat) (d : Ident) : Except Panic (NodeIndex × Trans × Nat) := t.alloc cnt d

end Macros
end TTGraph
