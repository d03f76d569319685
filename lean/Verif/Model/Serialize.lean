import Verif.Model.Graph

/-!
# Serialization (src/typed_graph/serialize.rs)

The value that serde writes and reads is `GraphSerializer`; the byte format is not modelled: a value that is written is read back unchanged.
-/

set_option autoImplicit false

namespace TTGraph

/-- `GraphSerializer`, src/typed_graph/serialize.rs:46-52. -/
structure GraphSerializer where
  ctxId : Nat
  nodes : List (NodeIndex × Node)

namespace Graph

/-- `From<Graph> for GraphSerializer` and `Serialize for Graph`, src/typed_graph/serialize.rs:54-101: both write the context id and the
sequence of `iter()`. -/
def serialize (S : Schema) (g : Graph) : GraphSerializer := ⟨g.ctxId, g.iter S⟩

/-- `do_deserialize`, src/typed_graph.rs:754-761. -/
def doDeserialize [SetImpl] (S : Schema) (ctxId : Nat) (nodes : List (NodeIndex × Node)) : Except Panic Graph :=
  match Arena.newFromIter nodes with
  | .error e => .error e
  | .ok arena =>
    let (g, r) := mergeNodes S (Graph.new ctxId) arena Lcr.new
    applyBidirectional S g r

/-- The counter of the new context, src/typed_graph/serialize.rs:109: the largest index of a node, 0 if there is none. -/
def maxIndex (nodes : List (NodeIndex × Node)) : Nat := nodes.foldl (fun m e => max m e.1) 0

/-- `deserialize_graph`, src/typed_graph/serialize.rs:106-113: the counter of the new context and the graph. -/
def deserializeGraph [SetImpl] (S : Schema) (input : GraphSerializer) : Except Panic (Nat × Graph) :=
  match doDeserialize S input.ctxId input.nodes with
  | .error e => .error e
  | .ok g => .ok (maxIndex input.nodes, g)

end Graph
end TTGraph
