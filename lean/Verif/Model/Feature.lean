import Verif.Model.Switch
import Verif.Model.Serialize

/-!
# The cargo feature `debug` (Cargo.toml, on by default)

Without it, `add_link` and `remove_link` of the recorder do nothing (src/typed_graph.rs:781-782, 796-797), so `apply_bidirectional_links` and
`check_link_type` are given an empty record.  The steps below are the ones of `Verif.Model.Graph`; each gets an empty record and what it records is
thrown away, because no step looks at the record.

At this commit the crate does not build without the feature (`use check::*`, src/typed_graph.rs:32, names a module that is then left out), so these
definitions say what the code behind the feature would do.
-/

set_option autoImplicit false

namespace TTGraph
namespace Graph

/-- The operations of `do_commit`, src/typed_graph.rs:519-531, without the feature: all records are empty. -/
def operateOff [SetImpl] (S : Schema) (g : Graph) (t : Trans) : Except Panic Graph :=
  match redirectLinksVec g t.redir Lcr.new with
  | .error e => .error e
  | .ok (g1, _) =>
    let g2 := (mergeNodes S g1 t.inc Lcr.new).1
    match foldE (fun g (p : NodeIndex × Closure) => (modifyNode g p.1 p.2 Lcr.new).map Prod.fst) g2 t.muts with
    | .error e => .error e
    | .ok g3 =>
      match foldE (fun g (p : NodeIndex × Closure) => (updateNode g p.1 p.2 Lcr.new).map Prod.fst) g3 t.upds with
      | .error e => .error e
      | .ok g4 =>
        match redirectLinksVec g4 t.redirAll Lcr.new with
        | .error e => .error e
        | .ok (g5, _) => foldE (fun g x => (removeNode g x Lcr.new).map Prod.fst) g5 t.dec.elems

/-- `do_commit`, src/typed_graph.rs:515-536, without the feature. -/
def doCommitOff [SetImpl] (S : Schema) (dbg : Bool) (g : Graph) (t : Trans) : Except Panic Graph :=
  if dbg && decide (t.ctxId ≠ g.ctxId) then .error .ctxMismatch
  else if dbg && !t.allocs.isEmpty then .error .unfilledAlloc
  else
    match operateOff S g t with
    | .error e => .error e
    | .ok g6 => applyBidirectional S g6 Lcr.new

/-- `Graph::commit`, src/typed_graph.rs:423-426, without the feature. -/
def commitOff [SetImpl] (S : Schema) (dbg : Bool) (g : Graph) (t : Trans) : Except Panic Graph :=
  match doCommitOff S dbg g t with
  | .error e => .error e
  | .ok g' =>
    match checkLinkType S g' Lcr.new with
    | .error e => .error e
    | .ok _ => .ok g'

/-- `switch_context`, src/typed_graph.rs:450-476, without the feature. -/
def switchContextOff [SetImpl] (S : Schema) (g : Graph) (newId cnt : Nat) : Except Panic (Graph × Nat) :=
  match switchNodes S g cnt with
  | .error e => .error e
  | .ok (nodes, _, cnt') =>
    match applyBidirectional S (mergeNodes S (Graph.new newId) nodes Lcr.new).1 Lcr.new with
    | .error e => .error e
    | .ok g2 =>
      match checkLinkType S g2 Lcr.new with
      | .error e => .error e
      | .ok _ => .ok (g2, cnt')

/-- `do_deserialize`, src/typed_graph.rs:754-761, without the feature. -/
def doDeserializeOff [SetImpl] (S : Schema) (ctxId : Nat) (nodes : List (NodeIndex × Node)) : Except Panic Graph :=
  match Arena.newFromIter nodes with
  | .error e => .error e
  | .ok arena => applyBidirectional S (mergeNodes S (Graph.new ctxId) arena Lcr.new).1 Lcr.new

end Graph
end TTGraph
