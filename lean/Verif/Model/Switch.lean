import Verif.Model.Graph

/-!
# `switch_context`
-/

set_option autoImplicit false

namespace TTGraph
namespace Graph

/-- First loop of `switch_context`, src/typed_graph.rs:451-457: the nodes go into a new arena of the new context (counter `cnt`), `id_map`
sends old indices to new ones. -/
def switchInsert (S : Schema) (g : Graph) (cnt : Nat) : Except Panic (Arena × OrderMap NodeIndex NodeIndex × Nat) :=
  foldE (fun (st : Arena × OrderMap NodeIndex NodeIndex × Nat) (e : NodeIndex × Node) =>
    match st.1.insert st.2.2 e.2 with
    | .error p => .error p
    | .ok (new, a, cnt') => .ok (a, st.2.1.insert e.1 new, cnt')) (Arena.new, OrderMap.empty, cnt) (g.nodes.entries S)

/-- `new_nodes.get_mut(id_map[y]).unwrap().modify_link(*s, *id, *new_id)`, src/typed_graph.rs:461. -/
def switchLink [SetImpl] (idMap : OrderMap NodeIndex NodeIndex) (id new : NodeIndex) (a : Arena) (e : NodeIndex × Source) :
    Except Panic Arena :=
  match idMap.get? e.1 with
  | none => .error .switchMissing
  | some y' =>
    match a.modifyAt y' (fun n => n.modifyLink e.2 id new) with
    | .error p => .error p
    | .ok (a', _) => .ok a'

/-- Body of the second loop, src/typed_graph.rs:459-463. -/
def switchNode [SetImpl] (back : Back) (idMap : OrderMap NodeIndex NodeIndex) (a : Arena) (p : NodeIndex × NodeIndex) :
    Except Panic Arena :=
  match back.get? p.1 with
  | none => .error .switchMissing
  | some links => foldE (switchLink idMap p.1 p.2) a links.elems

/-- The two loops, src/typed_graph.rs:451-463. -/
def switchNodes [SetImpl] (S : Schema) (g : Graph) (cnt : Nat) : Except Panic (Arena × OrderMap NodeIndex NodeIndex × Nat) :=
  match switchInsert S g cnt with
  | .error e => .error e
  | .ok (a, idMap, cnt') =>
    match foldE (switchNode g.back idMap) a idMap.entries with
    | .error e => .error e
    | .ok a' => .ok (a', idMap, cnt')

/-- `switch_context`, src/typed_graph.rs:450-476: `newId` and `cnt` are the id and the counter of the new context. -/
def switchContext [SetImpl] (S : Schema) (g : Graph) (newId cnt : Nat) : Except Panic (Graph × Nat) :=
  match switchNodes S g cnt with
  | .error e => .error e
  | .ok (nodes, _, cnt') =>
    let (g1, r) := mergeNodes S (Graph.new newId) nodes Lcr.new
    match applyBidirectional S g1 r with
    | .error e => .error e
    | .ok g2 =>
      match checkLinkType S g2 r with
      | .error e => .error e
      | .ok _ => .ok (g2, cnt')

end Graph
end TTGraph
