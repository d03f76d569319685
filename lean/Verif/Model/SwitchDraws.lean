import Verif.Model.Switch

/-!
# `switch_context` while other threads draw indices from the new context

`switch_context` inserts the nodes one by one, and every insertion draws an index from the counter of the new context with a `fetch_add` of
its own.  Other threads may draw indices in between.  `Model/Switch.lean` has the case in which they do not.
-/

set_option autoImplicit false

namespace TTGraph
namespace Graph

/-- First loop of `switch_context`, src/typed_graph.rs:451-457.  `draws` has the value of the counter that each `fetch_add` finds
(src/id_distributer.rs:14-17, through `CateArena::insert`, src/cate_arena.rs:72-79), in the order of the insertions. -/
def switchInsertDraws (S : Schema) (g : Graph) (draws : List Nat) : Except Panic (Arena × OrderMap NodeIndex NodeIndex) :=
  foldE (fun (st : Arena × OrderMap NodeIndex NodeIndex) (e : (NodeIndex × Node) × Nat) =>
    match st.1.insert e.2 e.1.2 with
    | .error p => .error p
    | .ok (new, a, _) => .ok (a, st.2.insert e.1.1 new)) (Arena.new, OrderMap.empty) ((g.nodes.entries S).zip draws)

/-- `switch_context`, src/typed_graph.rs:450-476, with the given draws. -/
def switchContextDraws [SetImpl] (S : Schema) (g : Graph) (newId : Nat) (draws : List Nat) : Except Panic Graph :=
  match switchInsertDraws S g draws with
  | .error e => .error e
  | .ok (a, idMap) =>
    match foldE (switchNode g.back idMap) a idMap.entries with
    | .error e => .error e
    | .ok nodes =>
      let (g1, r) := mergeNodes S (Graph.new newId) nodes Lcr.new
      match applyBidirectional S g1 r with
      | .error e => .error e
      | .ok g2 =>
        match checkLinkType S g2 r with
        | .error e => .error e
        | .ok _ => .ok g2

end Graph
end TTGraph
