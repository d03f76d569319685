import Verif.Model.Trans

/-!
# `Graph` (src/typed_graph.rs)
-/

set_option autoImplicit false

namespace TTGraph

/-- The back-link map, src/typed_graph.rs:133. -/
abbrev Back := OrderMap NodeIndex (OrderSet (NodeIndex × Source))

/-- A link change `(x, y, l)`: the field `l` of `x` and the target `y`. -/
abbrev Change := NodeIndex × NodeIndex × Mirror

/-- `LinkChangeRecorder`, src/typed_graph.rs:764-767. -/
structure Lcr where
  adds : OrderSet Change
  removes : OrderSet Change

namespace Lcr

/-- `LinkChangeRecorder::default`, src/typed_graph.rs:799-806. -/
def new : Lcr := ⟨OrderSet.empty, OrderSet.empty⟩

/-- `LinkChangeRecorder::add_link`, src/typed_graph.rs:769-779. -/
def addLink (r : Lcr) (x y : NodeIndex) (l : Mirror) : Lcr :=
  if y = emptyIdx then r
  else if (x, y, l) ∈ r.removes then { r with removes := r.removes.swapRemove (x, y, l) }
  else { r with adds := r.adds.insert (x, y, l) }

/-- `LinkChangeRecorder::remove_link`, src/typed_graph.rs:784-794. -/
def removeLink (r : Lcr) (x y : NodeIndex) (l : Mirror) : Lcr :=
  if y = emptyIdx then r
  else if (x, y, l) ∈ r.adds then { r with adds := r.adds.swapRemove (x, y, l) }
  else { r with removes := r.removes.insert (x, y, l) }

end Lcr

/-- `Graph`, src/typed_graph.rs:126-134. -/
structure Graph where
  ctxId : Nat
  nodes : Arena
  back : Back

namespace Back

/-- `back_links.entry(y).or_default()`, src/typed_graph.rs:599, 690, 694, 696. -/
def touch (b : Back) (y : NodeIndex) : Back := b.orInsert y OrderSet.empty

/-- `back_links.entry(y).or_default().insert(e)`, src/typed_graph.rs:690, 696; also the insertion through the reference
`new_link` (lines 599-601), whose key exists. -/
def link (b : Back) (y : NodeIndex) (e : NodeIndex × Source) : Back :=
  b.insert y (((b.get? y).getD OrderSet.empty).insert e)

/-- `back_links.get_mut(&y).unwrap().insert(e)`, src/typed_graph.rs:573, 590. -/
def linkKnown (b : Back) (y : NodeIndex) (e : NodeIndex × Source) : Except Panic Back :=
  match b.get? y with
  | none => .error .backMissing
  | some st => .ok (b.insert y (st.insert e))

/-- `back_links.get_mut(&y).unwrap().swap_remove(&e)`, src/typed_graph.rs:566, 583, 701, 706. -/
def unlink (b : Back) (y : NodeIndex) (e : NodeIndex × Source) : Except Panic Back :=
  match b.get? y with
  | none => .error .backMissing
  | some st => .ok (b.insert y (st.swapRemove e))

end Back

namespace Graph

/-- `Graph::new`, src/typed_graph.rs:142-148. -/
def new (ctxId : Nat) : Graph := ⟨ctxId, Arena.new, OrderMap.empty⟩

/-- `Graph::get`, src/typed_graph.rs:187-189. -/
def get? (g : Graph) (i : NodeIndex) : Option Node := g.nodes.get? i

/-- `Graph::iter` / `into_iter`, src/typed_graph.rs:236-238, 808-824: the produced items. -/
def iter (S : Schema) (g : Graph) : List (NodeIndex × Node) := g.nodes.entries S

/-- `Graph::iter_type`, src/typed_graph.rs:282-286: the container of the discriminant. -/
def iterType (g : Graph) (d : Ident) : List (NodeIndex × Node) := (g.nodes.cont d).entries

/-- `Graph::iter_group`, src/typed_graph.rs:344-346. -/
def iterGroup (S : Schema) (g : Graph) (name : Ident) : List (NodeIndex × Node) :=
  (g.iter S).filter fun e => S.inGroup e.2.disc name

/-- `Graph::len`, src/typed_graph.rs:375-377. -/
def len (S : Schema) (g : Graph) : Nat := g.nodes.len S

/-- `Graph::is_empty`, src/typed_graph.rs:380-382. -/
def isEmpty (S : Schema) (g : Graph) : Bool := decide (g.len S = 0)

/-! ### merge_nodes -/

/-- `add_back_links`, src/typed_graph.rs:693-698. -/
def addBackLinks (b : Back) (x : NodeIndex) (n : Node) : Back :=
  n.iterSources.foldl (fun b p => b.link p.1 (x, p.2)) (b.touch x)

/-- The recorder calls of one node in `merge_nodes`, src/typed_graph.rs:541-543. -/
def recordAll (r : Lcr) (x : NodeIndex) (n : Node) : Lcr :=
  n.iterSources.foldl (fun r p => r.addLink x p.1 p.2.mirror) r

/-- `merge_nodes`, src/typed_graph.rs:538-547. -/
def mergeNodes (S : Schema) (g : Graph) (nodes : Arena) (r : Lcr) : Graph × Lcr :=
  let st := (nodes.entries S).foldl (fun (st : Back × Lcr) e => (addBackLinks st.1 e.1 e.2, recordAll st.2 e.1 e.2)) (g.back, r)
  ({ g with nodes := g.nodes.merge nodes, back := st.1 }, st.2)

/-! ### remove_node -/

/-- `remove_back_links`, src/typed_graph.rs:704-708. -/
def removeBackLinks (b : Back) (x : NodeIndex) (srcs : List (NodeIndex × Source)) : Except Panic Back :=
  foldE (fun b p => b.unlink p.1 (x, p.2)) b srcs

/-- Loop body of src/typed_graph.rs:555-558: clear the link of `y` to the removed node `x`. -/
def clearLink [SetImpl] (x : NodeIndex) (st : Arena × Lcr) (e : NodeIndex × Source) : Except Panic (Arena × Lcr) :=
  match st.1.modifyAt e.1 (fun n => n.modifyLink e.2 x emptyIdx) with
  | .error p => .error p
  | .ok (a, _) => .ok (a, st.2.removeLink e.1 x e.2.mirror)

/-- `remove_node`, src/typed_graph.rs:549-559. -/
def removeNode [SetImpl] (g : Graph) (x : NodeIndex) (r : Lcr) : Except Panic (Graph × Lcr) :=
  match g.nodes.remove x with
  | (none, _) => .error .removeMissing
  | (some n, nodes1) =>
    let r1 := n.iterSources.foldl (fun r p => r.removeLink x p.1 p.2.mirror) r
    match removeBackLinks g.back x n.iterSources with
    | .error e => .error e
    | .ok back1 =>
      match back1.get? x with
      | none => .error .backMissing
      | some bl =>
        let back2 := back1.swapRemove x
        match foldE (clearLink x) (nodes1, r1) bl.elems with
        | .error e => .error e
        | .ok (nodes2, r2) => .ok ({ g with nodes := nodes2, back := back2 }, r2)

/-! ### modify_node and update_node -/

/-- The first loop of `modify_node`/`update_node`, src/typed_graph.rs:565-568, 582-585. -/
def unlinkSources (x : NodeIndex) (st : Back × Lcr) (srcs : List (NodeIndex × Source)) : Except Panic (Back × Lcr) :=
  foldE (fun (st : Back × Lcr) p =>
    match st.1.unlink p.1 (x, p.2) with
    | .error e => .error e
    | .ok b => .ok (b, st.2.removeLink x p.1 p.2.mirror)) st srcs

/-- The second loop of `modify_node`/`update_node`, src/typed_graph.rs:572-575, 589-592. -/
def linkSources (x : NodeIndex) (st : Back × Lcr) (srcs : List (NodeIndex × Source)) : Except Panic (Back × Lcr) :=
  foldE (fun (st : Back × Lcr) p =>
    match st.1.linkKnown p.1 (x, p.2) with
    | .error e => .error e
    | .ok b => .ok (b, st.2.addLink x p.1 p.2.mirror)) st srcs

/-- `modify_node`, src/typed_graph.rs:561-576. -/
def modifyNode (g : Graph) (x : NodeIndex) (f : Closure) (r : Lcr) : Except Panic (Graph × Lcr) :=
  match g.nodes.get? x with
  | none => .error .nodeMissing
  | some n =>
    match unlinkSources x (g.back, r) n.iterSources with
    | .error e => .error e
    | .ok st1 =>
      match g.nodes.modifyAt x (fun n => (f n).map (·, ())) with
      | .error e => .error e
      | .ok (nodes1, _) =>
        match nodes1.get? x with
        | none => .error .nodeMissing
        | some n' =>
          match linkSources x st1 n'.iterSources with
          | .error e => .error e
          | .ok (back2, r2) => .ok ({ g with nodes := nodes1, back := back2 }, r2)

/-- `update_node`, src/typed_graph.rs:578-593. -/
def updateNode (g : Graph) (x : NodeIndex) (f : Closure) (r : Lcr) : Except Panic (Graph × Lcr) :=
  match g.nodes.get? x with
  | none => .error .nodeMissing
  | some n =>
    match unlinkSources x (g.back, r) n.iterSources with
    | .error e => .error e
    | .ok st1 =>
      match g.nodes.updateWith x f with
      | .error e => .error e
      | .ok nodes1 =>
        match nodes1.get? x with
        | none => .error .nodeMissing
        | some n' =>
          match linkSources x st1 n'.iterSources with
          | .error e => .error e
          | .ok (back2, r2) => .ok ({ g with nodes := nodes1, back := back2 }, r2)

/-! ### Redirection -/

/-- Loop body of `redirect_links`, src/typed_graph.rs:600-611. -/
def redirectOne [SetImpl] (old new : NodeIndex) (st : Arena × Back × Lcr) (e : NodeIndex × Source) :
    Except Panic (Arena × Back × Lcr) :=
  let back := st.2.1.link new e
  match st.1.modifyAt e.1 (fun n => n.modifyLink e.2 old new) with
  | .error p => .error p
  | .ok (a, removed, added) =>
    let r1 := if added then st.2.2.addLink e.1 new e.2.mirror else st.2.2
    let r2 := if removed then r1.removeLink e.1 old e.2.mirror else r1
    .ok (a, back, r2)

/-- `redirect_links`, src/typed_graph.rs:595-612. -/
def redirectLinks [SetImpl] (g : Graph) (old new : NodeIndex) (r : Lcr) : Except Panic (Graph × Lcr) :=
  match g.back.get? old with
  | none => .error .backMissing
  | some oldLink =>
    let back1 := (g.back.swapRemove old).insert old OrderSet.empty
    let back2 := Back.touch back1 new
    match foldE (redirectOne old new) (g.nodes, back2, r) oldLink.elems with
    | .error e => .error e
    | .ok (nodes, back, r') => .ok ({ g with nodes, back }, r')

/-- The parent map `fa`, src/typed_graph.rs:615. -/
abbrev Fa := OrderMap NodeIndex NodeIndex

/-- First loop of `redirect_links_vec`, src/typed_graph.rs:617-620. -/
def faInit (reps : List (NodeIndex × NodeIndex)) : Fa :=
  reps.foldl (fun fa p => (fa.orInsert p.1 p.1).orInsert p.2 p.2) OrderMap.empty

/-- `while fa[&x] != x { x = fa[&x]; }`, src/typed_graph.rs:623-626. -/
def findRoot (fa : Fa) : Nat → NodeIndex → Except Panic NodeIndex
  | 0, _ => .error .diverge
  | fuel + 1, x =>
    match fa.get? x with
    | none => .error .faMissing
    | some y => if y = x then .ok x else findRoot fa fuel y

/-- Body of the second loop, src/typed_graph.rs:622-629. -/
def faStep (fa : Fa) (p : NodeIndex × NodeIndex) : Except Panic Fa :=
  match findRoot fa (fa.len + 1) p.2 with
  | .error e => .error e
  | .ok x => if x = p.1 then .error .redirectLoop else .ok (fa.insert p.1 x)

/-- `while x != y { x = y; y = fa[&y]; }`, src/typed_graph.rs:634-637. -/
def chase (fa : Fa) : Nat → NodeIndex → NodeIndex → Except Panic NodeIndex
  | 0, _, _ => .error .diverge
  | fuel + 1, x, y =>
    if x = y then .ok x
    else
      match fa.get? y with
      | none => .error .faMissing
      | some z => chase fa fuel y z

/-- `while fa[&x] != y { let z = fa[&x]; fa[x] = y; x = z; }`, src/typed_graph.rs:641-646. -/
def compress (y : NodeIndex) : Nat → Fa → NodeIndex → Except Panic Fa
  | 0, _, _ => .error .diverge
  | fuel + 1, fa, x =>
    match fa.get? x with
    | none => .error .faMissing
    | some z => if z = y then .ok fa else compress y fuel (fa.insert x y) z

/-- Body of the third loop, src/typed_graph.rs:631-647. -/
def redirStep [SetImpl] (st : Fa × Graph × Lcr) (p : NodeIndex × NodeIndex) : Except Panic (Fa × Graph × Lcr) :=
  match st.1.get? p.2 with
  | none => .error .faMissing
  | some y =>
    match chase st.1 (st.1.len + 1) p.2 y with
    | .error e => .error e
    | .ok x =>
      match redirectLinks st.2.1 p.1 x st.2.2 with
      | .error e => .error e
      | .ok (g, r) =>
        match compress x (st.1.len + 1) st.1 p.2 with
        | .error e => .error e
        | .ok fa => .ok (fa, g, r)

/-- `redirect_links_vec`, src/typed_graph.rs:614-648. -/
def redirectLinksVec [SetImpl] (g : Graph) (reps : List (NodeIndex × NodeIndex)) (r : Lcr) : Except Panic (Graph × Lcr) :=
  match foldE faStep (faInit reps) reps with
  | .error e => .error e
  | .ok fa =>
    match foldE redirStep (fa, g, r) reps with
    | .error e => .error e
    | .ok (_, g', r') => .ok (g', r')

/-! ### Bidirectional links -/

/-- Loop body of src/typed_graph.rs:658-662. -/
def bdRemoveOne [SetImpl] (S : Schema) (x y : NodeIndex) (g : Graph) (m : Mirror) : Except Panic Graph :=
  match g.nodes.modifyAt y (fun n => n.removeLink m x) with
  | .error e => .error e
  | .ok (nodes, false) => .ok { g with nodes }
  | .ok (nodes, true) =>
    match S.toSource m with
    | .error e => .error e
    | .ok s =>
      match g.back.unlink x (y, s) with
      | .error e => .error e
      | .ok back => .ok { g with nodes, back }

/-- Loop body of src/typed_graph.rs:651-663. -/
def bdRemove [SetImpl] (S : Schema) (g : Graph) (c : Change) : Except Panic Graph :=
  let (x, y, l) := c
  match g.nodes.get? x, g.nodes.get? y with
  | some _, some ny => foldE (bdRemoveOne S x y) g (S.opposites l ny.disc)
  | _, _ => .ok g

/-- Loop body of src/typed_graph.rs:665-686. -/
def bdAdd [SetImpl] (S : Schema) (g : Graph) (c : Change) : Except Panic Graph :=
  let (x, y, l) := c
  match g.nodes.get? x, g.nodes.get? y with
  | some _, some ny =>
    let bds := S.opposites l ny.disc
    match bds with
    | [] => .ok g
    | m :: rest =>
      if bds.any (fun m => ny.containsLink m x) then .ok g
      else if rest ≠ [] then .error .multiChoice
      else
        match g.nodes.modifyAt y (fun n => n.addLink m x) with
        | .error e => .error e
        | .ok (nodes, false) => .ok { g with nodes }
        | .ok (nodes, true) =>
          match S.toSource m with
          | .error e => .error e
          | .ok s => .ok { g with nodes, back := g.back.link x (y, s) }
  | _, _ => .ok g

/-- `apply_bidirectional_links`, src/typed_graph.rs:650-687. -/
def applyBidirectional [SetImpl] (S : Schema) (g : Graph) (r : Lcr) : Except Panic Graph :=
  match foldE (bdRemove S) g r.removes.elems with
  | .error e => .error e
  | .ok g1 => foldE (bdAdd S) g1 r.adds.elems

/-! ### commit -/

/-- The loops of `do_commit` over the stored closures, src/typed_graph.rs:523-528. -/
def applyClosures (step : Graph → NodeIndex → Closure → Lcr → Except Panic (Graph × Lcr)) (st : Graph × Lcr)
    (l : List (NodeIndex × Closure)) : Except Panic (Graph × Lcr) :=
  foldE (fun (st : Graph × Lcr) p => step st.1 p.1 p.2 st.2) st l

/-- `do_commit`, src/typed_graph.rs:515-536.  `dbg` says whether `debug_assert!` is compiled in. -/
def doCommit [SetImpl] (S : Schema) (dbg : Bool) (g : Graph) (t : Trans) : Except Panic (Graph × Lcr) :=
  if dbg && decide (t.ctxId ≠ g.ctxId) then .error .ctxMismatch
  else if dbg && !t.allocs.isEmpty then .error .unfilledAlloc
  else
    match redirectLinksVec g t.redir Lcr.new with
    | .error e => .error e
    | .ok (g1, r1) =>
      let (g2, r2) := mergeNodes S g1 t.inc r1
      match applyClosures modifyNode (g2, r2) t.muts with
      | .error e => .error e
      | .ok st3 =>
        match applyClosures updateNode st3 t.upds with
        | .error e => .error e
        | .ok (g4, r4) =>
          match redirectLinksVec g4 t.redirAll r4 with
          | .error e => .error e
          | .ok st5 =>
            match foldE (fun (st : Graph × Lcr) x => removeNode st.1 x st.2) st5 t.dec.elems with
            | .error e => .error e
            | .ok (g6, r6) =>
              match applyBidirectional S g6 r6 with
              | .error e => .error e
              | .ok g7 => .ok (g7, r6)

/-- `Graph::check_link_type`, src/typed_graph.rs:710-718. -/
def checkLinkType (S : Schema) (g : Graph) (r : Lcr) : Except Panic Unit :=
  foldE (fun _ (c : Change) =>
    match g.nodes.get? c.2.1 with
    | some n => if S.checkLinkType n.disc c.2.2 then .ok () else .error .linkType
    | none => .ok ()) () r.adds.elems

/-- `Graph::commit`, src/typed_graph.rs:423-426. -/
def commit [SetImpl] (S : Schema) (dbg : Bool) (g : Graph) (t : Trans) : Except Panic Graph :=
  match doCommit S dbg g t with
  | .error e => .error e
  | .ok (g', r) =>
    match checkLinkType S g' r with
    | .error e => .error e
    | .ok _ => .ok g'

/-- `Transaction::merge`, src/typed_graph/transaction.rs:496-499. -/
def _root_.TTGraph.Trans.merge (t : Trans) (g : Graph) : Except Panic Trans :=
  if t.ctxId = g.ctxId then .ok { t with inc := t.inc.merge g.nodes } else .error .ctxMismatch

end Graph
end TTGraph
