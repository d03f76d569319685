import Verif.Model.Schema
import Mathlib.Data.List.Nodup

/-!
# Node values and the generated `TypedNode` / `NodeEnum` methods
-/

set_option autoImplicit false

namespace TTGraph

/-- `NodeIndex(usize)`, src/typed_graph.rs:41-43.  The machine word is a natural number here; see `Model/Ids.lean` for 64 bits. -/
abbrev NodeIndex := Nat

/-- `NodeIndex::empty()`, src/typed_graph.rs:50-55. -/
def emptyIdx : NodeIndex := 0

/-- Every way in which an API call can panic. -/
inductive Panic
  /-- "Unmatched node type and source type!" (ttgraph_macros/src/node_enum.rs:125) -/
  | unmatchedSource
  /-- "Unmatched node type and link type!" (ttgraph_macros/src/node_enum.rs:107) -/
  | unmatchedLink
  /-- index out of bounds in `self.field[idx]` (ttgraph_macros/src/typed_node.rs:232) -/
  | vecOutOfBounds
  /-- "Add link on existing direct link" (ttgraph_macros/src/typed_node.rs:258) -/
  | addOnExisting
  /-- "Add link on Vec<NodeIndex> is not supported!" (ttgraph_macros/src/typed_node.rs:269) -/
  | addOnVec
  /-- "Remove link on Vec<NodeIndex> is not supported!" (ttgraph_macros/src/typed_node.rs:301) -/
  | removeOnVec
  /-- "Vec type LinkMirror cannot be converted to Source!" (ttgraph_macros/src/typed_node.rs:80) -/
  | vecMirror
  /-- "Duplicated allocation" (ttgraph_macros/src/cate_arena.rs:349) -/
  | dupAlloc
  /-- "Allocated index already existed" (src/cate_arena.rs:76) -/
  | allocExists
  /-- "Fillback an non-existing index" (src/cate_arena.rs:81) -/
  | fillNonexisting
  /-- "Fillback with incompatible type" (src/cate_arena.rs:83) -/
  | fillType
  /-- "Fillback an occupied index" (src/cate_arena.rs:86, ttgraph_macros/src/cate_arena.rs:360) -/
  | fillOccupied
  /-- "Update a non-existing node" (src/cate_arena.rs:102-103) -/
  | updateMissing
  /-- "Duplicated index" (ttgraph_macros/src/cate_arena.rs:329, 332) -/
  | dupIndex
  /-- "The transaction and the graph are from different context!" (src/typed_graph.rs:516, transaction.rs:497) -/
  | ctxMismatch
  /-- "There are unfilled allocated nodes" (src/typed_graph.rs:517) -/
  | unfilledAlloc
  /-- "Remove a non-existing node!" (src/typed_graph.rs:550) -/
  | removeMissing
  /-- `unwrap` on a missing node (src/typed_graph.rs:556, 565, 570, 572, 582, 589, 602, ...) -/
  | nodeMissing
  /-- `unwrap` on a missing key of the back-link map (src/typed_graph.rs:555, 566, 573, 583, 590, 596, 701, 706) -/
  | backMissing
  /-- "Loop redirection detected!" (src/typed_graph.rs:627) -/
  | redirectLoop
  /-- `fa[&x]` on a missing key (src/typed_graph.rs:624-646) -/
  | faMissing
  /-- not a panic: a loop that does not terminate -/
  | diverge
  /-- "Node with multiple choices for bidiretional link detected!" (src/typed_graph.rs:680) -/
  | multiChoice
  /-- "Link type check failed!" (src/typed_graph.rs:714) -/
  | linkType
  /-- "Check failed", with the names of the failed checks (src/typed_graph.rs:437) -/
  | checkFailed (names : List Ident)
  /-- "Found external link, integrity check failed!" (src/typed_graph.rs:483) -/
  | integrity
  /-- the panics of `check_backlinks` (src/typed_graph.rs:500-507) -/
  | backlinkCheck
  /-- indexing a missing key in `switch_context` (src/typed_graph.rs:460-461) -/
  | switchMissing
  /-- "Type does not match!" in `mut_node!`/`update_node!`, `panic!()` in `iter_nodes!` (src/typed_graph/macros.rs:89, 143, 219) -/
  | typeMismatch
  /-- "attempt to add with overflow" (src/id_distributer.rs:16), only in `Model/Wrap.lean` -/
  | overflow
  /-- a panic inside a user closure -/
  | user
  deriving DecidableEq, Repr

/-- Value of a set-typed link field (`HashSet`, `BTreeSet`, `OrderSet` or `IndexSet` of `NodeIndex`): its elements in iteration
order.  `hidden` stands for whatever else the implementation stores (which kind of set it is, capacity, hash seed, ...). -/
structure NSet where
  elems : List NodeIndex
  nodup : elems.Nodup
  hidden : Nat
  deriving DecidableEq

instance : Repr NSet := ⟨fun s n => reprPrec s.elems n⟩

/-- The empty set with hidden state 0. -/
def NSet.empty : NSet := ⟨[], List.nodup_nil, 0⟩

/-- The operations `insert` and `remove` of the standard set types, known only through their effect on membership.
Everything is proved for an arbitrary instance. -/
class SetImpl where
  ins : NodeIndex → NSet → NSet
  del : NodeIndex → NSet → NSet
  mem_ins : ∀ (a : NodeIndex) (s : NSet) (x : NodeIndex), x ∈ (ins a s).elems ↔ x = a ∨ x ∈ s.elems
  mem_del : ∀ (a : NodeIndex) (s : NSet) (x : NodeIndex), x ∈ (del a s).elems ↔ x ∈ s.elems ∧ x ≠ a

/-- Value of a link field. -/
inductive LinkVal
  | direct (i : NodeIndex)
  | set (s : NSet)
  | vec (l : List NodeIndex)
  deriving DecidableEq, Repr

/-- Value of a data field: opaque, with its type. -/
structure DataVal where
  ty : Nat
  val : Nat
  deriving DecidableEq, Repr

/-- A node: the variant of the node enum, the link fields and the other fields of its struct. -/
structure Node where
  disc : Ident
  links : List LinkVal
  data : List DataVal
  deriving DecidableEq, Repr

namespace LinkVal

/-- Kind of a value. -/
def kind : LinkVal → LinkKind
  | direct _ => .direct
  | set _ => .set
  | vec _ => .vec

/-- One arm of `iter_sources`, ttgraph_macros/src/typed_node.rs:162-186; the field is number `pos` of variant `d`. -/
def sources (d : Ident) (pos : Nat) : LinkVal → List (NodeIndex × Source)
  | direct i => if i = emptyIdx then [] else [(i, ⟨d, pos, 0⟩)]
  | set s => s.elems.map fun i => (i, ⟨d, pos, 0⟩)
  | vec l => (l.zipIdx.filter (fun p => p.1 ≠ emptyIdx)).map fun p => (p.1, ⟨d, pos, p.2⟩)

/-- One arm of `iter_links`, ttgraph_macros/src/typed_node.rs:188-205. -/
def iterLinks : LinkVal → List NodeIndex
  | direct i => if i = emptyIdx then [] else [i]
  | set s => s.elems
  | vec l => l.filter (fun i => i ≠ emptyIdx)

/-- One arm of `modify_link`, ttgraph_macros/src/typed_node.rs:207-242; returns the field and `(removed, added)`. -/
def modify [SetImpl] (slot : Nat) (old new : NodeIndex) : LinkVal → Except Panic (LinkVal × Bool × Bool)
  | direct i =>
    let replaced := decide (i ≠ new)
    .ok (direct new, replaced && decide (i ≠ emptyIdx), replaced && decide (new ≠ emptyIdx))
  | set s =>
    let removed := decide (old ∈ s.elems)
    let s1 := SetImpl.del old s
    if new ≠ emptyIdx then .ok (set (SetImpl.ins new s1), removed, decide (new ∉ s1.elems))
    else .ok (set s1, removed, false)
  | vec l =>
    match l[slot]? with
    | none => .error .vecOutOfBounds
    | some i =>
      let replaced := decide (i ≠ new)
      .ok (vec (l.set slot new), replaced && decide (i ≠ emptyIdx), replaced && decide (new ≠ emptyIdx))

/-- One arm of `add_link`, ttgraph_macros/src/typed_node.rs:244-275. -/
def add [SetImpl] (target : NodeIndex) : LinkVal → Except Panic (LinkVal × Bool)
  | direct i =>
    if i = emptyIdx then
      if i ≠ target then .ok (direct target, true) else .ok (direct i, false)
    else if i = target then .ok (direct i, false) else .error .addOnExisting
  | set s => .ok (set (SetImpl.ins target s), decide (target ∉ s.elems))
  | vec _ => .error .addOnVec

/-- One arm of `remove_link`, ttgraph_macros/src/typed_node.rs:277-307. -/
def remove [SetImpl] (target : NodeIndex) : LinkVal → Except Panic (LinkVal × Bool)
  | direct i =>
    if i = emptyIdx then .ok (direct i, false)
    else if i = target then .ok (direct emptyIdx, true) else .ok (direct i, false)
  | set s => .ok (set (SetImpl.del target s), decide (target ∈ s.elems))
  | vec _ => .error .removeOnVec

/-- One arm of `contains_link`, ttgraph_macros/src/typed_node.rs:309-334. -/
def contains (target : NodeIndex) : LinkVal → Bool
  | direct i => if i = emptyIdx then false else decide (i = target)
  | set s => decide (target ∈ s.elems)
  | vec l => l.any (fun x => decide (x = target))

end LinkVal

namespace Node

/-- `iter_sources`, ttgraph_macros/src/typed_node.rs:429-433, node_enum.rs:93-99. -/
def iterSources (n : Node) : List (NodeIndex × Source) :=
  n.links.zipIdx.flatMap fun p => p.1.sources n.disc p.2

/-- `iter_links`, ttgraph_macros/src/node_enum.rs:101-111. -/
def iterLinks (n : Node) (m : Mirror) : Except Panic (List NodeIndex) :=
  if m.disc = n.disc then
    match n.links[m.pos]? with
    | some v => .ok v.iterLinks
    | none => .ok []
  else .error .unmatchedLink

/-- Replace one link field. -/
def setLink (n : Node) (pos : Nat) (v : LinkVal) : Node := { n with links := n.links.set pos v }

/-- `modify_link`, ttgraph_macros/src/node_enum.rs:113-129; the component `bd_link_mirrors` of the result is never used in /repo
and is left out.  A source naming a field that does not exist cannot be written in Rust; here it is `unmatchedSource`. -/
def modifyLink [SetImpl] (n : Node) (s : Source) (old new : NodeIndex) : Except Panic (Node × Bool × Bool) :=
  if s.disc = n.disc then
    match n.links[s.pos]? with
    | some v =>
      match v.modify s.slot old new with
      | .ok (v', r) => .ok (n.setLink s.pos v', r)
      | .error e => .error e
    | none => .error .unmatchedSource
  else .error .unmatchedSource

/-- `add_link`, ttgraph_macros/src/node_enum.rs:131-142. -/
def addLink [SetImpl] (n : Node) (m : Mirror) (target : NodeIndex) : Except Panic (Node × Bool) :=
  if m.disc = n.disc then
    match n.links[m.pos]? with
    | some v =>
      match v.add target with
      | .ok (v', r) => .ok (n.setLink m.pos v', r)
      | .error e => .error e
    | none => .ok (n, false)
  else .ok (n, false)

/-- `remove_link`, ttgraph_macros/src/node_enum.rs:144-155. -/
def removeLink [SetImpl] (n : Node) (m : Mirror) (target : NodeIndex) : Except Panic (Node × Bool) :=
  if m.disc = n.disc then
    match n.links[m.pos]? with
    | some v =>
      match v.remove target with
      | .ok (v', r) => .ok (n.setLink m.pos v', r)
      | .error e => .error e
    | none => .ok (n, false)
  else .ok (n, false)

/-- `contains_link`, ttgraph_macros/src/node_enum.rs:170-181. -/
def containsLink (n : Node) (m : Mirror) (target : NodeIndex) : Bool :=
  if m.disc = n.disc then
    match n.links[m.pos]? with
    | some v => v.contains target
    | none => false
  else false

/-- `get_links_by_name`, ttgraph_macros/src/typed_node.rs:369-383, node_enum.rs:183-188. -/
def getLinksByName (S : Schema) (n : Node) (name : Ident) : List NodeIndex :=
  match (S.struct? n.disc).bind (fun sd => sd.linkPos name) with
  | some p =>
    match n.links[p]? with
    | some v => v.iterLinks
    | none => []
  | none => []

/-- One `extend` of `get_links_by_group`, ttgraph_macros/src/group.rs:51-58. -/
def groupExtend : LinkVal → List NodeIndex
  | .direct i => if i = emptyIdx then [] else [i]
  | .set s => s.elems
  | .vec l => l

/-- `get_links_by_group`, ttgraph_macros/src/group.rs:39-76: for every link paired (by `zip`) with a list of groups,
once per occurrence of the name in that list. -/
def getLinksByGroup (S : Schema) (n : Node) (g : Ident) : List NodeIndex :=
  match S.struct? n.disc with
  | some sd =>
    (n.links.zip sd.groupsVec).flatMap fun p => (p.2.filter (· = g)).flatMap fun _ => groupExtend p.1
  | none => []

/-- `data_ref_by_name::<T>`, ttgraph_macros/src/typed_node.rs:400-406; only fields whose type is a path have an arm
(ttgraph_macros/src/lib.rs:207-220). -/
def dataRefByName (S : Schema) (n : Node) (name : Ident) (ty : Nat) : Option DataVal :=
  match S.struct? n.disc with
  | some sd =>
    match (sd.dataFields.zip n.data).find? (fun p => decide (p.1.name = name) &&
        (match p.1.ty with | .data _ b => b | .link _ => false)) with
    | some p => if p.2.ty = ty then some p.2 else none
    | none => none
  | none => none

end Node

namespace Schema

/-- `to_source_enum`, ttgraph_macros/src/typed_node.rs:75-83, node_enum.rs:204-207. -/
def toSource (S : Schema) (m : Mirror) : Except Panic Source :=
  match S.kind? m with
  | some .vec => .error .vecMirror
  | _ => .ok ⟨m.disc, m.pos, 0⟩

/-- A node value that Rust's type checker accepts: the fields of its struct, with the right kinds and types. -/
def WT (S : Schema) (n : Node) : Prop :=
  ∃ sd, S.struct? n.disc = some sd ∧ n.links.map LinkVal.kind = sd.linkKinds ∧
    n.data.map (fun v => v.ty) = sd.dataFields.map (fun f => match f.ty with | .data t _ => t | .link _ => 0)

end Schema
end TTGraph
