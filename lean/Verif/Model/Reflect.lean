import Verif.Model.Arena

/-!
# The static tables that `#[derive(TypedNode)]` and `node_enum!` generate

No function of the crate reads these tables; they are public methods of `TypedNode`, `NodeEnum` and `NodeDiscriminant`.
-/

set_option autoImplicit false

namespace TTGraph

/-- `LinkType` of the macro, ttgraph_macros/src/typed_node.rs:10-16. -/
inductive LinkEntry
  | field (name : Ident) (k : LinkKind)
  | empty
  deriving DecidableEq, Repr

namespace StructDecl

/-- The vector `links` of the macro with its placeholder, ttgraph_macros/src/lib.rs:204-220, 251-254. -/
def entries (sd : StructDecl) : List LinkEntry :=
  let l := sd.fields.flatMap fun f =>
    match f.ty with
    | .link k => [LinkEntry.field f.name k]
    | .data .. => []
  if l.isEmpty then [.empty] else l

/-- `link_types()`, ttgraph_macros/src/typed_node.rs:336-345, 460-462. -/
def linkTypes (sd : StructDecl) : List LinkKind :=
  sd.entries.flatMap fun
    | .field _ k => [k]
    | .empty => []

/-- `link_names()`, ttgraph_macros/src/typed_node.rs:358-367, 466-468. -/
def linkNameTable (sd : StructDecl) : List Ident :=
  sd.entries.flatMap fun
    | .field n _ => [n]
    | .empty => []

/-- `link_mirrors()` of variant `d`, ttgraph_macros/src/typed_node.rs:347-356, 463-465.  A mirror is written with the position of its field. -/
def linkMirrors (sd : StructDecl) (d : Ident) : List Mirror :=
  sd.entries.zipIdx.flatMap fun
    | (.field _ _, p) => [⟨d, p⟩]
    | (.empty, _) => []

/-- `data_names()`, ttgraph_macros/src/typed_node.rs:394-398, 481-483; the vector `data` has the fields whose type is a path,
ttgraph_macros/src/lib.rs:207-220. -/
def dataNames (sd : StructDecl) : List Ident :=
  sd.fields.flatMap fun f =>
    match f.ty with
    | .data _ true => [f.name]
    | _ => []

/-- The keys of `group_map`, ttgraph_macros/src/lib.rs:238-240, 256-269 (the order of the `BTreeMap` and repetitions are not kept). -/
def groupKeys (sd : StructDecl) : List Ident :=
  (sd.fields.flatMap fun f => if f.isLink then f.groupAttrs.flatten else []) ++ sd.phantom

/-- `get_link_or_group_by_name(name)`, ttgraph_macros/src/group.rs:78-106; a `LoGMirror` is written as its name. -/
def logByName (sd : StructDecl) (name : Ident) : Option Ident :=
  ((sd.entries.flatMap fun
    | .field n _ => [n]
    | .empty => []) ++ sd.groupKeys).find? (fun n => n = name)

end StructDecl

/-- `check_link`, ttgraph_macros/src/node_enum.rs:157-168, 278-282. -/
def Node.checkLink (n : Node) (m : Mirror) : Bool := decide (m.disc = n.disc)

/-- `NodeDiscriminant::first`, ttgraph_macros/src/cate_arena.rs:27, 36; `none` stands for an enum without variants, for which the macro
panics. -/
def Schema.firstDisc (S : Schema) : Option Ident := S.discs.head?

/-- `let mut d = Some(first()); while let Some(x) = d { visit(x); d = x.next(); }`, at most `fuel` rounds. -/
def Schema.discLoop (S : Schema) : Nat → Option Ident → List Ident
  | 0, _ => []
  | _, none => []
  | fuel + 1, some d => d :: discLoop S fuel (nextDisc S.discs d)

end TTGraph
