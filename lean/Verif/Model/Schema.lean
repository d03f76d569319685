import Mathlib.Data.List.Dedup

/-!
# Declarations and the tables generated by the macros

A user declares structs with `#[derive(TypedNode)]` and an enum with `node_enum! { ... }`.  Here a declaration is data
(what the macros see after parsing) and the tables that the macros turn into generated `match` arms are computed from it.

Identifiers are natural numbers; their order stands for the string order of `proc_macro2::Ident`.
`upper_camel` / `snake_case` (ttgraph_macros/src/utils.rs) are the identity here; what they do to declarations is in `Compile.lean`.
The placeholder `LinkType::Empty` of structs without links (ttgraph_macros/src/lib.rs:251-254) is not modelled: such a struct
has no link field.
-/

set_option autoImplicit false

namespace TTGraph

/-- Names of variants, fields and groups. -/
abbrev Ident := Nat

/-- The three kinds of link fields, ttgraph_macros/src/typed_node.rs:11-16. -/
inductive LinkKind
  | direct
  | set
  | vec
  deriving DecidableEq, Repr

/-- Type of a struct field as classified in ttgraph_macros/src/lib.rs:204-220.  `data ty isPath`: a non-link field of type `ty`;
`isPath` tells whether the type is written as a path (`syn::Type::Path`), which is the only kind the macro records. -/
inductive FieldTy
  | link (k : LinkKind)
  | data (ty : Nat) (isPath : Bool)
  deriving DecidableEq, Repr

/-- One named field; `groupAttrs` has one list per `#[group(...)]` attribute, ttgraph_macros/src/lib.rs:221-245. -/
structure FieldDecl where
  name : Ident
  ty : FieldTy
  groupAttrs : List (List Ident) := []
  deriving DecidableEq, Repr

/-- A struct with `#[derive(TypedNode)]`; `phantom` are the `#[phantom_group(..)]` names, ttgraph_macros/src/lib.rs:256-269. -/
structure StructDecl where
  fields : List FieldDecl
  phantom : List Ident := []
  deriving DecidableEq, Repr

/-- `var1.link1 <-> var2.link2`, ttgraph_macros/src/bidirectional.rs:14-20. -/
structure BidirDecl where
  var1 : Ident
  link1 : Ident
  var2 : Ident
  link2 : Ident
  deriving DecidableEq, Repr

/-- `var.link : {var2, ...}`, ttgraph_macros/src/link_check.rs:11-15. -/
structure TypeAnno where
  var : Ident
  link : Ident
  var2 : List Ident
  deriving DecidableEq, Repr

/-- The contents of a `node_enum!` block, ttgraph_macros/src/lib.rs:76-151. -/
structure Schema where
  variants : List (Ident × StructDecl)
  groups : List (Ident × List Ident) := []
  bidirs : List BidirDecl := []
  annos : List TypeAnno := []
  deriving DecidableEq, Repr

/-- A link field of a variant (`LinkMirrorEnum`), by position among the link fields; ttgraph_macros/src/typed_node.rs:61-102,
node_enum.rs:30-48. -/
structure Mirror where
  disc : Ident
  pos : Nat
  deriving DecidableEq, Repr

/-- A place that holds one link (`SourceEnum`); `slot` is the index for `Vec` fields and 0 for the others;
ttgraph_macros/src/typed_node.rs:18-59, node_enum.rs:9-28. -/
structure Source where
  disc : Ident
  pos : Nat
  slot : Nat
  deriving DecidableEq, Repr

/-- `to_link_mirror_enum`, ttgraph_macros/src/typed_node.rs:32-54, node_enum.rs:209-212. -/
def Source.mirror (s : Source) : Mirror := ⟨s.disc, s.pos⟩

namespace FieldDecl

/-- Is it a link field?  ttgraph_macros/src/lib.rs:206-220 (`is_link`). -/
def isLink (f : FieldDecl) : Bool :=
  match f.ty with
  | .link _ => true
  | .data .. => false

/-- The kind of a link field. -/
def kind? (f : FieldDecl) : Option LinkKind :=
  match f.ty with
  | .link k => some k
  | .data .. => none

end FieldDecl

namespace StructDecl

/-- The vector `links`, ttgraph_macros/src/lib.rs:204-220. -/
def links (sd : StructDecl) : List FieldDecl := sd.fields.filter FieldDecl.isLink

/-- Names of the link fields in order. -/
def linkNames (sd : StructDecl) : List Ident := sd.links.map FieldDecl.name

/-- Kinds of the link fields in order (generated `link_types`, ttgraph_macros/src/typed_node.rs:336-345). -/
def linkKinds (sd : StructDecl) : List LinkKind := sd.fields.filterMap FieldDecl.kind?

/-- The non-link fields in order. -/
def dataFields (sd : StructDecl) : List FieldDecl := sd.fields.filter (fun f => !f.isLink)

/-- The vector `groups`, ttgraph_macros/src/lib.rs:221-249: every attribute pushes one entry, a link field
without attribute pushes an empty one. -/
def groupsVec (sd : StructDecl) : List (List Ident) :=
  sd.fields.flatMap fun f =>
    if f.isLink then (if f.groupAttrs.isEmpty then [[]] else f.groupAttrs) else []

/-- `group_map[g]`: the fields listed under the group, ttgraph_macros/src/lib.rs:238-240 (with multiplicity). -/
def groupMembers (sd : StructDecl) (g : Ident) : List Ident :=
  sd.fields.flatMap fun f =>
    if f.isLink then (f.groupAttrs.flatten.filter (· = g)).map (fun _ => f.name) else []

/-- Position of a link field by name. -/
def linkPos (sd : StructDecl) (name : Ident) : Option Nat := sd.linkNames.idxOf? name

/-- `to_link_or_groups`: the link's own name and the groups paired with it by `zip`,
ttgraph_macros/src/typed_node.rs:408-421. -/
def toLog (sd : StructDecl) (pos : Nat) : List Ident :=
  match (sd.linkNames.zip sd.groupsVec)[pos]? with
  | some (n, gs) => n :: gs
  | none => []

/-- `LoGMirror::to_links`: a link name stands for itself, a group name for its members,
ttgraph_macros/src/typed_node.rs:104-154. -/
def logToLinks (sd : StructDecl) (log : Ident) : List Nat :=
  match sd.linkPos log with
  | some p => [p]
  | none => (sd.groupMembers log).filterMap sd.linkPos

end StructDecl

namespace Schema

/-- The struct behind a variant. -/
def struct? (S : Schema) (d : Ident) : Option StructDecl := (S.variants.find? (fun v => v.1 = d)).map Prod.snd

/-- Variant names in declaration order. -/
def discs (S : Schema) : List Ident := S.variants.map Prod.fst

/-- Kind of a link field. -/
def kind? (S : Schema) (m : Mirror) : Option LinkKind :=
  (S.struct? m.disc).bind fun sd => sd.linkKinds[m.pos]?

/-- The map from group names to variants: `BTreeMap::from_iter` / `insert`, so the last group of a name counts;
ttgraph_macros/src/bidirectional.rs:77, link_check.rs:77-80. -/
def group? (S : Schema) (name : Ident) : Option (List Ident) :=
  (S.groups.reverse.find? (fun g => g.1 = name)).map Prod.snd

/-- A variant name stands for itself, a group name for its members; ttgraph_macros/src/bidirectional.rs:79-88,
link_check.rs:52-66. -/
def expandVar (S : Schema) (v : Ident) : List Ident := (S.group? v).getD [v]

/-- `expand_bidirectional_links`, ttgraph_macros/src/bidirectional.rs:73-97. -/
def expandedBidirs (S : Schema) : List BidirDecl :=
  S.bidirs.flatMap fun l =>
    (S.expandVar l.var1).flatMap fun v1 =>
      (S.expandVar l.var2).map fun v2 => ⟨v1, l.link1, v2, l.link2⟩

/-- `b_links[var][link]`, ttgraph_macros/src/bidirectional.rs:110-123.  The order of the `BTreeSet` is not kept (it only affects the
order of the candidate list, which no function depends on). -/
def bLinks (S : Schema) (var link : Ident) : List (Ident × Ident) :=
  (S.expandedBidirs.flatMap fun l =>
    (if l.var1 = var ∧ l.link1 = link then [(l.var2, l.link2)] else []) ++
    (if l.var2 = var ∧ l.link2 = link then [(l.var1, l.link1)] else [])).dedup

/-- `expand_link_groups`, ttgraph_macros/src/node_enum.rs:219-222. -/
def expandLog (S : Schema) (d log : Ident) : List Mirror :=
  match S.struct? d with
  | some sd => (sd.logToLinks log).map (Mirror.mk d)
  | none => []

/-- `to_log_mirror_enums`, ttgraph_macros/src/node_enum.rs:214-217. -/
def toLog (S : Schema) (m : Mirror) : List Ident :=
  match S.struct? m.disc with
  | some sd => sd.toLog m.pos
  | none => []

/-- `get_bidiretional_link_mirrors_of_log`, ttgraph_macros/src/bidirectional.rs:125-152, 181-186. -/
def mirrorsOfLog (S : Schema) (d log : Ident) : List Mirror :=
  (S.bLinks d log).flatMap fun p => S.expandLog p.1 p.2

/-- `get_bidiretional_link_mirrors_of`, src/typed_graph/macro_traits.rs:147-149. -/
def mirrorsOf (S : Schema) (m : Mirror) : List Mirror :=
  (S.toLog m).flatMap fun log => S.mirrorsOfLog m.disc log

/-- `match_bd_link_group`: the candidates on the variant `d`, ttgraph_macros/src/node_enum.rs:224-233, 332-338. -/
def matchBd (d : Ident) (bds : List Mirror) : List Mirror := bds.filter (fun m => m.disc = d)

/-- Possible opposites on a node of variant `d` of the link field `m` (src/typed_graph.rs:656-657 and 670-671). -/
def opposites (S : Schema) (m : Mirror) (d : Ident) : List Mirror := matchBd d (S.mirrorsOf m)

/-- `expand_group`, ttgraph_macros/src/link_check.rs:48-70. -/
def expandedAnnos (S : Schema) : List TypeAnno :=
  S.annos.flatMap fun a =>
    let var2 := a.var2.flatMap S.expandVar
    (S.expandVar a.var).map fun v => ⟨v, a.link, var2⟩

/-- Lexicographic comparison, the `Ord` of `Vec<Ident>`. -/
def lexLe : List Ident → List Ident → Bool
  | [], _ => true
  | _ :: _, [] => false
  | a :: as, b :: bs => if a < b then true else if b < a then false else lexLe as bs

/-- The smallest list in the order of `Vec<Ident>`. -/
def lexMin : List (List Ident) → Option (List Ident)
  | [] => none
  | l :: ls =>
    match lexMin ls with
    | none => some l
    | some m => if lexLe l m then some l else some m

/-- `check_link_type_by_group`, ttgraph_macros/src/link_check.rs:72-123: the annotations of one variant and link become
match arms with the same pattern in the order of the `BTreeSet`, so the first (smallest) decides. -/
def checkLinkTypeByLog (S : Schema) (target : Ident) (d log : Ident) : Bool :=
  match lexMin ((S.expandedAnnos.filter (fun a => a.var = d ∧ a.link = log)).map TypeAnno.var2) with
  | none => true
  | some vs => decide (target ∈ vs)

/-- `check_link_type`, src/typed_graph/macro_traits.rs:154-159. -/
def checkLinkType (S : Schema) (target : Ident) (m : Mirror) : Bool :=
  (S.toLog m).all fun log => S.checkLinkTypeByLog target m.disc log

/-- `in_group`, ttgraph_macros/src/group.rs:108-130 (the first arm of a name counts). -/
def inGroup (S : Schema) (d : Ident) (name : Ident) : Bool :=
  match S.groups.find? (fun g => g.1 = name) with
  | some g => decide (d ∈ g.2)
  | none => false

end Schema
end TTGraph
