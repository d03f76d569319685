import Verif.Model.Compile

/-!
# The generated tables, with the names as they are generated

In `Schema.lean` a link or group of links is identified by its name.  The generated code identifies it by the name in camel case, as a variant of
the enum `LoGMirror` of its struct.  Here are the tables once more, with these names.
-/

set_option autoImplicit false

namespace TTGraph

/-- `LoGMirror::to_links` for the variant `c`, ttgraph_macros/src/typed_node.rs:104-154; the placeholder `Empty` of a struct without links stands for the
`LinkMirror` of the same name, which is written as position 0. -/
def StructDecl.logToLinksC (nm : Naming) (sd : StructDecl) (c : Ident) : List Nat :=
  match sd.logNames.find? (fun l => nm.camel l = c) with
  | some l => sd.logToLinks l
  | none => if sd.links.isEmpty ∧ c = nm.empty then [0] else []

namespace Schema

/-- `expand_link_groups`, ttgraph_macros/src/node_enum.rs:219-222. -/
def expandLogC (nm : Naming) (S : Schema) (d c : Ident) : List Mirror :=
  match S.struct? d with
  | some sd => (sd.logToLinksC nm c).map (Mirror.mk d)
  | none => []

/-- The arm that is taken for `<#ty>::LoGMirror::c`, ttgraph_macros/src/bidirectional.rs:125-152: there is one arm for each key of `b_links[var]`, in the
order of the `BTreeMap`, and the first one whose key has the camel case `c` is taken. -/
def armFor (nm : Naming) (S : Schema) (d c : Ident) : Option Ident := ((S.bLinkNames d).filter (fun k => nm.camel k = c)).min?

/-- `get_bidiretional_link_mirrors_of_log`, ttgraph_macros/src/bidirectional.rs:125-152, 181-186. -/
def mirrorsOfLogC (nm : Naming) (S : Schema) (d c : Ident) : List Mirror :=
  match S.armFor nm d c with
  | some k => (S.bLinks d k).flatMap fun p => S.expandLogC nm p.1 (nm.camel p.2)
  | none => []

/-- `get_bidiretional_link_mirrors_of`, src/typed_graph/macro_traits.rs:147-149; `to_log_mirror_enums` gives the names of the field in camel case,
ttgraph_macros/src/typed_node.rs:408-421. -/
def mirrorsOfC (nm : Naming) (S : Schema) (m : Mirror) : List Mirror :=
  (S.toLog m).flatMap fun log => S.mirrorsOfLogC nm m.disc (nm.camel log)

/-- `check_link_type_by_group`, ttgraph_macros/src/link_check.rs:72-123: here the name is turned into camel case before it is put into the
`BTreeSet`, line 83. -/
def checkLinkTypeByLogC (nm : Naming) (S : Schema) (target : Ident) (d c : Ident) : Bool :=
  match lexMin ((S.expandedAnnos.filter (fun a => a.var = d ∧ nm.camel a.link = c)).map TypeAnno.var2) with
  | none => true
  | some vs => decide (target ∈ vs)

/-- `check_link_type`, src/typed_graph/macro_traits.rs:154-159. -/
def checkLinkTypeC (nm : Naming) (S : Schema) (target : Ident) (m : Mirror) : Bool :=
  (S.toLog m).all fun log => S.checkLinkTypeByLogC nm target m.disc (nm.camel log)

end Schema
end TTGraph
