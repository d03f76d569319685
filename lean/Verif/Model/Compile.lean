import Verif.Model.Bidir
import Verif.Model.Reflect

/-!
# Declarations that compile

What the macros reject, and which names the code they generate refers to: the compiler rejects a name that is not declared, an enum or struct that
declares a name twice, a reserved word as a name and a pattern without alternatives.  Types and visibility are not modelled, nor are the names of
generated types and modules, so real declarations may be rejected for more reasons than these.
-/

set_option autoImplicit false

namespace TTGraph

/-- How the macros change names, ttgraph_macros/src/utils.rs:6-12 (the crate `change_case`), and which names Rust reserves.  `empty` is the name
`Empty` of the placeholder in structs without links. -/
structure Naming where
  camel : Ident → Ident
  snake : Ident → Ident
  reserved : Ident → Bool
  empty : Ident

namespace StructDecl

/-- The names behind the variants of the generated enum `LoGMirror`: the link fields and the keys of `group_map`,
ttgraph_macros/src/typed_node.rs:104-136. -/
def logNames (sd : StructDecl) : List Ident := sd.linkNames ++ sd.groupKeys.dedup

/-- The variants of `LoGMirror`, in camel case and with the placeholder, ttgraph_macros/src/typed_node.rs:110-136. -/
def logVariants (sd : StructDecl) (nm : Naming) : List Ident :=
  (if sd.links.isEmpty then [nm.empty] else []) ++ sd.logNames.map nm.camel

/-- A struct with `#[derive(TypedNode)]` compiles: the fields have different names (rustc), only links are in groups
(ttgraph_macros/src/lib.rs:235-236), and the variants of `LoGMirror` have different names that are not reserved (typed_node.rs:138-142, rustc). -/
def Compiles (sd : StructDecl) (nm : Naming) : Prop :=
  (sd.fields.map FieldDecl.name).Nodup ∧ (∀ f ∈ sd.fields, f.isLink = true ∨ f.groupAttrs = []) ∧ (sd.logVariants nm).Nodup ∧
  ∀ l ∈ sd.logVariants nm, nm.reserved l = false

instance (sd : StructDecl) (nm : Naming) : Decidable (sd.Compiles nm) := inferInstanceAs (Decidable (_ ∧ _))

end StructDecl

namespace Schema

/-- `<Type of the variant>::LoGMirror::Name` exists, for the name in camel case; ttgraph_macros/src/bidirectional.rs:130-138, link_check.rs:83, 103.
For an unknown variant `ty_map[var]` panics, bidirectional.rs:133. -/
def resolves (S : Schema) (nm : Naming) (r : Ident × Ident) : Bool :=
  match S.struct? r.1 with
  | some sd => decide (nm.camel r.2 ∈ sd.logVariants nm)
  | none => false

/-- The links and groups that the code of `make_bidirectional_link` mentions, ttgraph_macros/src/bidirectional.rs:125-152, 154-171. -/
def bidirRefs (S : Schema) : List (Ident × Ident) :=
  S.discs.flatMap fun var => (S.bLinkNames var).flatMap fun link => (var, link) :: S.bLinks var link

/-- The annotations that become match arms, ttgraph_macros/src/link_check.rs:82-110: those whose variant is one of the enum. -/
def usedAnnos (S : Schema) : List TypeAnno := S.expandedAnnos.filter fun a => decide (a.var ∈ S.discs)

/-- A `node_enum!` block compiles.  In order: there is a variant (ttgraph_macros/src/cate_arena.rs:27), variants have different names (rustc),
also as fields of the arena, in snake case, and not reserved ones (cate_arena.rs:235, 241-244, rustc); their structs compile; the patterns of `in_group` have alternatives, which are variants (group.rs:108-121, rustc);
`check_bidirectional_links` (bidirectional.rs:58-71) finds no error; the names in the code for `bidirectional!` and `link_type!` exist, and
the patterns for annotations have alternatives, which are variants (link_check.rs:90-101). -/
def Compiles (S : Schema) (nm : Naming) : Prop :=
  S.discs ≠ [] ∧ S.discs.Nodup ∧ ((S.discs.map nm.snake).Nodup ∧ ∀ d ∈ S.discs, nm.reserved (nm.snake d) = false) ∧
  (∀ v ∈ S.variants, v.2.Compiles nm) ∧
  (∀ g ∈ S.groups, g.2 ≠ [] ∧ ∀ i ∈ g.2, i ∈ S.discs) ∧
  (∀ b ∈ S.bidirs, b.var1 ∈ S.discs ++ S.groups.map Prod.fst ∧ b.var2 ∈ S.discs ++ S.groups.map Prod.fst) ∧
  (∀ r ∈ S.bidirRefs, S.resolves nm r = true) ∧
  ∀ a ∈ S.usedAnnos, S.resolves nm (a.var, a.link) = true ∧ a.var2 ≠ [] ∧ ∀ v ∈ a.var2, v ∈ S.discs

instance (S : Schema) (nm : Naming) : Decidable (S.Compiles nm) := inferInstanceAs (Decidable (_ ∧ _))

end Schema
end TTGraph
