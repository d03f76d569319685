import Verif.Model.Schema

/-!
# How the macros read declarations

From token trees to the data in `Schema`.  A parser returns `none` where the macro reports an error, aborts or panics: in all three cases the
program does not compile.

The parts of the text that only `syn` reads are given as `syn` presents them: the items of a `node_enum!` block, the fields of a struct, its
attributes, the segments of a path.  Generics, visibility, attributes of enums and groups without delimiters (which come from
`macro_rules!` variables) are left out.
-/

set_option autoImplicit false

namespace TTGraph

/-- Delimiters of token groups (`proc_macro2::Delimiter`). -/
inductive Delim
  | brace
  | paren
  | bracket
  deriving DecidableEq, Repr

/-- Token trees (`proc_macro2::TokenTree`).  `word` is an identifier that Rust reserves (keywords and `_`); `joint` says that the next
character of punctuation follows without a space. -/
inductive Tok
  | ident (n : Ident)
  | word (n : Ident)
  | punct (c : Char) (joint : Bool)
  | lit
  | group (d : Delim) (ts : List Tok)

/-- `fn parse(input: ParseStream) -> syn::Result<Self>`: the value and what is left of the input. -/
abbrev Parser (α : Type) := List Tok → Option (α × List Tok)

namespace Read

/-- `Ident::parse` of `syn`: reserved words are rejected. -/
def ident : Parser Ident
  | .ident n :: r => some (n, r)
  | _ => none

/-- `Token![..]` and `custom_punctuation!` of `syn`: the characters in order, all but the last followed without space. -/
def punct : List Char → Parser Unit
  | [c], .punct d _ :: r => if c = d then some ((), r) else none
  | c :: c' :: cs, .punct d true :: r => if c = d then punct (c' :: cs) r else none
  | _, _ => none

/-- `Punctuated::parse_terminated_with` of `syn` for `Token![,]`: items until the input is empty, a comma after each one but perhaps the
last.  Every item takes at least one token, so the length of the input is fuel enough. -/
def items {α : Type} (p : Parser α) : Nat → List Tok → Option (List α)
  | _, [] => some []
  | 0, _ :: _ => none
  | fuel + 1, t :: ts =>
    match p (t :: ts) with
    | none => none
    | some (x, []) => some [x]
    | some (x, u :: us) =>
      match punct [','] (u :: us) with
      | none => none
      | some (_, r) => (items p fuel r).map (x :: ·)

/-- `input.parse_terminated(p, Token![,])`. -/
def terminated {α : Type} (p : Parser α) (ts : List Tok) : Option (List α) := items p ts.length ts

/-- `braced!(content in input)` and what is read from `content`, to its end. -/
def braced {α : Type} (p : List Tok → Option α) : Parser α
  | .group .brace inner :: r => (p inner).map fun x => (x, r)
  | _ => none

/-- `BidirectionalLink::parse`, ttgraph_macros/src/bidirectional.rs:12, 22-35. -/
def bidir : Parser BidirDecl := fun ts => do
  let (var1, ts) ← ident ts
  let (_, ts) ← punct ['.'] ts
  let (link1, ts) ← ident ts
  let (_, ts) ← punct ['<', '-', '>'] ts
  let (var2, ts) ← ident ts
  let (_, ts) ← punct ['.'] ts
  let (link2, ts) ← ident ts
  return (⟨var1, link1, var2, link2⟩, ts)

/-- `BidirectionalLinkVec::parse` and `get_bidirectional_links`, ttgraph_macros/src/bidirectional.rs:41-55. -/
def bidirs (ts : List Tok) : Option (List BidirDecl) := terminated bidir ts

/-- `NamedGroup::parse`, ttgraph_macros/src/group.rs:15-26. -/
def namedGroup : Parser (Ident × List Ident) := fun ts => do
  let (name, ts) ← ident ts
  let (idents, ts) ← braced (terminated ident) ts
  return ((name, idents), ts)

/-- `NamedGroupVec::parse`, ttgraph_macros/src/group.rs:32-37. -/
def groups (ts : List Tok) : Option (List (Ident × List Ident)) := terminated namedGroup ts

/-- The variants of an annotation, ttgraph_macros/src/link_check.rs:27-34. -/
def annoVars : Parser (List Ident)
  | .group .brace i :: ts => braced (terminated ident) (.group .brace i :: ts)
  | ts => (ident ts).map fun (v, r) => ([v], r)

/-- `TypeAnnotation::parse`, ttgraph_macros/src/link_check.rs:21-37. -/
def anno : Parser TypeAnno := fun ts => do
  let (var, ts) ← ident ts
  let (_, ts) ← punct ['.'] ts
  let (link, ts) ← ident ts
  let (_, ts) ← punct [':'] ts
  let (var2, ts) ← annoVars ts
  return (⟨var, link, var2⟩, ts)

/-- `TypeAnnotationVec::parse`, ttgraph_macros/src/link_check.rs:39-46. -/
def annos (ts : List Tok) : Option (List TypeAnno) := terminated anno ts

/-- One name in `#[group(..)]` and `#[phantom_group(..)]`: `meta.path.get_ident()`, ttgraph_macros/src/lib.rs:225-232, 258-266.  `syn`
takes reserved words here.  A path with `::` is an error of the macro; here the colon is not taken, and then there is no comma. -/
def metaIdent : Parser Ident
  | .ident n :: r => some (n, r)
  | .word n :: r => some (n, r)
  | _ => none

/-- `attr.parse_nested_meta(..)` of `syn` with the closures of ttgraph_macros/src/lib.rs:225-232, 258-266; its loop is the one of
`parse_terminated`.  `none` for the arguments is an attribute without parentheses. -/
def nestedMeta (args : Option (List Tok)) : Option (List Ident) := args.bind (terminated metaIdent)

end Read

/-- The items of a file (`syn::Item`).  A variant of an enum has its unnamed fields, by type; `none` stands for named fields and for no
fields.  A macro call has the name of the macro if its path is one identifier. -/
inductive SrcItem
  | enum (variants : List (Ident × Option (List Ident)))
  | call (name : Option String) (ts : List Tok)
  | other

/-- The declarations collected by `node_enum!` (the variables `bidirectional_links`, `groups`, `type_annotations`),
ttgraph_macros/src/lib.rs:88-90. -/
structure Collected where
  bidirs : List BidirDecl := []
  groups : List (Ident × List Ident) := []
  annos : List TypeAnno := []
  deriving DecidableEq, Repr

namespace Read

/-- One item after the enum, ttgraph_macros/src/lib.rs:91-119. -/
def item (c : Collected) : SrcItem → Option Collected
  | .call name ts =>
    if name = some "bidirectional" then (bidirs ts).map fun x => { c with bidirs := c.bidirs ++ x }
    else if name = some "group" then (groups ts).map fun x => { c with groups := c.groups ++ x }
    else if name = some "link_type" then (annos ts).map fun x => { c with annos := c.annos ++ x }
    else none
  | _ => none

/-- One variant of the enum, ttgraph_macros/src/lib.rs:62-76. -/
def variant : Ident × Option (List Ident) → Option (Ident × Ident)
  | (ident, some [ty]) => some (ident, ty)
  | _ => none

/-- `node_enum!` up to `abort_if_dirty`, ttgraph_macros/src/lib.rs:51-122, without `check_bidirectional_links`.  `structs` gives the
declarations of the structs that derive `TypedNode`, by their type; a variant of another type does not compile (rustc). -/
def nodeEnum (structs : Ident → Option StructDecl) : List SrcItem → Option Schema
  | .enum variants :: rest => do
    let vars ← variants.mapM variant
    let c ← rest.foldlM item {}
    let vs ← vars.mapM fun v => (structs v.2).map fun sd => (v.1, sd)
    return { variants := vs, groups := c.groups, bidirs := c.bidirs, annos := c.annos }
  | _ => none

end Read

/-- A path without arguments: has it a leading `::`, and its segments. -/
structure PathSrc where
  leading : Bool := false
  segs : List String
  deriving DecidableEq, Repr

/-- A type as it is written (`syn::Type`): `p`, `p<q>` or `p::<q>` (`turbofish`), another path, another type.  `syn` compares types with all their
tokens. -/
inductive TypeSrc
  | plain (p : PathSrc)
  | applied (p : PathSrc) (turbofish : Bool) (q : PathSrc)
  | otherPath
  | other
  deriving DecidableEq, Repr

namespace Read

/-- `direct_paths`, ttgraph_macros/src/lib.rs:170. -/
def directPaths : List PathSrc := [{ segs := ["ttgraph", "NodeIndex"] }, { segs := ["NodeIndex"] }]

/-- The paths of `set_paths` before `<#dpath>`, ttgraph_macros/src/lib.rs:174-197. -/
def setPrefixes : List PathSrc :=
  [{ leading := true, segs := ["std", "collections", "HashSet"] },
   { segs := ["std", "collections", "HashSet"] },
   { segs := ["collections", "HashSet"] },
   { segs := ["HashSet"] },
   { leading := true, segs := ["std", "collections", "BTreeSet"] },
   { segs := ["std", "collections", "BTreeSet"] },
   { segs := ["collections", "BTreeSet"] },
   { segs := ["BTreeSet"] },
   { leading := true, segs := ["ordermap", "set", "OrderSet"] },
   { leading := true, segs := ["ordermap", "OrderSet"] },
   { segs := ["ordermap", "set", "OrderSet"] },
   { segs := ["ordermap", "OrderSet"] },
   { segs := ["map", "OrderSet"] },
   { segs := ["tgraph", "ordermap", "OrderSet"] },
   { segs := ["OrderSet"] },
   { leading := true, segs := ["indexmap", "set", "IndexSet"] },
   { leading := true, segs := ["indexmap", "IndexSet"] },
   { segs := ["indexmap", "set", "IndexSet"] },
   { segs := ["indexmap", "IndexSet"] },
   { segs := ["map", "IndexSet"] },
   { segs := ["IndexSet"] }]

/-- The paths of `vec_paths` before `<#dpath>`, ttgraph_macros/src/lib.rs:199-201. -/
def vecPrefixes : List PathSrc :=
  [{ segs := ["std", "vec", "Vec"] }, { segs := ["vec", "Vec"] }, { segs := ["Vec"] }]

/-- `set_paths`, ttgraph_macros/src/lib.rs:171-202. -/
def setPaths : List TypeSrc := directPaths.flatMap fun d => setPrefixes.map fun p => .applied p false d

/-- `vec_paths`, ttgraph_macros/src/lib.rs:172-202. -/
def vecPaths : List TypeSrc := directPaths.flatMap fun d => vecPrefixes.map fun p => .applied p false d

/-- The classification of a field, ttgraph_macros/src/lib.rs:206-220; `ty` is the type for rustc. -/
def fieldTy (t : TypeSrc) (ty : Nat) : FieldTy :=
  if t = .other then .data ty false
  else if t ∈ directPaths.map TypeSrc.plain then .link .direct
  else if t ∈ setPaths then .link .set
  else if t ∈ vecPaths then .link .vec
  else .data ty true

end Read

/-- An attribute: its name if its path is one identifier, and the tokens in its parentheses, if any. -/
structure AttrSrc where
  name : Option String
  args : Option (List Tok)

/-- A named field; `ty` is its type for rustc. -/
structure FieldSrc where
  name : Ident
  src : TypeSrc
  ty : Nat := 0
  attrs : List AttrSrc := []

/-- A struct (`syn::ItemStruct`); `none` for the fields stands for a struct without named fields. -/
structure StructSrc where
  fields : Option (List FieldSrc)
  attrs : List AttrSrc := []

namespace Read

/-- The arguments of the attributes of one name. -/
def attrs (name : String) (as : List AttrSrc) : Option (List (List Ident)) :=
  (as.filter fun a => a.name = some name).mapM fun a => nestedMeta a.args

/-- One field, ttgraph_macros/src/lib.rs:204-250: a `#[group(..)]` on a field that is not a link is an error. -/
def field (f : FieldSrc) : Option FieldDecl := do
  let gs ← attrs "group" f.attrs
  let d : FieldDecl := { name := f.name, ty := fieldTy f.src f.ty, groupAttrs := gs }
  if d.isLink ∨ gs = [] then some d else none

/-- `#[derive(TypedNode)]` up to `abort_if_dirty`, ttgraph_macros/src/lib.rs:158-271. -/
def struct (s : StructSrc) : Option StructDecl := do
  let fs ← s.fields
  let ds ← fs.mapM field
  let ph ← attrs "phantom_group" s.attrs
  return { fields := ds, phantom := ph.flatten }

end Read
end TTGraph
