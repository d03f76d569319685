import Verif.Lemmas.Spelling
import Verif.Props.Compile

/-!
# How declarations are read: C66, C67
-/

set_option autoImplicit false

namespace TTGraph
open Spec

/-- A `node_enum!` block is read as the declarations that are written in it, and nothing else is accepted: the enum first, with variants of
one unnamed field, then blocks in any order, with commas between declarations and, if one likes, after the last. -/
theorem C66_reads {structs : Ident → Option StructDecl} {items : List SrcItem} {S : Schema} :
    Read.nodeEnum structs items = some S ↔ WritesEnum structs items S := Read.nodeEnum_iff

/-- Every set of declarations can be written. -/
theorem C66_writable {structs : Ident → Option StructDecl} {S : Schema} {vs : List (Ident × Option (List Ident))}
    (hv : List.Forall₂ (fun v d => ∃ ty, v = (d.1, some [ty]) ∧ structs ty = some d.2) vs S.variants) :
    Read.nodeEnum structs (.enum vs :: blocks S) = some S := by
  have hid : ∀ ns, Listed WritesIdent ns (text (fun v => [.ident v]) ns) := fun ns => Read.text_listed (fun _ => .mk) ns
  refine C66_reads.2 (.mk hv ?_)
  have h := WritesBlocks.bidirectional (Read.text_listed (R := WritesBidir) (fun b => .mk ⟨false, rfl⟩ ⟨false, rfl⟩ ⟨false, rfl⟩) S.bidirs)
    (.group (Read.text_listed (R := WritesGroup) (fun g => .mk (hid g.2)) S.groups)
      (.linkType (Read.text_listed (R := WritesAnno) (fun a => .many ⟨false, rfl⟩ ⟨false, rfl⟩ (hid a.var2)) S.annos) .nil))
  simpa only [List.append_nil, blocks] using h

/-- A struct that derives `TypedNode` is read as it is written: its fields in order, the groups of each field, the phantom groups. -/
theorem C66_struct {s : StructSrc} {sd : StructDecl} : Read.struct s = some sd ↔ WritesStruct s sd := Read.struct_iff

/-- A field is a link if its type is `NodeIndex`, a vector or a set of them, provided that its type is written without `::` at the front or
before `<`, that names are not renamed by `use .. as ..` and that the module `set` is not in scope under its own name. -/
theorem C67_links_partial {sc : Scope} (hn : NoRenaming sc) {s : StructSrc} {sd : StructDecl} (h : Read.struct s = some sd) :
    ∃ fs, s.fields = some fs ∧
      List.Forall₂ (fun f d => d.name = f.name ∧ ∀ k, Means sc k f.src → Unadorned f.src → d.ty = .link k) fs sd.fields := by
  obtain ⟨fs, hf, hd⟩ := (C66_struct.1 h).fields
  exact ⟨fs, hf, hd.imp fun f d hw => ⟨hw.name, fun k hm hu => (hw.link k).2 (Read.spelt_of hn hm hu)⟩⟩

/-- Links of one kind are not taken for links of another, and a field whose type is not written as a path is never a link. -/
theorem C67_kind {sc : Scope} (hn : NoRenaming sc) {s : StructSrc} {sd : StructDecl} (h : Read.struct s = some sd) :
    ∃ fs, s.fields = some fs ∧
      List.Forall₂ (fun f d => ∀ k, d.ty = .link k → f.src ≠ .other ∧ ∀ j, Means sc j f.src → j = k) fs sd.fields := by
  obtain ⟨fs, hf, hd⟩ := (C66_struct.1 h).fields
  exact ⟨fs, hf, hd.imp fun f d hw k hk => ⟨Read.not_other ((hw.link k).1 hk), fun j hm => (Read.means_unique hn ((hw.link k).1 hk) hm).symm⟩⟩

namespace Demo

/-- `use ttgraph::NodeIndex; use std::collections; use std::collections::{HashSet, BTreeSet}; use ordermap::{set, OrderSet};` and what is
always in scope. -/
def scope : Scope := fun s =>
  if s = "ttgraph" ∨ s = "std" ∨ s = "ordermap" ∨ s = "indexmap" then some [s]
  else if s = "NodeIndex" then some ["ttgraph", "NodeIndex"]
  else if s = "collections" then some ["std", "collections"]
  else if s = "HashSet" ∨ s = "BTreeSet" then some ["std", "collections", s]
  else if s = "Vec" then some ["std", "vec", "Vec"]
  else if s = "OrderSet" then some ["ordermap", "OrderSet"]
  else if s = "set" then some ["ordermap", "set"]
  else none

theorem scope_plain : NoRenaming scope := by
  intro s path h
  unfold scope at h
  repeat' split at h
  all_goals first
    | (cases h; first | rfl | (next e => subst e; rfl))
    | cases h

def node : PathSrc := { segs := ["NodeIndex"] }
def fullNode : PathSrc := { segs := ["ttgraph", "NodeIndex"] }

/-- `struct { 1: NodeIndex, 2: collections::HashSet<ttgraph::NodeIndex>, 3: Vec<NodeIndex>, #[group(7, type,)] 4: ordermap::set::OrderSet<NodeIndex>, 5: (u32, u32) }`
with `#[phantom_group(8)]`. -/
def fiveFields : StructSrc where
  fields := some [
    { name := 1, src := .plain node },
    { name := 2, src := .applied { segs := ["collections", "HashSet"] } false fullNode },
    { name := 3, src := .applied { segs := ["Vec"] } false node },
    { name := 4, src := .applied { segs := ["ordermap", "set", "OrderSet"] } false node,
      attrs := [{ name := some "group", args := some [.ident 7, .punct ',' false, .word 9, .punct ',' false] }] },
    { name := 5, src := .other, ty := 6 }]
  attrs := [{ name := some "doc", args := none }, { name := some "phantom_group", args := some [.ident 8] }]

def fiveFieldsDecl : StructDecl where
  fields := [⟨1, .link .direct, []⟩, ⟨2, .link .set, []⟩, ⟨3, .link .vec, []⟩, ⟨4, .link .set, [[7, 9]]⟩, ⟨5, .data 6 false, []⟩]
  phantom := [8]

theorem fiveFields_read : Read.struct fiveFields = some fiveFieldsDecl := by decide +kernel

example : WritesStruct fiveFields fiveFieldsDecl := C66_struct.1 fiveFields_read
example : ∃ fs, fiveFields.fields = some fs ∧
    List.Forall₂ (fun f d => d.name = f.name ∧ ∀ k, Means scope k f.src → Unadorned f.src → d.ty = .link k) fs fiveFieldsDecl.fields :=
  C67_links_partial scope_plain fiveFields_read
example : Means scope .set (.applied { segs := ["collections", "HashSet"] } false fullNode) ∧
    Unadorned (.applied { segs := ["collections", "HashSet"] } false fullNode) :=
  ⟨.set (path := ["std", "collections", "HashSet"]) (by decide +kernel) (by simp) (by unfold MeansNode; decide +kernel), rfl, by decide, rfl, rfl⟩
example : Means scope .vec (.applied { segs := ["Vec"] } false node) := .vec (by decide +kernel) (by unfold MeansNode; decide +kernel)
example : ∃ fs, fiveFields.fields = some fs ∧
    List.Forall₂ (fun f d => ∀ k, d.ty = .link k → f.src ≠ .other ∧ ∀ j, Means scope j f.src → j = k) fs fiveFieldsDecl.fields :=
  C67_kind scope_plain fiveFields_read

/-- Types that should be links and are data fields for the macro: `Vec::<ttgraph::NodeIndex>` (an example of the documentation,
src/lib.rs:52), `::ttgraph::NodeIndex`, `::std::vec::Vec<NodeIndex>`, `set::OrderSet<NodeIndex>`, `HashSet<::ttgraph::NodeIndex>`. -/
def missed : List (LinkKind × TypeSrc) :=
  [(.vec, .applied { segs := ["Vec"] } true fullNode),
   (.direct, .plain { leading := true, segs := ["ttgraph", "NodeIndex"] }),
   (.vec, .applied { leading := true, segs := ["std", "vec", "Vec"] } false node),
   (.set, .applied { segs := ["set", "OrderSet"] } false node),
   (.set, .applied { segs := ["HashSet"] } false { leading := true, segs := ["ttgraph", "NodeIndex"] })]

/-- Without conditions on the spelling, a field of node indices need not be a link: the struct compiles and the graph does not see the field. -/
theorem C67_spelling_fails : NoRenaming scope ∧ ∀ m ∈ missed, Means scope m.1 m.2 ∧
    ∃ sd, Read.struct { fields := some [{ name := 1, src := m.2 }] } = some sd ∧ sd.Compiles naming ∧ sd.links = [] := by
  refine ⟨scope_plain, fun m hm => ⟨?_, ⟨[⟨1, .data 0 true, []⟩], []⟩, ?_, by decide +kernel, rfl⟩⟩
  · simp only [missed, List.mem_cons, List.not_mem_nil, or_false] at hm
    rcases hm with rfl | rfl | rfl | rfl | rfl
    · exact .vec (by decide +kernel) (by unfold MeansNode; decide +kernel)
    · exact .direct (by unfold MeansNode; decide +kernel)
    · exact .vec (by decide +kernel) (by unfold MeansNode; decide +kernel)
    · exact .set (path := ["ordermap", "set", "OrderSet"]) (by decide +kernel) (by simp) (by unfold MeansNode; decide +kernel)
    · exact .set (path := ["std", "collections", "HashSet"]) (by decide +kernel) (by simp) (by unfold MeansNode; decide +kernel)
  · have h : ∀ m ∈ missed, Read.struct { fields := some [{ name := 1, src := m.2 }] } = some ⟨[⟨1, .data 0 true, []⟩], []⟩ := by decide +kernel
    exact h m hm

/-- The example of the documentation (src/lib.rs:623-650) with a group and bidirectional links: the names are `Factory` 1, `Human` 2, `Robot` 3,
`workers` 10, `factory` 11, `worker` 20; the types of the variants are 31, 32 and 33. -/
def factoryText : List SrcItem :=
  [.enum [(1, some [31]), (2, some [32]), (3, some [33])],
   .call (some "bidirectional") [.ident 1, .punct '.' false, .ident 10, .punct '<' true, .punct '-' true, .punct '>' false,
     .ident 20, .punct '.' false, .ident 11, .punct ',' false],
   .call (some "group") [.ident 20, .group .brace [.ident 2, .punct ',' false, .ident 3], .punct ',' false],
   .call (some "link_type") [
     .ident 1, .punct '.' false, .ident 10, .punct ':' false, .group .brace [.ident 2, .punct ',' false, .ident 3], .punct ',' false,
     .ident 2, .punct '.' false, .ident 11, .punct ':' false, .ident 1, .punct ',' false,
     .ident 3, .punct '.' false, .ident 11, .punct ':' false, .ident 1]]

def factorySrc : Ident → Option StructSrc
  | 31 => some { fields := some [{ name := 12, src := .otherPath, ty := 1 }, { name := 10, src := .applied { segs := ["HashSet"] } false node }] }
  | 32 => some { fields := some [{ name := 12, src := .otherPath, ty := 1 }, { name := 11, src := .plain node }] }
  | 33 => some { fields := some [{ name := 13, src := .otherPath, ty := 2 }, { name := 11, src := .plain node }] }
  | _ => none

def factory : Schema where
  variants := [(1, ⟨[⟨12, .data 1 true, []⟩, ⟨10, .link .set, []⟩], []⟩), (2, ⟨[⟨12, .data 1 true, []⟩, ⟨11, .link .direct, []⟩], []⟩),
    (3, ⟨[⟨13, .data 2 true, []⟩, ⟨11, .link .direct, []⟩], []⟩)]
  groups := [(20, [2, 3])]
  bidirs := [⟨1, 10, 20, 11⟩]
  annos := [⟨1, 10, [2, 3]⟩, ⟨2, 11, [1]⟩, ⟨3, 11, [1]⟩]

theorem factory_read : Read.nodeEnum (fun ty => (factorySrc ty).bind Read.struct) factoryText = some factory := by decide +kernel

example : WritesEnum (fun ty => (factorySrc ty).bind Read.struct) factoryText factory := C66_reads.1 factory_read
example : factory.Compiles naming := by decide +kernel
example : Read.nodeEnum (fun ty => (factorySrc ty).bind Read.struct)
    (.enum [(1, some [31]), (2, some [32]), (3, some [33])] :: blocks factory) = some factory :=
  C66_writable (.cons ⟨31, rfl, by decide +kernel⟩ (.cons ⟨32, rfl, by decide +kernel⟩ (.cons ⟨33, rfl, by decide +kernel⟩ .nil)))

/-- Groups need commas between them: the syntax in the documentation of `node_enum!` (ttgraph_macros/src/lib.rs:44-47) has none. -/
example : Read.groups [.ident 20, .group .brace [.ident 2], .ident 21, .group .brace [.ident 3]] = none := rfl
/-- `< - >` is not `<->`. -/
example : Read.bidirs [.ident 1, .punct '.' false, .ident 10, .punct '<' false, .punct '-' false, .punct '>' false, .ident 2, .punct '.' false,
    .ident 11] = none := rfl

end Demo
end TTGraph
