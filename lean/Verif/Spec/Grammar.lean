import Verif.Model.Parse

/-!
# How declarations are written

The syntax of `bidirectional!`, `group!`, `link_type!`, `#[group(..)]` and `#[phantom_group(..)]` as relations between a declaration and a
sequence of tokens, and what the type of a field means to rustc.
-/

set_option autoImplicit false

namespace TTGraph
namespace Spec

/-- The character, with or without a space after it. -/
def IsPunct (c : Char) (t : Tok) : Prop := ∃ j, t = .punct c j

/-- One after the other, with commas between them and maybe a comma after the last. -/
inductive Listed {α : Type} (R : α → List Tok → Prop) : List α → List Tok → Prop
  | nil : Listed R [] []
  | last {x : α} {ts : List Tok} : R x ts → Listed R [x] ts
  | more {x : α} {xs : List α} {c : Tok} {ts us : List Tok} :
      R x ts → IsPunct ',' c → Listed R xs us → Listed R (x :: xs) (ts ++ c :: us)

/-- A name that is not reserved. -/
inductive WritesIdent : Ident → List Tok → Prop
  | mk {n : Ident} : WritesIdent n [.ident n]

/-- A name that may be reserved. -/
inductive WritesAny : Ident → List Tok → Prop
  | ident {n : Ident} : WritesAny n [.ident n]
  | word {n : Ident} : WritesAny n [.word n]

/-- `v.l <-> w.m`. -/
inductive WritesBidir : BidirDecl → List Tok → Prop
  | mk {v l w m : Ident} {d e a : Tok} : IsPunct '.' d → IsPunct '.' e → IsPunct '>' a →
      WritesBidir ⟨v, l, w, m⟩ [.ident v, d, .ident l, .punct '<' true, .punct '-' true, a, .ident w, e, .ident m]

/-- `g { v, .. }`. -/
inductive WritesGroup : Ident × List Ident → List Tok → Prop
  | mk {g : Ident} {vs : List Ident} {ts : List Tok} : Listed WritesIdent vs ts → WritesGroup (g, vs) [.ident g, .group .brace ts]

/-- `v.l : w` or `v.l : { w, .. }`. -/
inductive WritesAnno : TypeAnno → List Tok → Prop
  | one {v l w : Ident} {d c : Tok} : IsPunct '.' d → IsPunct ':' c → WritesAnno ⟨v, l, [w]⟩ [.ident v, d, .ident l, c, .ident w]
  | many {v l : Ident} {ws : List Ident} {d c : Tok} {ts : List Tok} : IsPunct '.' d → IsPunct ':' c → Listed WritesIdent ws ts →
      WritesAnno ⟨v, l, ws⟩ [.ident v, d, .ident l, c, .group .brace ts]

/-- The blocks after the enum, in any order and any number: their declarations are put together. -/
inductive WritesBlocks : List SrcItem → List BidirDecl → List (Ident × List Ident) → List TypeAnno → Prop
  | nil : WritesBlocks [] [] [] []
  | bidirectional {ts : List Tok} {rest : List SrcItem} {bs bs' : List BidirDecl} {gs : List (Ident × List Ident)} {as : List TypeAnno} :
      Listed WritesBidir bs ts → WritesBlocks rest bs' gs as → WritesBlocks (.call (some "bidirectional") ts :: rest) (bs ++ bs') gs as
  | group {ts : List Tok} {rest : List SrcItem} {bs : List BidirDecl} {gs gs' : List (Ident × List Ident)} {as : List TypeAnno} :
      Listed WritesGroup gs ts → WritesBlocks rest bs gs' as → WritesBlocks (.call (some "group") ts :: rest) bs (gs ++ gs') as
  | linkType {ts : List Tok} {rest : List SrcItem} {bs : List BidirDecl} {gs : List (Ident × List Ident)} {as as' : List TypeAnno} :
      Listed WritesAnno as ts → WritesBlocks rest bs gs as' → WritesBlocks (.call (some "link_type") ts :: rest) bs gs (as ++ as')

/-- A `node_enum!` block: an enum whose variants `d(Type)` have one unnamed field each, and the blocks. -/
inductive WritesEnum (structs : Ident → Option StructDecl) : List SrcItem → Schema → Prop
  | mk {vs : List (Ident × Option (List Ident))} {rest : List SrcItem} {S : Schema} :
      List.Forall₂ (fun v d => ∃ ty, v = (d.1, some [ty]) ∧ structs ty = some d.2) vs S.variants →
      WritesBlocks rest S.bidirs S.groups S.annos → WritesEnum structs (.enum vs :: rest) S

/-- All of them, each with a comma after it. -/
def text {α : Type} (one : α → List Tok) (xs : List α) : List Tok := xs.flatMap fun x => one x ++ [.punct ',' false]

/-- A text for the declarations in the blocks of `S`. -/
def blocks (S : Schema) : List SrcItem :=
  [.call (some "bidirectional") (text (fun b => [.ident b.var1, .punct '.' false, .ident b.link1, .punct '<' true, .punct '-' true,
      .punct '>' false, .ident b.var2, .punct '.' false, .ident b.link2]) S.bidirs),
   .call (some "group") (text (fun g => [.ident g.1, .group .brace (text (fun v => [.ident v]) g.2)]) S.groups),
   .call (some "link_type") (text (fun a => [.ident a.var, .punct '.' false, .ident a.link, .punct ':' false,
      .group .brace (text (fun v => [.ident v]) a.var2)]) S.annos)]

/-- The attributes of one name, each of them with a list of names in parentheses. -/
def WritesAttrs (name : String) (as : List AttrSrc) (gs : List (List Ident)) : Prop :=
  List.Forall₂ (fun a g => ∃ ts, a.args = some ts ∧ Listed WritesAny g ts) (as.filter fun a => a.name = some name) gs

/-- `NodeIndex`, as the macro wants it. -/
def SpeltNode (p : PathSrc) : Prop := p = ⟨false, ["NodeIndex"]⟩ ∨ p = ⟨false, ["ttgraph", "NodeIndex"]⟩

/-- The spellings of link types.  `leading` is a `::` at the front. -/
inductive Spelt : LinkKind → TypeSrc → Prop
  | direct {p : PathSrc} : SpeltNode p → Spelt .direct (.plain p)
  | vec {pre : List String} {q : PathSrc} : pre ∈ [[], ["vec"], ["std", "vec"]] → SpeltNode q →
      Spelt .vec (.applied ⟨false, pre ++ ["Vec"]⟩ false q)
  | std {name : String} {pre : List String} {q : PathSrc} : name = "HashSet" ∨ name = "BTreeSet" →
      pre ∈ [[], ["collections"], ["std", "collections"]] → SpeltNode q → Spelt .set (.applied ⟨false, pre ++ [name]⟩ false q)
  | stdLeading {name : String} {q : PathSrc} : name = "HashSet" ∨ name = "BTreeSet" → SpeltNode q →
      Spelt .set (.applied ⟨true, ["std", "collections", name]⟩ false q)
  | krate {crate name : String} {leading : Bool} {q : PathSrc} : (crate, name) = ("ordermap", "OrderSet") ∨ (crate, name) = ("indexmap", "IndexSet") →
      SpeltNode q → Spelt .set (.applied ⟨leading, [crate, name]⟩ false q)
  | krateSet {crate name : String} {leading : Bool} {q : PathSrc} : (crate, name) = ("ordermap", "OrderSet") ∨ (crate, name) = ("indexmap", "IndexSet") →
      SpeltNode q → Spelt .set (.applied ⟨leading, [crate, "set", name]⟩ false q)
  | short {name : String} {pre : List String} {q : PathSrc} : name = "OrderSet" ∨ name = "IndexSet" → pre = [] ∨ pre = ["map"] → SpeltNode q →
      Spelt .set (.applied ⟨false, pre ++ [name]⟩ false q)
  | misspelt {q : PathSrc} : SpeltNode q → Spelt .set (.applied ⟨false, ["tgraph", "ordermap", "OrderSet"]⟩ false q)

/-- A field: links are told by the spelling of the type, and only they can have `#[group(..)]`. -/
structure WritesField (f : FieldSrc) (d : FieldDecl) : Prop where
  name : d.name = f.name
  link : ∀ k, d.ty = .link k ↔ Spelt k f.src
  data : ∀ ty path, d.ty = .data ty path → ty = f.ty ∧ (path = true ↔ f.src ≠ .other)
  groups : WritesAttrs "group" f.attrs d.groupAttrs
  grouped : d.groupAttrs ≠ [] → ∃ k, d.ty = .link k

/-- A struct with named fields, and its `#[phantom_group(..)]`. -/
structure WritesStruct (s : StructSrc) (sd : StructDecl) : Prop where
  fields : ∃ fs, s.fields = some fs ∧ List.Forall₂ WritesField fs sd.fields
  phantom : ∃ gs, WritesAttrs "phantom_group" s.attrs gs ∧ sd.phantom = gs.flatten

/-! ## What a type means -/

/-- What the names in scope stand for (by `use` and for crates), as absolute paths. -/
abbrev Scope := String → Option (List String)

/-- The absolute path of a path. -/
def absolute (sc : Scope) (p : PathSrc) : Option (List String) :=
  if p.leading then some p.segs
  else match p.segs with
    | [] => none
    | s :: r => (sc s).map (· ++ r)

/-- The path is the one of `ttgraph::NodeIndex`. -/
def MeansNode (sc : Scope) (p : PathSrc) : Prop := absolute sc p = some ["ttgraph", "NodeIndex"]

/-- The types with which a field should be a link, by the documentation (src/lib.rs:52-56): node indices, vectors of them and sets of them.
The `::` before arguments is optional in Rust. -/
inductive Means (sc : Scope) : LinkKind → TypeSrc → Prop
  | direct {p : PathSrc} : MeansNode sc p → Means sc .direct (.plain p)
  | vec {p q : PathSrc} {turbofish : Bool} : absolute sc p = some ["std", "vec", "Vec"] → MeansNode sc q →
      Means sc .vec (.applied p turbofish q)
  | set {p q : PathSrc} {turbofish : Bool} {path : List String} : absolute sc p = some path →
      path ∈ [["std", "collections", "HashSet"], ["std", "collections", "BTreeSet"], ["ordermap", "OrderSet"],
        ["ordermap", "set", "OrderSet"], ["indexmap", "IndexSet"], ["indexmap", "set", "IndexSet"]] → MeansNode sc q →
      Means sc .set (.applied p turbofish q)

/-- No name in scope stands for something with another name (no `use .. as ..`). -/
def NoRenaming (sc : Scope) : Prop := ∀ s path, sc s = some path → path.getLast? = some s

/-- The type is written without a `::` at the front or before arguments, and its path does not begin with the module `set`. -/
def Unadorned : TypeSrc → Prop
  | .plain p => p.leading = false
  | .applied p turbofish q => p.leading = false ∧ p.segs.head? ≠ some "set" ∧ turbofish = false ∧ q.leading = false
  | _ => True

end Spec
end TTGraph
