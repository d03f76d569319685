import Verif.Spec.View

/-!
# Specification of `commit`

The documented order of operations (src/typed_graph.rs:384-394) as relations between views.
-/

set_option autoImplicit false

namespace TTGraph
namespace Spec

/-- One can get from `a` to `b` by following redirect requests. -/
inductive Chain (reqs : List (NodeIndex × NodeIndex)) : NodeIndex → NodeIndex → Prop
  | here (a : NodeIndex) : Chain reqs a a
  | step {a b c : NodeIndex} : (a, b) ∈ reqs → Chain reqs b c → Chain reqs a c

/-- Following the requests from some node leads back to it. -/
def Loop (reqs : List (NodeIndex × NodeIndex)) : Prop := ∃ a b, (a, b) ∈ reqs ∧ Chain reqs b a

/-- `ρ` sends a node that is not redirected to itself, and a redirected node to the end of the chain that starts with the first request
for it. -/
structure RedirectMap (reqs : List (NodeIndex × NodeIndex)) (ρ : NodeIndex → NodeIndex) : Prop where
  other : ∀ u, (∀ n, (u, n) ∉ reqs) → ρ u = u
  first : ∀ pre u n post, reqs = pre ++ (u, n) :: post → (∀ m, (u, m) ∉ pre) → Chain reqs n (ρ u) ∧ ∀ m, (ρ u, m) ∉ reqs

/-- Redirection of a list of requests. -/
def Redirected (reqs : List (NodeIndex × NodeIndex)) (v v' : View) : Prop := ∃ ρ, RedirectMap reqs ρ ∧ View.Renamed ρ v v'

/-- Insertion of the nodes `new`. -/
def Inserted (new v v' : View) : Prop :=
  (∀ x, new x = none → v' x = v x) ∧ ∀ x n, new x = some n → v x = none ∧ v' x = some n

/-- Applying closures one after the other, each to its node. -/
inductive Applied : List (NodeIndex × Closure) → View → View → Prop
  | nil {v v' : View} : (∀ x, v' x = v x) → Applied [] v v'
  | cons {i : NodeIndex} {f : Closure} {l : List (NodeIndex × Closure)} {v v1 v' : View} {n n' : Node} :
      v i = some n → f n = .ok n' → View.Set v i n' v1 → Applied l v1 v' → Applied ((i, f) :: l) v v'

/-- Removal of the nodes `xs`: they exist before and not after, and every link to them in another node is cleared. -/
def Removed (xs : List NodeIndex) (v v' : View) : Prop :=
  (∀ x ∈ xs, v x ≠ none ∧ v' x = none) ∧
  ∀ x, x ∉ xs → match v x, v' x with
    | none, none => True
    | some n, some n' => Node.Renamed (fun u => if u ∈ xs then emptyIdx else u) n n'
    | _, _ => False

/-- The link `m` from `x` to `y` is new in `v'`. -/
def AddedLink (v v' : View) (x : NodeIndex) (m : Mirror) (y : NodeIndex) : Prop := y ≠ emptyIdx ∧ v'.Link x m y ∧ ¬ v.Link x m y

/-- The link `m` from `x` to `y` is gone in `v'`. -/
def RemovedLink (v v' : View) (x : NodeIndex) (m : Mirror) (y : NodeIndex) : Prop := y ≠ emptyIdx ∧ v.Link x m y ∧ ¬ v'.Link x m y

/-- What the operations of the transaction make of the view `v0`, before bidirectional completion. -/
def Performed (t : Trans) (v0 v6 : View) : Prop :=
  ∃ v1 v2 v3 v4 v5, Redirected t.redir v0 v1 ∧ Inserted t.inc.get? v1 v2 ∧ Applied t.muts v2 v3 ∧ Applied t.upds v3 v4 ∧
    Redirected t.redirAll v4 v5 ∧ Removed t.dec.elems v5 v6

/-- A view that the transaction passes through while its operations are performed on `v0`: the start, or a state after the first redirection,
the insertion, some of the mutations, some of the updates, or the second redirection. -/
def Stage (t : Trans) (v0 v : View) : Prop :=
  v = v0 ∨ Redirected t.redir v0 v ∨ ∃ v1 v2, Redirected t.redir v0 v1 ∧ Inserted t.inc.get? v1 v2 ∧
    ((∃ pre, pre <+: t.muts ∧ Applied pre v2 v) ∨ ∃ v3, Applied t.muts v2 v3 ∧
      ((∃ pre, pre <+: t.upds ∧ Applied pre v3 v) ∨ ∃ v4, Applied t.upds v3 v4 ∧ Redirected t.redirAll v4 v))

/-- The field `m` of `x` is not a `Vec`, or it never holds `y` twice while the operations of the transaction are performed. -/
def Steady (S : Schema) (t : Trans) (v0 : View) (x : NodeIndex) (m : Mirror) (y : NodeIndex) : Prop :=
  S.kind? m ≠ some .vec ∨ ∀ v, Stage t v0 v → v.Once x m y

/-! ### Declarations -/

/-- The name `v` stands for the variant `d`: directly or as the name of a group. -/
def VarNames (S : Schema) (v d : Ident) : Prop := (v = d ∧ d ∈ S.discs) ∨ ∃ ds, (v, ds) ∈ S.groups ∧ d ∈ ds ∧ d ∈ S.discs

/-- The field number `pos` among the link fields of a struct carries the name `l` or is listed in a link group of that name. -/
def FieldNames (sd : StructDecl) (l : Ident) (pos : Nat) : Prop :=
  ∃ f, sd.links[pos]? = some f ∧ (f.name = l ∨ ∃ gs ∈ f.groupAttrs, l ∈ gs)

/-- `v.l` in a declaration stands for the link field `m`. -/
def Names (S : Schema) (v l : Ident) (m : Mirror) : Prop :=
  VarNames S v m.disc ∧ ∃ sd, (m.disc, sd) ∈ S.variants ∧ FieldNames sd l m.pos

/-- `m` and `m'` are opposite by some line of `bidirectional!`. -/
def Opposite (S : Schema) (m m' : Mirror) : Prop :=
  ∃ l ∈ S.bidirs, (Names S l.var1 l.link1 m ∧ Names S l.var2 l.link2 m') ∨ (Names S l.var1 l.link1 m' ∧ Names S l.var2 l.link2 m)

/-- In a node of variant `d`, `m'` is the only field that is opposite to `m`. -/
def OnlyOpposite (S : Schema) (m : Mirror) (d : Ident) (m' : Mirror) : Prop :=
  Opposite S m m' ∧ m'.disc = d ∧ ∀ m'', Opposite S m m'' → m''.disc = d → m'' = m'

/-- No `Vec` field of a `bidirectional!` line holds a node twice while the operations of the transaction are performed. -/
def SteadyBidir (S : Schema) (t : Trans) (v0 : View) : Prop := ∀ x m y m', Opposite S m m' → Steady S t v0 x m y

/-- `x` and `y` are nodes of `v` and `y` is of variant `d`. -/
def Ends (v : View) (x y : NodeIndex) (d : Ident) : Prop := v x ≠ none ∧ ∃ n, v y = some n ∧ n.disc = d

/-- Everything but the targets of the links is the same. -/
def SameButLinks (v v' : View) : Prop := ∀ x, (v' x).map Node.shape = (v x).map Node.shape

/-- Bidirectional completion: `v` before the commit, `v6` after the operations of the transaction.  The opposite of every removed link is
removed and the opposite of every added link is added, where both ends are nodes and the field is not a `Vec`; nothing else changes. -/
def Completion (S : Schema) (v v6 v7 : View) : Prop :=
  SameButLinks v6 v7 ∧ ∀ z t w, v7.Holds z t w ↔
    (v6.Holds z t w ∧ ¬ ∃ m d, RemovedLink v v6 w m z ∧ Ends v6 w z d ∧ Opposite S m t.mirror ∧ t.disc = d) ∨
    (t.slot = 0 ∧ S.kind? t.mirror ≠ some .vec ∧ ∃ m d, AddedLink v v6 w m z ∧ Ends v6 w z d ∧ OnlyOpposite S m d t.mirror)

/-- `v'` has the same nodes as `v` and agrees with it in everything except the link fields that some `bidirectional!` line mentions. -/
def SameUpToBidir (S : Schema) (v v' : View) : Prop :=
  SameButLinks v v' ∧ ∀ x s y, (∀ m, ¬ Opposite S m s.mirror) → (v'.Holds x s y ↔ v.Holds x s y)

/-- The whole commit. -/
def Committed (S : Schema) (t : Trans) (v v' : View) : Prop := ∃ v6, Performed t v v6 ∧ Completion S v v6 v'

/-! ### Declarations the macros and rustc accept, without the irregular ones -/

/-- Names are used once: variants, groups, fields of a struct; group names are not variant names, link groups are not named like a link field;
a field carries at most one `#[group(...)]` attribute, which lists a group once. -/
structure WellNamed (S : Schema) : Prop where
  variants : S.discs.Nodup
  groups : (S.groups.map Prod.fst).Nodup
  groupVar : ∀ v ds, (v, ds) ∈ S.groups → v ∉ S.discs
  fields : ∀ d sd, (d, sd) ∈ S.variants → (sd.fields.map FieldDecl.name).Nodup
  oneAttr : ∀ d sd, (d, sd) ∈ S.variants → ∀ f ∈ sd.fields, f.groupAttrs.length ≤ 1
  linkGroup : ∀ d sd, (d, sd) ∈ S.variants → ∀ f ∈ sd.fields, ∀ gs ∈ f.groupAttrs, ∀ g ∈ gs, g ∉ sd.linkNames
  groupOnce : ∀ d sd, (d, sd) ∈ S.variants → ∀ f ∈ sd.fields, ∀ gs ∈ f.groupAttrs, gs.Nodup

/-- No field that is declared bidirectional is a `Vec`, as README.md:240 demands. -/
def NoVec (S : Schema) : Prop := ∀ m m', Opposite S m m' → S.kind? m ≠ some .vec

/-- A field has at most one opposite on each variant. -/
def OneOpposite (S : Schema) : Prop := ∀ m m1 m2, Opposite S m m1 → Opposite S m m2 → m1.disc = m2.disc → m1 = m2

/-- Some line of `bidirectional!` connects the name `l` on the variant `d` with the name `l'` on the variant `d'`. -/
def Connected (S : Schema) (d l d' l' : Ident) : Prop :=
  ∃ b ∈ S.bidirs, (VarNames S b.var1 d ∧ b.link1 = l ∧ VarNames S b.var2 d' ∧ b.link2 = l') ∨
    (VarNames S b.var1 d' ∧ b.link1 = l' ∧ VarNames S b.var2 d ∧ b.link2 = l)

/-- No pair of opposite fields is connected under two different pairs of names (say, by their own names and again through a link group). -/
def DeclaredOnce (S : Schema) : Prop :=
  ∀ d d' sd sd' p p' l1 l2 l1' l2', (d, sd) ∈ S.variants → (d', sd') ∈ S.variants →
    FieldNames sd l1 p → FieldNames sd l2 p → FieldNames sd' l1' p' → FieldNames sd' l2' p' →
    Connected S d l1 d' l1' → Connected S d l2 d' l2' → l1 = l2 ∧ l1' = l2'

/-! ### When completion cannot succeed -/

/-- The field `m'` of `y` holds `i` after the operations of the transaction and after the opposites of removed links are cleared. -/
def StillLinked (S : Schema) (v v6 : View) (y : NodeIndex) (m' : Mirror) (i : NodeIndex) : Prop :=
  v6.Link y m' i ∧ ¬ ∃ m d, RemovedLink v v6 i m y ∧ Ends v6 i y d ∧ Opposite S m m' ∧ m'.disc = d

/-- `y` must get a link to `x` in its field `m'`, as the only possible opposite of an added link. -/
def Demanded (S : Schema) (v v6 : View) (y : NodeIndex) (m' : Mirror) (x : NodeIndex) : Prop :=
  ∃ m d, AddedLink v v6 x m y ∧ Ends v6 x y d ∧ OnlyOpposite S m d m'

/-- A direct field would need two values: one is demanded, another is there or is demanded too. -/
def Conflict (S : Schema) (v v6 : View) : Prop :=
  ∃ y m' x i, S.kind? m' = some .direct ∧ Demanded S v v6 y m' x ∧ i ≠ x ∧ (StillLinked S v v6 y m' i ∨ Demanded S v v6 y m' i)

/-- A line of `bidirectional!` declares `m'` to be an opposite of `m`, where it calls the one `l'` and the other `l`. -/
def DeclaresAs (S : Schema) (m : Mirror) (l l' : Ident) (m' : Mirror) : Prop :=
  (∃ sd, (m.disc, sd) ∈ S.variants ∧ FieldNames sd l m.pos) ∧ (∃ sd, (m'.disc, sd) ∈ S.variants ∧ FieldNames sd l' m'.pos) ∧
    Connected S m.disc l m'.disc l'

/-- The opposites of `m` on the variant `d` are several, or there is one that is declared under several pairs of names. -/
def ManyWays (S : Schema) (m : Mirror) (d : Ident) : Prop :=
  ∃ l1 l1' m1 l2 l2' m2, DeclaresAs S m l1 l1' m1 ∧ DeclaresAs S m l2 l2' m2 ∧ m1.disc = d ∧ m2.disc = d ∧ (l1, l1', m1) ≠ (l2, l2', m2)

/-- An added link has several possible opposites (or one that is declared several times) and none of them is there. -/
def Undecided (S : Schema) (v v6 : View) : Prop :=
  ∃ x m y d, AddedLink v v6 x m y ∧ Ends v6 x y d ∧ ManyWays S m d ∧ ∀ m', Opposite S m m' → m'.disc = d → ¬ StillLinked S v v6 y m' x

/-- The transaction removes a link between two nodes that has an opposite in a `Vec`. -/
def VecLeft (S : Schema) (v v6 : View) : Prop :=
  ∃ x m y d m', RemovedLink v v6 x m y ∧ Ends v6 x y d ∧ Opposite S m m' ∧ m'.disc = d ∧ S.kind? m' = some .vec

/-- The transaction adds a link between two nodes that has opposites, all of them in `Vec`s and none of them there. -/
def VecMissing (S : Schema) (v v6 : View) : Prop :=
  ∃ x m y d, AddedLink v v6 x m y ∧ Ends v6 x y d ∧ (∃ m', Opposite S m m' ∧ m'.disc = d) ∧
    ∀ m', Opposite S m m' → m'.disc = d → S.kind? m' = some .vec ∧ ¬ v6.Link y m' x

/-- No `Vec` would have to be changed to complete the links. -/
def NoVecDue (S : Schema) (v v6 : View) : Prop := ¬ VecLeft S v v6 ∧ ¬ VecMissing S v v6

end Spec
end TTGraph
