import Verif.Model.ArenaApi

/-!
# A generated arena used on its own

The trait `CateArena` and the arenas that `node_enum!` generates are public.  For the user an arena is a map from indices to slots: an index is
unknown, reserved for a variant, or holds a node.  `Built` follows the calls that a user makes on an arena and what they expect it to be after each.
-/

set_option autoImplicit false

namespace TTGraph
namespace Spec

/-- What an arena has at an index. -/
inductive Cell
  | reserved (d : Ident)
  | node (n : Node)

/-- The node in a slot. -/
def Cell.node? : Cell → Option Node
  | .reserved _ => none
  | .node n => some n

/-- The variant of a slot. -/
def Cell.variant : Cell → Ident
  | .reserved d => d
  | .node n => n.disc

/-- What the user knows of an arena. -/
abbrev Cells := NodeIndex → Option Cell

/-- No index is known. -/
def Cells.empty : Cells := fun _ => none

/-- The index `i` gets the slot `s`. -/
def Cells.put (m : Cells) (i : NodeIndex) (s : Cell) : Cells := fun j => if i = j then some s else m j

/-- The index `i` becomes unknown. -/
def Cells.drop (m : Cells) (i : NodeIndex) : Cells := fun j => if i = j then none else m j

/-- Every node is replaced. -/
def Cells.visit (m : Cells) (f : NodeIndex → Node → Node) : Cells := fun i =>
  match m i with
  | some (.node n) => some (.node (f i n))
  | s => s

/-- The node at an index. -/
def Cells.node? (m : Cells) (i : NodeIndex) : Option Node := (m i).bind Cell.node?

/-- Calls on an arena that return, and what the user knows after them.  The counter `cnt` of the id distributer may have any value before each
call.  Conditions on the use: `fill_back_untyped` is not used on an index that holds a node, nodes keep their variant when they are
changed, and two arenas that are merged have no index in common. -/
inductive Built (S : Schema) : Arena → Cells → Prop
  | new : Built S Arena.new .empty
  | fromIter {l : List (NodeIndex × Node)} {a : Arena} : (∀ e ∈ l, e.2.disc ∈ S.discs) → Arena.newFromIter l = .ok a →
      Built S a (l.foldl (fun m e => m.put e.1 (.node e.2)) .empty)
  | alloc {a a' : Arena} {m : Cells} {cnt cnt' i : Nat} {d : Ident} : Built S a m → d ∈ S.discs → a.alloc cnt d = .ok (i, a', cnt') →
      Built S a' (m.put i (.reserved d))
  | insert {a a' : Arena} {m : Cells} {cnt cnt' i : Nat} {n : Node} : Built S a m → n.disc ∈ S.discs → a.insert cnt n = .ok (i, a', cnt') →
      Built S a' (m.put i (.node n))
  | fillBack {a a' : Arena} {m : Cells} {i : NodeIndex} {n : Node} : Built S a m → n.disc ∈ S.discs → a.fillBack i n = .ok a' →
      Built S a' (m.put i (.node n))
  | fillBackUntyped {a a' : Arena} {m : Cells} {i : NodeIndex} {n : Node} : Built S a m → n.disc ∈ S.discs → m.node? i = none →
      a.fillBackUntyped i n = .ok a' → Built S a' (m.put i (.node n))
  | remove {a : Arena} {m : Cells} (i : NodeIndex) : Built S a m → Built S (a.remove i).2 (m.drop i)
  | updateWith {a a' : Arena} {m : Cells} {i : NodeIndex} {f : Node → Except Panic Node} {n n' : Node} : Built S a m → m i = some (.node n) →
      f n = .ok n' → n'.disc = n.disc → a.updateWith i f = .ok a' → Built S a' (m.put i (.node n'))
  | getMut {a a' : Arena} {m : Cells} {i : NodeIndex} {f : Node → Node} {n : Node} : Built S a m → m i = some (.node n) →
      (f n).disc = n.disc → a.getMut i f = some a' → Built S a' (m.put i (.node (f n)))
  | iterMut {a : Arena} {m : Cells} {f : NodeIndex → Node → Node} : Built S a m →
      (∀ i n, m i = some (.node n) → (f i n).disc = n.disc) → Built S (a.iterMut S f) (m.visit f)
  | merge {a b : Arena} {m m' : Cells} : Built S a m → Built S b m' → (∀ i, m i = none ∨ m' i = none) →
      Built S (a.merge b) fun i => m' i <|> m i

end Spec
end TTGraph
