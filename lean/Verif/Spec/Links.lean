import Verif.Model.Node

/-!
# Specification vocabulary for one node

What a user can see of the links of a node value: which place holds which index.
-/

set_option autoImplicit false

namespace TTGraph

/-- Place number `slot` of a link field holds the index `y`.  A direct link and a set have the single place 0; the places of a `Vec`
are its positions.  The empty index in a direct field or in a `Vec` is no link. -/
def LinkVal.Holds (v : LinkVal) (slot : Nat) (y : NodeIndex) : Prop :=
  match v with
  | .direct i => slot = 0 ∧ i = y ∧ y ≠ emptyIdx
  | .set s => slot = 0 ∧ y ∈ s.elems
  | .vec l => l[slot]? = some y ∧ y ≠ emptyIdx

/-- Place `s` of the node holds the index `y`. -/
def Node.Holds (n : Node) (s : Source) (y : NodeIndex) : Prop :=
  s.disc = n.disc ∧ ∃ v, n.links[s.pos]? = some v ∧ v.Holds s.slot y

/-- The link field `m` of the node holds the index `y` (at some place). -/
def Node.HasLink (n : Node) (m : Mirror) (y : NodeIndex) : Prop := ∃ slot, n.Holds ⟨m.disc, m.pos, slot⟩ y

/-- The outer form of a link field: its kind, and the length of a `Vec`. -/
def LinkVal.shape : LinkVal → LinkKind × Nat
  | .direct _ => (.direct, 0)
  | .set _ => (.set, 0)
  | .vec l => (.vec, l.length)

/-- Everything about a node except the indices its links hold: variant, data, kinds of the link fields and lengths of `Vec`s. -/
def Node.shape (n : Node) : Ident × List DataVal × List (LinkKind × Nat) := (n.disc, n.data, n.links.map LinkVal.shape)

/-- `v'` is the field `v` with every index `a` replaced by `ρ a`: directly in a direct field, position by position in a `Vec`, and
as a set of images in a set; in a set, images that are the empty index are dropped (an empty index that was already there stays). -/
def LinkVal.Renamed (ρ : NodeIndex → NodeIndex) (v v' : LinkVal) : Prop :=
  match v, v' with
  | .direct i, .direct i' => i' = if i = emptyIdx then emptyIdx else ρ i
  | .set s, .set s' => ∀ w, w ∈ s'.elems ↔ ∃ u ∈ s.elems, ρ u = w ∧ (w ≠ emptyIdx ∨ u = emptyIdx)
  | .vec l, .vec l' => l' = l.map (fun i => if i = emptyIdx then emptyIdx else ρ i)
  | _, _ => False

/-- `n'` is the node `n` with all its links renamed by `ρ`, and nothing else changed. -/
def Node.Renamed (ρ : NodeIndex → NodeIndex) (n n' : Node) : Prop :=
  n'.disc = n.disc ∧ n'.data = n.data ∧ List.Forall₂ (LinkVal.Renamed ρ) n.links n'.links

/-- `n'` is the same node as `n` up to the iteration order of its sets. -/
def Node.Same (n n' : Node) : Prop := Node.Renamed id n n'

end TTGraph
