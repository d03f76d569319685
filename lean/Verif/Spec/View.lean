import Verif.Spec.Links
import Verif.Model.Graph

/-!
# Specification vocabulary for graphs

What a user sees of a graph through `get`: a partial map from indices to nodes.
-/

set_option autoImplicit false

namespace TTGraph

/-- The observable content of a graph: `get`. -/
abbrev View := NodeIndex → Option Node

/-- Place `s` of the node `x` holds the index `y`. -/
def View.Holds (v : View) (x : NodeIndex) (s : Source) (y : NodeIndex) : Prop := ∃ n, v x = some n ∧ n.Holds s y

/-- The link field `m` of the node `x` holds the index `y`. -/
def View.Link (v : View) (x : NodeIndex) (m : Mirror) (y : NodeIndex) : Prop := ∃ n, v x = some n ∧ n.HasLink m y

/-- At most one slot of the link field `m` of the node `x` holds `y`.  This says something only about `Vec` fields. -/
def View.Once (v : View) (x : NodeIndex) (m : Mirror) (y : NodeIndex) : Prop :=
  ∀ k k', v.Holds x ⟨m.disc, m.pos, k⟩ y → v.Holds x ⟨m.disc, m.pos, k'⟩ y → k = k'

/-- Some node of the graph has a link to `y`. -/
def View.Linked (v : View) (y : NodeIndex) : Prop := ∃ x s, v.Holds x s y

/-- `v'` is `v` with the node at `x` replaced by `n`. -/
def View.Set (v : View) (x : NodeIndex) (n : Node) (v' : View) : Prop := ∀ j, v' j = if x = j then some n else v j

/-- `v'` is `v` with all links renamed by `ρ`; no node appears or disappears. -/
def View.Renamed (ρ : NodeIndex → NodeIndex) (v v' : View) : Prop :=
  ∀ x, match v x, v' x with
    | none, none => True
    | some n, some n' => Node.Renamed ρ n n'
    | _, _ => False

/-- `v'` has the same nodes as `v`, up to the iteration order of sets. -/
def View.Same (v v' : View) : Prop := View.Renamed id v v'

end TTGraph
