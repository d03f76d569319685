import Verif.Model.Graph

/-!
# Walking through an iterator
-/

set_option autoImplicit false

namespace TTGraph
namespace Spec

/-- One call of `next`. -/
def call (S : Schema) (it : Iter) : Option (NodeIndex × Node) × Iter := it.next S (S.discs.length + 1)

/-- The first calls of `next` yield the items `l` and lead to the iterator `it'`. -/
inductive Walk (S : Schema) : Iter → List (NodeIndex × Node) → Iter → Prop
  | start (it : Iter) : Walk S it [] it
  | step {it it1 it' : Iter} {e : NodeIndex × Node} {l : List (NodeIndex × Node)} : call S it = (some e, it1) → Walk S it1 l it' →
      Walk S it (e :: l) it'

/-- An exhausted iterator: this call of `next` and all later ones yield `None`. -/
def Exhausted (S : Schema) (it : Iter) : Prop := ∃ it', call S it = (none, it') ∧ call S it' = (none, it')

end Spec
end TTGraph
