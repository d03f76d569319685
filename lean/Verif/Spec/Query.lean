import Verif.Spec.Commit

/-!
# Specification vocabulary for queries on one node
-/

set_option autoImplicit false

namespace TTGraph
namespace Spec

/-- The non-empty targets of a link field: at most one of a direct field, those of a set in the order of its iteration, those of a `Vec` in
the order of their positions. -/
def targets (v : LinkVal) : List NodeIndex :=
  (match v with
    | .direct i => [i]
    | .set s => s.elems
    | .vec l => l).filter (fun i => i ≠ emptyIdx)

/-- Number `p` of the link fields of the node `n` is declared as `fd` and has the value `v`. -/
def LinkField (S : Schema) (n : Node) (p : Nat) (fd : FieldDecl) (v : LinkVal) : Prop :=
  ∃ sd, (n.disc, sd) ∈ S.variants ∧ sd.links[p]? = some fd ∧ n.links[p]? = some v

/-- The field lists the group in a `#[group(..)]` attribute. -/
def FieldDecl.InGroup (fd : FieldDecl) (g : Ident) : Prop := ∃ gs ∈ fd.groupAttrs, g ∈ gs

/-- Number `p` of the other fields of the node `n` is declared as `fd` and has the value `v`. -/
def DataField (S : Schema) (n : Node) (p : Nat) (fd : FieldDecl) (v : DataVal) : Prop :=
  ∃ sd, (n.disc, sd) ∈ S.variants ∧ sd.dataFields[p]? = some fd ∧ n.data[p]? = some v

/-- The type of the field is written as a path, like `u32` or `Vec<T>`, and not as a tuple, an array, a reference, and so on. -/
def FieldDecl.IsPath (fd : FieldDecl) : Prop := ∃ t, fd.ty = .data t true

/-- No set of the node contains the empty index. -/
def NoEmptyInSets (n : Node) : Prop := ∀ s, LinkVal.set s ∈ n.links → emptyIdx ∉ s.elems

/-- No `Vec` of the node contains the empty index. -/
def NoEmptyInVecs (n : Node) : Prop := ∀ l, LinkVal.vec l ∈ n.links → emptyIdx ∉ l

end Spec
end TTGraph
