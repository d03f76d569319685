import Verif.Spec.Machine

/-!
# Specification: files

`deserialize_graph` takes a list of nodes with indices, which need not have been written by a program that uses this library.
-/

set_option autoImplicit false

namespace TTGraph
namespace Spec

/-- `x` has a link to `y`, and `m'` is the only field of `y` that can answer it. -/
def Wants (S : Schema) (v : View) (y : NodeIndex) (m' : Mirror) (x : NodeIndex) : Prop :=
  y ≠ emptyIdx ∧ ∃ m n, v.Link x m y ∧ v y = some n ∧ OnlyOpposite S m n.disc m'

/-- A direct field should answer a link from `x` and holds another node or should answer a link from another node too. -/
def Clash (S : Schema) (v : View) : Prop :=
  ∃ y m' x i, S.kind? m' = some .direct ∧ Wants S v y m' x ∧ i ≠ x ∧ (v.Link y m' i ∨ Wants S v y m' i)

/-- A `Vec` should answer a link from `x` and does not hold `x`. -/
def VecLacks (S : Schema) (v : View) : Prop :=
  ∃ y m' x, S.kind? m' = some .vec ∧ Wants S v y m' x ∧ ¬ v.Link y m' x

/-- `v'` is `v` with the missing answers added, which are not in `Vec`s. -/
def Answering (S : Schema) (v v' : View) : Prop :=
  SameButLinks v v' ∧ ∀ z t w, v'.Holds z t w ↔ v.Holds z t w ∨ (t.slot = 0 ∧ S.kind? t.mirror ≠ some .vec ∧ Wants S v z t.mirror w)

/-- A file with well-typed nodes, none of them under the empty index. -/
def Plausible (S : Schema) (nodes : List (NodeIndex × Node)) : Prop := ∀ e ∈ nodes, e.1 ≠ emptyIdx ∧ S.WT e.2

/-- No index is used twice. -/
def Distinct (nodes : List (NodeIndex × Node)) : Prop := (nodes.map Prod.fst).Nodup

end Spec
end TTGraph
