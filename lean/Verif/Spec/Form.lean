import Verif.Spec.Integrity
import Verif.Spec.Types
import Verif.Spec.Vec
import Verif.Spec.Worlds

/-!
# Which graphs there are
-/

set_option autoImplicit false

namespace TTGraph
namespace Spec

/-- A well-formed state: finitely many well-typed nodes under indices other than the empty one; no dangling links; bidirectional links are
symmetric; links have the declared types; `Vec` fields that are bidirectional or have an annotation that refuses something hold no node twice. -/
structure WellFormed (S : Schema) (v : View) : Prop where
  indices : ∃ N : Nat, ∀ x : Nat, v x ≠ none → x ≠ emptyIdx ∧ x ≤ N
  nodes : ∀ x n, v x = some n → S.WT n
  internal : Internal v
  symmetric : Symmetric S v
  typed : WellTyped S v
  once : ∀ x m y, S.kind? m = some .vec → ((∃ m', Opposite S m m') ∨ ¬ ∀ d, AllAccept S m d) → v.Once x m y

/-- Calls of a careful program: transactions are sound, closures keep variants, no graph is loaded from a file or moved to another context, the program
does not go on with a graph whose commit panicked, and while a transaction is committed no `Vec` field that is bidirectional or annotated holds a node
twice. -/
def Careful (S : Schema) (w : World) (c : Call) : Prop :=
  SoundCalls w c ∧ KeepVariants w c ∧ NoLoads w c ∧ SteadyBidirCalls S w c ∧ SteadyCalls S w c

end Spec
end TTGraph
