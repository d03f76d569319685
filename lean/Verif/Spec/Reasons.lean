import Verif.Spec.Wreck
import Verif.Spec.Types

/-!
# Why a commit panics
-/

set_option autoImplicit false

namespace TTGraph
namespace Spec

/-- `y` is neither a node of the view nor a new node of the transaction. -/
def Absent (v : View) (t : Trans) (y : NodeIndex) : Prop := v y = none ∧ t.pending.new y = none

/-- Something is wrong with the transaction `t` when it is committed to a graph that looks like `v`, and the panic says what it is. -/
inductive Reason (S : Schema) (dbg : Bool) (t : Trans) (v : View) : Panic → Prop
  /-- An allocated index has not been filled. -/
  | unfilled {i : NodeIndex} : dbg = true → t.pending.unfilled i → Reason S dbg t v .unfilledAlloc
  /-- Requests of one kind form a loop. -/
  | loop : Loop t.pending.redir ∨ Loop t.pending.redirAll → Reason S dbg t v .redirectLoop
  /-- The links to a node are to be redirected that does not exist (`redirect_links` does not see new nodes). -/
  | redirected {old new : NodeIndex} : (old, new) ∈ t.pending.redir → v old = none → Reason S dbg t v .backMissing
  | redirectedAll {old new : NodeIndex} : (old, new) ∈ t.pending.redirAll → Absent v t old → Reason S dbg t v .backMissing
  /-- A closure is to be applied to a node that does not exist. -/
  | missing {i : NodeIndex} {f : Closure} : (i, f) ∈ t.pending.muts ++ t.pending.upds → Absent v t i → Reason S dbg t v .nodeMissing
  /-- A closure panics on the node that it is applied to. -/
  | closure {k : Loop2} {i : NodeIndex} {f : Closure} {v3 : View} {n : Node} {e : Panic} :
      Before t.pending v v3 i f k → v3 i = some n → f n = .error e → Reason S dbg t v e
  /-- A closure leaves a link to a node that does not exist. -/
  | link {k : Loop2} {i : NodeIndex} {f : Closure} {v3 : View} {n n' : Node} {s : Source} {y : NodeIndex} :
      Before t.pending v v3 i f k → v3 i = some n → f n = .ok n' → n'.Holds s y → Absent v t y → Reason S dbg t v .backMissing
  /-- A node is to be removed that does not exist. -/
  | removed {i : NodeIndex} : t.pending.removed i → Absent v t i → Reason S dbg t v .removeMissing
  /-- A direct bidirectional field would have to hold two nodes. -/
  | conflict {v6 : View} : Performed t v v6 → Conflict S v v6 → Reason S dbg t v .addOnExisting
  /-- It is not determined in which field the opposite of a new link is to be put. -/
  | undecided {v6 : View} : Performed t v v6 → Undecided S v v6 → Reason S dbg t v .multiChoice
  /-- A `Vec` field would have to be changed to complete the links. -/
  | vecLeft {v6 : View} : Performed t v v6 → VecLeft S v v6 → Reason S dbg t v .removeOnVec
  | vecMissing {v6 : View} : Performed t v v6 → VecMissing S v v6 → Reason S dbg t v .addOnVec
  /-- A link to a node is not permitted by its annotations, and it is new unless a `Vec` holds a node twice in between. -/
  | linkType {v6 : View} {x : NodeIndex} {m : Mirror} {y : NodeIndex} {n : Node} : Performed t v v6 → v6 y = some n → v6.Link x m y →
      (Steady S t v x m y → ¬ v.Link x m y) → ¬ Permitted S m n.disc → Reason S dbg t v .linkType

/-- The panics of `commit` that say what is wrong with a transaction. -/
def complaints : List Panic :=
  [.unfilledAlloc, .redirectLoop, .backMissing, .nodeMissing, .removeMissing, .addOnExisting, .multiChoice, .removeOnVec, .addOnVec, .linkType]

end Spec
end TTGraph
