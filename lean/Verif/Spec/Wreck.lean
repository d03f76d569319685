import Verif.Spec.Pending

/-!
# Commits that stop in the middle of a closure
-/

set_option autoImplicit false

namespace TTGraph
namespace Spec

/-- Which of the two loops over closures a commit is in. -/
inductive Loop2 | mutating | updating
  deriving DecidableEq

/-- The operations of the transaction `p` have been performed on `v` up to, but not including, the closure `f` for the node `i`, and have led
to `v3`: the redirects, the insertions and the closures before it. -/
def Before (p : Pending) (v v3 : View) (i : NodeIndex) (f : Closure) : Loop2 → Prop
  | .mutating => ∃ v1 v2 pre post, Redirected p.redir v v1 ∧ Inserted p.new v1 v2 ∧ p.muts = pre ++ (i, f) :: post ∧ Applied pre v2 v3
  | .updating => ∃ v1 v2 v2' pre post, Redirected p.redir v v1 ∧ Inserted p.new v1 v2 ∧ Applied p.muts v2 v2' ∧ p.upds = pre ++ (i, f) :: post ∧
      Applied pre v2' v3

/-- What is left of the node after its closure has panicked: `mutate` leaves what the closure has made of it so far (`left`), `update` has
taken it out and loses it. -/
def Torn (left : Node → Node) (n : Node) : Loop2 → Option Node
  | .mutating => some (left n)
  | .updating => none

/-- The graph has recorded, for use by later redirects and removals of `y`, that place `s` of the node `x` holds the index `y`. -/
def Recorded (g : Graph) (x : NodeIndex) (s : Source) (y : NodeIndex) : Prop := ∃ places, g.back.get? y = some places ∧ (x, s) ∈ places

end Spec
end TTGraph
