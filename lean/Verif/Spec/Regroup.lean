import Verif.Spec.Pending

/-!
# Specification: the same closures in another order
-/

set_option autoImplicit false

namespace TTGraph
namespace Spec

/-- The closures for the node `x` in the order in which a commit applies them: first those of `mutate`, then those of `update`. -/
def closuresAt (p : Pending) (x : NodeIndex) : List Closure := ((p.muts ++ p.upds).filter fun e => decide (e.1 = x)).map Prod.snd

/-- The same operations, except that `mutate` and `update` may stand for each other and closures for different nodes may have been given in another
order: every node has the same closures in the same order. -/
structure Regrouped (p p' : Pending) : Prop where
  new : p'.new = p.new
  unfilled : p'.unfilled = p.unfilled
  removed : p'.removed = p.removed
  redirAll : p'.redirAll = p.redirAll
  redir : p'.redir = p.redir
  closures : ∀ x, closuresAt p' x = closuresAt p x

end Spec
end TTGraph
