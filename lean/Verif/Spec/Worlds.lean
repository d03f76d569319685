import Verif.Spec.History
import Verif.Spec.Pending

/-!
# Specification vocabulary for programs with several objects
-/

set_option autoImplicit false

namespace TTGraph
namespace Spec

/-- The call is made on the graph `h`: it creates it, commits to it, consumes it or replaces it. -/
def UsesGraph (h : Nat) : Call → Prop
  | .newGraph g _ => g = h
  | .merge _ g => g = h
  | .commit g _ => g = h
  | .commitChecked g _ _ => g = h
  | .commitCaught g _ => g = h
  | .dropGraph g => g = h
  | .switchContext g _ => g = h
  | .deserialize g _ _ => g = h
  | _ => False

/-- The effect of a list of calls. -/
def runCalls [SetImpl] (S : Schema) (dbg : Bool) (w : World) (l : List Call) : World := l.foldl (World.exec S dbg) w

/-- Contexts are created with `Context::new()`, or at most once with `Context::default()`; none comes out of a file. -/
def NewContexts (w : World) : Call → Prop
  | .defaultContext _ => ∀ c x, w.ctx c = some x → x.uuid ≠ 0
  | .deserialize _ _ _ => False
  | _ => True

/-- No transaction is committed while an index that it allocated is not filled. -/
def Filled (w : World) : Call → Prop
  | .commit _ k => ∀ c t, w.trans k = some (c, t) → ∀ i, ¬ t.pending.unfilled i
  | .commitChecked _ k _ => ∀ c t, w.trans k = some (c, t) → ∀ i, ¬ t.pending.unfilled i
  | .commitCaught _ k => ∀ c t, w.trans k = some (c, t) → ∀ i, ¬ t.pending.unfilled i
  | _ => True

/-- The nodes of `v2` and `v` together. -/
def union (v2 v : View) : View := fun i => match v2 i with
  | some n => some n
  | none => v i

/-- Every link between two nodes has its opposite, if it is declared to have one. -/
def Symmetric (S : Schema) (v : View) : Prop :=
  ∀ x m y n m', v.Link x m y → v y = some n → Opposite S m m' → m'.disc = n.disc → v.Link y m' x

/-- Every link between two nodes has an opposite, if it is declared to have one. -/
def Answered (S : Schema) (v : View) : Prop :=
  ∀ x m y n, v.Link x m y → v y = some n → (∃ m', Opposite S m m' ∧ m'.disc = n.disc) → ∃ m', Opposite S m m' ∧ m'.disc = n.disc ∧ v.Link y m' x

/-- `w'` comes after `w`: the program makes further calls, none or any number of them. -/
inductive Later [SetImpl] (S : Schema) (dbg : Bool) (w : World) : World → Prop
  | refl : Later S dbg w w
  | step {w' : World} {c : Call} : Later S dbg w w' → c.Allowed S w' → Later S dbg w (w'.exec S dbg c)

/-- No graph of the context `c` has a node with the index `i`, and no transaction of `c` is about to insert one or can still fill it. -/
def Nowhere (w : World) (c : Nat) (i : NodeIndex) : Prop :=
  (∀ k g, w.graph k = some (c, g) → g.get? i = none) ∧ ∀ k t, w.trans k = some (c, t) → t.pending.new i = none ∧ ¬ t.pending.unfilled i

end Spec
end TTGraph
