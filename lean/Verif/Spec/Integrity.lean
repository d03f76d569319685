import Verif.Spec.Pending

/-!
# Specification vocabulary for integrity
-/

set_option autoImplicit false

namespace TTGraph
namespace Spec

/-- All links point to nodes of the graph (or are the empty index). -/
def Internal (v : View) : Prop := ∀ x s y, v.Holds x s y → y = emptyIdx ∨ v y ≠ none

/-- A node of the graph, a node to be inserted, or the empty index. -/
def Exists (v : View) (p : Pending) (y : NodeIndex) : Prop := y = emptyIdx ∨ v y ≠ none ∨ p.new y ≠ none

/-- The links of the inserted nodes and the targets of the redirects exist. -/
def Sound (v : View) (p : Pending) : Prop :=
  (∀ y, View.Linked p.new y → Exists v p y) ∧ ∀ old new, (old, new) ∈ p.redir ++ p.redirAll → Exists v p new

/-- Transactions are sound when they are committed, files hold only internal links, and the program does not go on with a graph whose commit
panicked. -/
def SoundCalls (w : World) : Call → Prop
  | .commit h k => ∀ c g c' t, w.graph h = some (c, g) → w.trans k = some (c', t) → Sound g.get? t.pending
  | .commitChecked h k _ => ∀ c g c' t, w.graph h = some (c, g) → w.trans k = some (c', t) → Sound g.get? t.pending
  | .commitCaught _ _ => False
  | .deserialize _ _ input => ∀ e ∈ input.nodes, ∀ s y, e.2.Holds s y → y = emptyIdx ∨ ∃ e' ∈ input.nodes, e'.1 = y
  | _ => True

theorem SoundCalls.noCatch {w : World} {c : Call} (h : SoundCalls w c) : NoCatch w c := by
  cases c <;> trivial

/-- Nothing is redirected to the empty index. -/
def NeverToEmpty (_ : World) : Call → Prop
  | .op _ (.redirectLinks _ new) => new ≠ emptyIdx
  | .op _ (.redirectAllLinks _ new) => new ≠ emptyIdx
  | _ => True

/-- Applying closures one after the other, each to its node; each leaves only links to indices in `K`. -/
inductive AppliedIn (K : NodeIndex → Prop) : List (NodeIndex × Closure) → View → View → Prop
  | nil {v v' : View} : (∀ x, v' x = v x) → AppliedIn K [] v v'
  | cons {i : NodeIndex} {f : Closure} {l : List (NodeIndex × Closure)} {v v1 v' : View} {n n' : Node} :
      v i = some n → f n = .ok n' → (∀ s y, n'.Holds s y → K y) → View.Set v i n' v1 → AppliedIn K l v1 v' → AppliedIn K ((i, f) :: l) v v'

end Spec
end TTGraph
