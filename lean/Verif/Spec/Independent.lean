import Verif.Spec.Pending

/-!
# Transactions that do not concern each other
-/

set_option autoImplicit false

namespace TTGraph
namespace Spec

/-- The operations redirect or remove the node `y`: they change links to `y` wherever they are. -/
def Displaces (p : Pending) (y : NodeIndex) : Prop := (∃ new, (y, new) ∈ p.redir ∨ (y, new) ∈ p.redirAll) ∨ p.removed y

/-- What the commit of the transaction to `v` changes lies in the set `F` of indices: `F` contains the nodes that it inserts, mutates,
updates and removes, the nodes with links to a node that it redirects or removes, and the other ends of the links with a declared opposite
that its operations add or remove. -/
structure Footprint (S : Schema) (t : Trans) (v : View) (F : NodeIndex → Prop) : Prop where
  inserted : ∀ i, t.pending.new i ≠ none → F i
  changed : ∀ i f, (i, f) ∈ t.pending.muts ++ t.pending.upds → F i
  removed : ∀ i, t.pending.removed i → F i
  holders : ∀ x s y, v.Holds x s y → Displaces t.pending y → F x
  ends : ∀ v6, Performed t v v6 → ∀ x m y m', AddedLink v v6 x m y ∨ RemovedLink v v6 x m y → Opposite S m m' → F y

/-- Two transactions concern different nodes of `v`: what they change lies in two sets `F1` and `F2` without common elements, and the first
one leaves no link to a node that the second one redirects or removes, and conversely.  `v1` is `v` after the first, `v2` after the second. -/
def Independent (S : Schema) (v : View) (t1 t2 : Trans) (v1 v2 : View) : Prop :=
  ∃ F1 F2 : NodeIndex → Prop, Footprint S t1 v F1 ∧ Footprint S t2 v F2 ∧ (∀ x, F1 x → ¬ F2 x) ∧
    (∀ x s y, F1 x → v1.Holds x s y → ¬ Displaces t2.pending y) ∧ ∀ x s y, F2 x → v2.Holds x s y → ¬ Displaces t1.pending y

/-- The node at `x` is the same in `v` and `w` up to the iteration order of its sets, or missing in both. -/
def SameAt (v w : View) (x : NodeIndex) : Prop :=
  match v x, w x with
  | none, none => True
  | some n, some n' => n.Same n'
  | _, _ => False

/-- The transactions `t k`, for `k` in `ks`, concern different nodes of `v`: what each of them changes lies in a set `F k` of its own, and
none leaves a link to a node that another one redirects or removes.  `v' k` is `v` after `t k` alone. -/
structure Separate (S : Schema) (v : View) (ks : List Nat) (t : Nat → Trans) (v' : Nat → View) (F : Nat → NodeIndex → Prop) : Prop where
  own : ∀ k ∈ ks, Footprint S (t k) v (F k)
  apart : ∀ k ∈ ks, ∀ l ∈ ks, k ≠ l → ∀ x, F k x → ¬ F l x
  clear : ∀ k ∈ ks, ∀ l ∈ ks, k ≠ l → ∀ x s y, F k x → (v' k).Holds x s y → ¬ Displaces (t l).pending y

/-- The operations mention the node `y`: a node to be inserted links to it, it is redirected or links are redirected to it, or a closure
makes a link to it. -/
def Mentions (p : Pending) (y : NodeIndex) : Prop :=
  View.Linked p.new y ∨ (∃ z, (y, z) ∈ p.redir ++ p.redirAll ∨ (z, y) ∈ p.redir ++ p.redirAll) ∨
    ∃ i f n n' s, (i, f) ∈ p.muts ++ p.upds ∧ f n = .ok n' ∧ n'.Holds s y ∧ ∀ s', ¬ n.Holds s' y

/-- The operations `p` leave the nodes in place that the operations `q` rely on: they remove no node that `q` mentions, and their closures
keep the variants of nodes. -/
def Spares (p q : Pending) : Prop :=
  (∀ y, p.removed y → ¬ Mentions q y) ∧ ∀ i f, (i, f) ∈ p.muts ++ p.upds → f.KeepsVariant

end Spec
end TTGraph
