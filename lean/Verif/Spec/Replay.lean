import Verif.Spec.Rerun
import Verif.Spec.Exact
import Verif.Spec.Integrity

/-!
# Programs that run through
-/

set_option autoImplicit false

namespace TTGraph
namespace Spec

/-- The transaction leaves no dangling links in `v` (`Sound`), redirects each node at most once per kind, its closures do not look at the order of
sets and leave no empty index in a set, and no `Vec` field of a `bidirectional!` line or with annotations holds a node twice on the way. -/
structure Tidy (S : Schema) (v : View) (t : Trans) : Prop where
  sound : Sound v t.pending
  regular : Regular t.pending
  noEmpty : NoEmptyLinks t.pending
  bidir : SteadyBidir S t v
  annos : SteadyAnnos S t v

/-- No links dangle (`SoundCalls`), and the transactions that are committed are tidy; if checks are run, no `Vec` field holds a node twice on the
way. -/
def TidyCalls (S : Schema) (w : World) : Call → Prop
  | .commit h k => ∀ c g c' t, w.graph h = some (c, g) → w.trans k = some (c', t) → Tidy S g.get? t
  | .commitChecked h k _ => ∀ c g c' t, w.graph h = some (c, g) → w.trans k = some (c', t) → Tidy S g.get? t ∧ ∀ x m y, Steady S t g.get? x m y
  | c => SoundCalls w c

/-- The same functions are registered under the same names. -/
def SameFuncs {φ : Type} (R : φ → φ → Prop) (a b : Sorted φ) : Prop :=
  ∀ name, match a.get? name, b.get? name with
    | none, none => True
    | some f, some f2 => R f f2
    | _, _ => False

/-- The same node, or no node. -/
def SameNode? : Option Node → Option Node → Prop
  | none, none => True
  | some n, some n2 => Node.Same n n2
  | _, _ => False

/-- The checks do not look at the order of sets. -/
structure LikeChecks (a b : GraphCheck) : Prop where
  node : SameFuncs (fun f f2 => ∀ x n n2, Node.Same n n2 → f2 x n2 = f x n) a.nodeChecks b.nodeChecks
  add : SameFuncs (fun f f2 => ∀ x y n n2 o o2, Node.Same n n2 → SameNode? o o2 → f2 x y n2 o2 = f x y n o) a.addChecks b.addChecks
  remove : SameFuncs (fun f f2 => ∀ x y n n2 o o2, Node.Same n n2 → SameNode? o o2 → f2 x y n2 o2 = f x y n o) a.removeChecks b.removeChecks

/-- No check panics by itself. -/
def _root_.TTGraph.GraphCheck.NeverPanics (cs : GraphCheck) : Prop :=
  (∀ name f, cs.nodeChecks.get? name = some f → ∀ x n, f x n ≠ .panics) ∧
    ∀ name f, cs.addChecks.get? name = some f ∨ cs.removeChecks.get? name = some f → ∀ x y n o, f x y n o ≠ .panics

/-- The same call with the same arguments (`SameCall`), the checks included. -/
def SameCallAsking (a b : Call) : Prop :=
  SameCall a b ∧ ∀ g k cs g2 k2 cs2, a = .commitChecked g k cs → b = .commitChecked g2 k2 cs2 → LikeChecks cs cs2

/-- The calls are allowed one after the other, satisfy `R` and return, and lead from `w` to `w'`. -/
inductive RunsThrough [SetImpl] (S : Schema) (dbg : Bool) (R : World → Call → Prop) : World → List Call → World → Prop
  | nil {w : World} : RunsThrough S dbg R w [] w
  | cons {w w' : World} {a : Call} {l : List Call} : a.Allowed S w → R w a → Returns S dbg w a → RunsThrough S dbg R (w.exec S dbg a) l w' →
      RunsThrough S dbg R w (a :: l) w'

/-- Each of the calls is allowed when it is made, if those before it return. -/
def AllowedAll [SetImpl] (S : Schema) (dbg : Bool) (w : World) (l : List Call) : Prop :=
  ∀ pre b post u, l = pre ++ b :: post → RunsThrough S dbg AnyCall w pre u → b.Allowed S u

end Spec
end TTGraph
