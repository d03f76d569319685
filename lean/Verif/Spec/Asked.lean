import Verif.Model.CheckEffects
import Verif.Spec.Report

/-!
# The calls of check functions
-/

set_option autoImplicit false

namespace TTGraph
namespace Spec

/-- A call of a check function: the name under which it is registered, what it was asked about, its answer. -/
structure Asked (α : Type) where
  name : Ident
  about : α
  answer : CheckResult

/-- A node check is asked about `x`: it gets the node that `v` has there. -/
def AskNode {σ : Type} (v : View) (f : ENodeCheck σ) (x : NodeIndex) (s : σ) (out : CheckResult × σ) : Prop := ∃ n, v x = some n ∧ f x n s = out

/-- A link check is asked about a link `(x, y, field)`: it gets the two indices, the node that has the link, and the other one if it exists. -/
def AskLink {σ : Type} (v : View) (f : ELinkCheck σ) (c : Change) (s : σ) (out : CheckResult × σ) : Prop :=
  ∃ n, v c.1 = some n ∧ f c.1 c.2.1 n (v c.2.1) s = out

/-- These calls of the registered checks `m` happen one after the other, starting in the state `s` and ending in the state `s'`; nothing else
changes the state. -/
def Asking {σ φ α : Type} (ask : φ → α → σ → CheckResult × σ → Prop) (m : Sorted φ) : List (Asked α) → σ → σ → Prop
  | [], s, s' => s' = s
  | a :: l, s, s' => ∃ f s1, m.get? a.name = some f ∧ ask f a.about s (a.answer, s1) ∧ Asking ask m l s1 s'

/-- The calls of the check with the given name. -/
def OfName {α : Type} (name : Ident) (log : List (Asked α)) : List α := (log.filter fun a => a.name = name).map Asked.about

/-- The checks are called in the order of their names.  Each is asked about the items one by one, until it returns `Err`; after that, the next check
is called.  After a panic nothing is called. -/
structure InTurn {α : Type} (items : List α) (log : List (Asked α)) : Prop where
  order : log.Pairwise fun a b => a.name ≤ b.name
  each : ∀ name, OfName name log <+: items
  stops : log.Pairwise fun a b => a.answer = .ok ∨ (a.answer = .err ∧ a.name ≠ b.name)

/-- Every registered check has been asked about all items, or until it returned `Err`. -/
def AllAsked {φ α : Type} (m : Sorted φ) (items : List α) (log : List (Asked α)) : Prop :=
  (∀ a ∈ log, a.answer ≠ .panics) ∧
  ∀ name f, m.get? name = some f → (∃ a ∈ log, a.name = name ∧ a.answer = .err) ∨ OfName name log = items

/-- The last call has panicked. -/
def LastPanics {α : Type} (log : List (Asked α)) : Prop := ∃ pre a, log = pre ++ [a] ∧ a.answer = .panics

/-- The names of the checks that returned `Err`, in the order of the calls. -/
def Failed {α : Type} (log : List (Asked α)) : List Ident := (log.filter fun a => a.answer = .err).map Asked.name

/-- Checks without side effects. -/
def quiet {σ : Type} (cs : GraphCheck) : EGraphCheck σ where
  nodeChecks := ⟨cs.nodeChecks.entries.map fun e => (e.1, fun x n s => (e.2 x n, s)), List.pairwise_map.2 cs.nodeChecks.sorted⟩
  addChecks := ⟨cs.addChecks.entries.map fun e => (e.1, fun x y n ny s => (e.2 x y n ny, s)), List.pairwise_map.2 cs.addChecks.sorted⟩
  removeChecks := ⟨cs.removeChecks.entries.map fun e => (e.1, fun x y n ny s => (e.2 x y n ny, s)), List.pairwise_map.2 cs.removeChecks.sorted⟩

end Spec
end TTGraph
