import Verif.Lemmas.Parts
import Verif.Props.Replay

/-!
# C92: objects that no call brings together do not influence each other
-/

set_option autoImplicit false

namespace TTGraph
open Spec

variable [SetImpl] {S : Schema} {dbg : Bool} {o : Parts}

/-- C92: divide the objects of a program into parts so that no call names objects of two parts. After the calls of all parts, in any
interleaving, each part has exactly what it would have if its calls had been the only ones. -/
theorem C92_alone {l : List (Nat × Call)} (hl : ∀ e ∈ l, Within o e.1 e.2) (i : Nat) :
    SamePart o i (execAll S dbg World.init (l.map Prod.snd)) (execAll S dbg World.init (callsOf i l)) :=
  (parts_run hl (Apart.init o) (Apart.init o) (.refl _ _ _)).1

/-- C92: a call returns after the calls of all parts if and only if it returns after those of its own part alone. -/
theorem C92_returns {l : List (Nat × Call)} (hl : ∀ e ∈ l, Within o e.1 e.2) {i : Nat} {a : Call} (ha : Within o i a) :
    Returns S dbg (execAll S dbg World.init (l.map Prod.snd)) a ↔ Returns S dbg (execAll S dbg World.init (callsOf i l)) a :=
  have h := parts_run (S := S) (dbg := dbg) (i := i) hl (Apart.init o) (Apart.init o) (.refl _ _ _)
  ⟨h.1.returns h.2.1 ha, h.1.symm.returns h.2.2 ha⟩

/-- C92: two programs that make the same calls in each part, interleaved in two ways, end with exactly the same objects. -/
theorem C92_order {l m : List (Nat × Call)} (hl : ∀ e ∈ l, Within o e.1 e.2) (hm : ∀ e ∈ m, Within o e.1 e.2)
    (h : ∀ i, callsOf i l = callsOf i m) : execAll S dbg World.init (l.map Prod.snd) = execAll S dbg World.init (m.map Prod.snd) := by
  have key : ∀ i, SamePart o i (execAll S dbg World.init (l.map Prod.snd)) (execAll S dbg World.init (m.map Prod.snd)) := fun i => by
    have h1 := C92_alone (S := S) (dbg := dbg) hl i
    rw [h i] at h1
    exact h1.comp (C92_alone hm i).symm
  generalize execAll S dbg World.init (l.map Prod.snd) = w at key
  generalize execAll S dbg World.init (m.map Prod.snd) = w2 at key
  have e1 : w2.ctx = w.ctx := funext fun c => (key _).ctx c rfl
  have e2 : w2.issued = w.issued := funext fun c => (key _).issued c rfl
  have e3 : w2.graph = w.graph := funext fun c => (key _).graph c rfl
  have e4 : w2.trans = w.trans := funext fun c => (key _).trans c rfl
  cases w
  cases w2
  simp only at e1 e2 e3 e4
  subst e1 e2 e3 e4
  rfl

end TTGraph

namespace TTGraph.Demo
open Spec

/-- Even names are one part, odd names the other. -/
def evenOdd : Parts := ⟨(· % 2), (· % 2), (· % 2)⟩

instance (i : Nat) (a : Call) : Decidable (Within evenOdd i a) := by
  cases a <;> simp only [Within] <;> infer_instance

/-- Two parts take turns: each makes a context, a graph, a node and a commit; the second has two nodes, one of which it removes. -/
def turns : List (Nat × Call) :=
  [(0, .newContext 0 77), (1, .newContext 1 88), (1, .newGraph 1 1), (0, .newGraph 0 0), (0, .newTrans 0 0), (1, .newTrans 1 1),
   (1, .op 1 (.insert (pA 2 []))), (0, .op 0 (.insert (pB [] 0))), (1, .op 1 (.insert (pB [] 0))), (0, .commit 0 0), (1, .commit 1 1),
   (1, .newTrans 3 1), (0, .newTrans 2 0), (1, .op 3 (.remove 1)), (0, .op 2 (.insert (pA 1 []))), (1, .commit 1 3), (0, .commit 0 2)]

/-- First the one part, then the other. -/
def oneByOne : List (Nat × Call) := (turns.filter fun e => e.1 = 0) ++ turns.filter fun e => e.1 = 1

/-- The indices of the nodes of graph `g`. -/
def nodesIn (w : World) (g : Nat) : Option (List NodeIndex) := (w.graph g).map fun x => (x.2.iter typed).map Prod.fst

/-- C92: both parts have their own nodes, and have them too when the other part makes no call or all its calls later. -/
example : let w := execAll typed true World.init (turns.map Prod.snd)
    nodesIn w 0 = some [2, 1] ∧ nodesIn w 1 = some [2] ∧
    SamePart evenOdd 0 w (execAll typed true World.init (callsOf 0 turns)) ∧
    SamePart evenOdd 1 w (execAll typed true World.init (callsOf 1 turns)) ∧
    w = execAll typed true World.init (oneByOne.map Prod.snd) ∧ oneByOne ≠ turns ∧
    (Returns typed true w (.newTrans 0 0) ↔ Returns typed true (execAll typed true World.init (callsOf 0 turns)) (.newTrans 0 0)) := by
  intro w
  have h : ∀ e ∈ turns, Within evenOdd e.1 e.2 := by decide +kernel
  have h' : ∀ e ∈ oneByOne, Within evenOdd e.1 e.2 := fun e he => h e (by
    rcases List.mem_append.1 he with he | he <;> exact (List.mem_filter.1 he).1)
  refine ⟨by decide +kernel, by decide +kernel, C92_alone h 0, C92_alone h 1, C92_order h h' fun i => ?_, ?_, C92_returns h (by decide)⟩
  · simp only [oneByOne, callsOf, List.filter_append, List.filter_filter, List.map_append]
    match i with
    | 0 => rfl
    | 1 => rfl
    | i + 2 =>
      simp [turns]
  · intro e
    have := congrArg (fun l => (l.map Prod.fst)[1]?) e
    exact absurd this (by decide +kernel)

end TTGraph.Demo
