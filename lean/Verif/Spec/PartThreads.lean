import Verif.Spec.Parts
import Verif.Spec.Interleaved

/-!
# Parts of a program that have nothing to do with each other, while threads are in the middle of a `switch_context`

The steps of `Interleaves` as a list of events.  An event that is impossible where it occurs has no effect.
-/

set_option autoImplicit false

namespace TTGraph
namespace Spec

/-- What a thread does next. -/
inductive ThreadEvent where
  /-- Some call other than a `switch_context` that takes its time. -/
  | call (a : Call)
  /-- The thread `m` calls `switch_context` on the graph `gh`, with the context `c`. -/
  | start (m gh c : Nat)
  /-- The `switch_context` of the thread `m` draws its next index. -/
  | draw (m : Nat)
  /-- The `switch_context` of the thread `m` ends.  If it returns, the new graph is stored under `gh`. -/
  | finish (m gh : Nat)

/-- A program in the middle of things: its objects, and the `switch_context`s of its threads. -/
abbrev Running := World × (Nat → Option Moving)

/-- The effect of an event. -/
def Running.exec [SetImpl] (S : Schema) (dbg : Bool) (s : Running) : ThreadEvent → Running
  | .call a => (s.1.exec S dbg a, s.2)
  | .start m gh c =>
    match s.2 m, s.1.graph gh, s.1.ctx c with
    | none, some (_, g), some _ => (s.1.setGraph gh none, World.put s.2 m (some ⟨c, g, []⟩))
    | _, _, _ => s
  | .draw m =>
    match s.2 m with
    | some ⟨c, g, ds⟩ =>
      match s.1.ctx c with
      | some x => if ds.length < g.len S then (s.1.issue c x (x.cnt + 1) [x.cnt + 1], World.put s.2 m (some ⟨c, g, ds ++ [x.cnt]⟩)) else s
      | none => s
    | none => s
  | .finish m gh =>
    match s.2 m with
    | some ⟨c, g, ds⟩ =>
      match s.1.ctx c with
      | some x =>
        if ds.length = g.len S then
          match g.switchContextDraws S x.uuid ds with
          | .ok g' => (s.1.setGraph gh (some (c, g')), World.put s.2 m none)
          | .error _ => (s.1, World.put s.2 m none)
        else s
      | none => s
    | none => s

/-- The start of a program. -/
def Running.init : Running := (World.init, fun _ => none)

/-- The events happen one after the other. -/
def runEvents [SetImpl] (S : Schema) (dbg : Bool) (s : Running) (l : List ThreadEvent) : Running := l.foldl (fun s e => s.exec S dbg e) s

/-- Every call among the events is allowed where it is made, and satisfies `R`. -/
def EventsAllowed [SetImpl] (S : Schema) (dbg : Bool) (R : World → Call → Prop) (l : List ThreadEvent) : Prop :=
  ∀ pre a post, l = pre ++ .call a :: post → a.Allowed S (runEvents S dbg Running.init pre).1 ∧ R (runEvents S dbg Running.init pre).1 a

/-- The event concerns only objects and threads of part `i`; `th` says to which part each thread belongs. -/
def EventWithin (o : Parts) (th : Nat → Nat) (i : Nat) : ThreadEvent → Prop
  | .call a => Within o i a
  | .start m gh c => th m = i ∧ o.graph gh = i ∧ o.ctx c = i
  | .draw m => th m = i
  | .finish m gh => th m = i ∧ o.graph gh = i

/-- The events of part `i`, in their order. -/
def eventsOf (i : Nat) (l : List (Nat × ThreadEvent)) : List ThreadEvent := (l.filter fun e => e.1 = i).map Prod.snd

/-- The objects of part `i` are the same, and its threads are in the middle of the same `switch_context`s, with the same draws. -/
def SameRunning (o : Parts) (th : Nat → Nat) (i : Nat) (s s2 : Running) : Prop := SamePart o i s.1 s2.1 ∧ ∀ m, th m = i → s2.2 m = s.2 m

end Spec
end TTGraph
