import Verif.Model.SwitchDraws
import Verif.Spec.History

/-!
# Programs in which a `switch_context` takes its time

In `World.exec` a `switch_context` is one step.  In the code, it draws the new indices one by one, and other threads go on in between.  Here
it consists of a step that takes the graph away from the program, one step for every index, and a step that gives the new graph back.  Several
threads may be in the middle of a `switch_context`.
-/

set_option autoImplicit false

namespace TTGraph
namespace Spec

/-- A `switch_context` of `graph` to the context `ctx` that has found the counter at `draws` so far. -/
structure Moving where
  ctx : Nat
  graph : Graph
  draws : List Nat

/-- The worlds that a program with several threads reaches by calls that are allowed and satisfy `R`, and the `switch_context`s that its threads
(second table) are in the middle of. -/
inductive Interleaves [SetImpl] (S : Schema) (dbg : Bool) (R : World → Call → Prop) : World → (Nat → Option Moving) → Prop
  | init : Interleaves S dbg R World.init (fun _ => none)
  /-- A thread does something else. -/
  | call {w : World} {mv : Nat → Option Moving} {c : Call} : Interleaves S dbg R w mv → c.Allowed S w → R w c →
      Interleaves S dbg R (w.exec S dbg c) mv
  /-- The thread `m` calls `switch_context` on the graph `gh`, which it owns. -/
  | start {w : World} {mv : Nat → Option Moving} {m gh c c' : Nat} {g : Graph} {x : Ctx} : Interleaves S dbg R w mv → mv m = none →
      w.graph gh = some (c', g) → w.ctx c = some x →
      Interleaves S dbg R (w.setGraph gh none) (World.put mv m (some ⟨c, g, []⟩))
  /-- The `switch_context` of the thread `m` draws the index for its next node (src/typed_graph.rs:453). -/
  | draw {w : World} {mv : Nat → Option Moving} {m c : Nat} {g : Graph} {ds : List Nat} {x : Ctx} : Interleaves S dbg R w mv →
      mv m = some ⟨c, g, ds⟩ → w.ctx c = some x → ds.length < g.len S →
      Interleaves S dbg R (w.issue c x (x.cnt + 1) [x.cnt + 1]) (World.put mv m (some ⟨c, g, ds ++ [x.cnt]⟩))
  /-- The `switch_context` of the thread `m` has an index for every node and returns.  The program stores the new graph under `gh`. -/
  | finish {w : World} {mv : Nat → Option Moving} {m gh c : Nat} {g g' : Graph} {ds : List Nat} {x : Ctx} : Interleaves S dbg R w mv →
      mv m = some ⟨c, g, ds⟩ → w.ctx c = some x → ds.length = g.len S → g.switchContextDraws S x.uuid ds = .ok g' →
      Interleaves S dbg R (w.setGraph gh (some (c, g'))) (World.put mv m none)
  /-- The `switch_context` of the thread `m` has an index for every node and panics. -/
  | panic {w : World} {mv : Nat → Option Moving} {m c : Nat} {g : Graph} {ds : List Nat} {x : Ctx} {e : Panic} : Interleaves S dbg R w mv →
      mv m = some ⟨c, g, ds⟩ → w.ctx c = some x → ds.length = g.len S → g.switchContextDraws S x.uuid ds = .error e →
      Interleaves S dbg R w (World.put mv m none)

end Spec
end TTGraph
