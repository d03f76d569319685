import Verif.Spec.Catching
import Verif.Spec.Interleaved

/-!
# Programs with several threads that catch panics

`Survives` is about programs that catch panics, `Interleaves` about programs in which a `switch_context` takes its time.  Here a program does
both.
-/

set_option autoImplicit false

namespace TTGraph
namespace Spec

/-- The program catches a panic in the world `w` and goes on in the world `w'` (see `Survives`). -/
inductive Catches [SetImpl] (S : Schema) (dbg : Bool) (w : World) : World → Prop
  /-- A method of the transaction `k` panics.  The transaction is what the method has left. -/
  | method {k c : Nat} {t : Trans} {x : Ctx} {o : TOp} {e : Panic} {part : Node → Node} : w.trans k = some (c, t) → w.ctx c = some x →
      (o.Allowed S t ∨ ∃ i n, o = .fillBackUntyped i n ∧ S.WT n) → o.run t x.cnt = .error e → KeepsTyped S part →
      Catches S dbg w (w.setTrans k (some (c, o.left part t)))
  /-- `k.merge(g)` panics; `g` has been moved into the call. -/
  | merge {k g c c' : Nat} {t : Trans} {gr : Graph} {e : Panic} : w.trans k = some (c, t) → w.graph g = some (c', gr) → t.merge gr = .error e →
      Catches S dbg w (w.setGraph g none)
  /-- `g.commit(k)` panics because the two belong to different contexts; `k` has been moved into the call. -/
  | commit {k g c c' : Nat} {t : Trans} {gr gr' : Graph} : w.trans k = some (c, t) → w.graph g = some (c', gr) → dbg = true →
      t.ctxId ≠ gr.ctxId → gr.commitLeft S dbg t = some gr' → Catches S dbg w ((w.setTrans k none).setGraph g (some (c', gr')))

/-- The worlds that a program with several threads reaches by calls that are allowed and satisfy `R`, if its threads catch panics, and the
`switch_context`s that they (second table) are in the middle of. -/
inductive Threaded [SetImpl] (S : Schema) (dbg : Bool) (R : World → Call → Prop) : World → (Nat → Option Moving) → Prop
  | init : Threaded S dbg R World.init (fun _ => none)
  /-- A thread makes a call. -/
  | call {w : World} {mv : Nat → Option Moving} {c : Call} : Threaded S dbg R w mv → c.Allowed S w → R w c → Threaded S dbg R (w.exec S dbg c) mv
  /-- A thread catches a panic. -/
  | caught {w w' : World} {mv : Nat → Option Moving} : Threaded S dbg R w mv → Catches S dbg w w' → Threaded S dbg R w' mv
  /-- The thread `m` calls `switch_context` on the graph `gh`, which it owns. -/
  | start {w : World} {mv : Nat → Option Moving} {m gh c c' : Nat} {g : Graph} {x : Ctx} : Threaded S dbg R w mv → mv m = none →
      w.graph gh = some (c', g) → w.ctx c = some x → Threaded S dbg R (w.setGraph gh none) (World.put mv m (some ⟨c, g, []⟩))
  /-- The `switch_context` of the thread `m` draws the index for its next node (src/typed_graph.rs:453). -/
  | draw {w : World} {mv : Nat → Option Moving} {m c : Nat} {g : Graph} {ds : List Nat} {x : Ctx} : Threaded S dbg R w mv →
      mv m = some ⟨c, g, ds⟩ → w.ctx c = some x → ds.length < g.len S →
      Threaded S dbg R (w.issue c x (x.cnt + 1) [x.cnt + 1]) (World.put mv m (some ⟨c, g, ds ++ [x.cnt]⟩))
  /-- The `switch_context` of the thread `m` has an index for every node and returns.  The program stores the new graph under `gh`. -/
  | finish {w : World} {mv : Nat → Option Moving} {m gh c : Nat} {g g' : Graph} {ds : List Nat} {x : Ctx} : Threaded S dbg R w mv →
      mv m = some ⟨c, g, ds⟩ → w.ctx c = some x → ds.length = g.len S → g.switchContextDraws S x.uuid ds = .ok g' →
      Threaded S dbg R (w.setGraph gh (some (c, g'))) (World.put mv m none)
  /-- The `switch_context` of the thread `m` has an index for every node and panics.  The thread catches the panic; the graph is gone. -/
  | panic {w : World} {mv : Nat → Option Moving} {m c : Nat} {g : Graph} {ds : List Nat} {x : Ctx} {e : Panic} : Threaded S dbg R w mv →
      mv m = some ⟨c, g, ds⟩ → w.ctx c = some x → ds.length = g.len S → g.switchContextDraws S x.uuid ds = .error e →
      Threaded S dbg R w (World.put mv m none)

end Spec
end TTGraph
