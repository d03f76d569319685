import Verif.Spec.Wrap
import Verif.Spec.Threads

/-!
# Programs with threads on a machine with a word size

`Interleaves` and `Threaded` once more, for a `usize` with `W` values.  A `switch_context` now keeps what the code has while it runs: the nodes it has inserted so
far, the new index of each of them, and the nodes that are left.
-/

set_option autoImplicit false

namespace TTGraph
namespace Spec

/-- A `switch_context` of `graph` to the context `ctx`: what its first loop (src/typed_graph.rs:451-457) has done, and the nodes left to insert. -/
structure MovingW where
  ctx : Nat
  graph : Graph
  done : Arena × OrderMap NodeIndex NodeIndex
  left : List (NodeIndex × Node)

/-- The worlds that a program with several threads reaches on a machine with `W` values of `usize`, by calls that are allowed and satisfy `R`,
draws of `switch_context`s from contexts that satisfy `D`, and panics that are caught (`K`). -/
inductive ThreadedW [SetImpl] (W : Nat) (chk : Bool) (S : Schema) (dbg : Bool) (R : World → Call → Prop) (D : World → Nat → Prop)
    (K : World → World → Prop) :
    World → (Nat → Option MovingW) → Prop
  | init : ThreadedW W chk S dbg R D K World.init (fun _ => none)
  /-- A thread does something else. -/
  | call {w : World} {mv : Nat → Option MovingW} {c : Call} : ThreadedW W chk S dbg R D K w mv → c.Allowed S w → R w c →
      ThreadedW W chk S dbg R D K (w.execW W chk S dbg c) mv
  /-- A thread catches a panic. -/
  | caught {w w' : World} {mv : Nat → Option MovingW} : ThreadedW W chk S dbg R D K w mv → K w w' → ThreadedW W chk S dbg R D K w' mv
  /-- The thread `m` calls `switch_context` on the graph `gh`, which it owns. -/
  | start {w : World} {mv : Nat → Option MovingW} {m gh c c' : Nat} {g : Graph} {x : Ctx} : ThreadedW W chk S dbg R D K w mv → mv m = none →
      w.graph gh = some (c', g) → w.ctx c = some x →
      ThreadedW W chk S dbg R D K (w.setGraph gh none) (World.put mv m (some ⟨c, g, (Arena.new, OrderMap.empty), g.nodes.entries S⟩))
  /-- The `switch_context` of the thread `m` inserts its next node (src/typed_graph.rs:453). -/
  | draw {w : World} {mv : Nat → Option MovingW} {m c cnt : Nat} {g : Graph} {st : Arena × OrderMap NodeIndex NodeIndex} {e : NodeIndex × Node}
      {l : List (NodeIndex × Node)} {x : Ctx} {new : NodeIndex} {a : Arena} : ThreadedW W chk S dbg R D K w mv → mv m = some ⟨c, g, st, e :: l⟩ →
      w.ctx c = some x → D w c → st.1.insertW W chk x.cnt e.2 = (cnt, .ok (new, a)) →
      ThreadedW W chk S dbg R D K (w.issue c x cnt [new]) (World.put mv m (some ⟨c, g, (a, st.2.insert e.1 new), l⟩))
  /-- This insertion panics: the index has overflowed, or is taken. -/
  | drawPanic {w : World} {mv : Nat → Option MovingW} {m c cnt : Nat} {g : Graph} {st : Arena × OrderMap NodeIndex NodeIndex} {e : NodeIndex × Node}
      {l : List (NodeIndex × Node)} {x : Ctx} {p : Panic} : ThreadedW W chk S dbg R D K w mv → mv m = some ⟨c, g, st, e :: l⟩ →
      w.ctx c = some x → D w c → st.1.insertW W chk x.cnt e.2 = (cnt, .error p) →
      ThreadedW W chk S dbg R D K (w.issue c x cnt []) (World.put mv m none)
  /-- The `switch_context` of the thread `m` has inserted every node and returns.  The program stores the new graph under `gh`. -/
  | finish {w : World} {mv : Nat → Option MovingW} {m gh c : Nat} {g g' : Graph} {st : Arena × OrderMap NodeIndex NodeIndex} {x : Ctx} :
      ThreadedW W chk S dbg R D K w mv → mv m = some ⟨c, g, st, []⟩ → w.ctx c = some x → g.switchRest S x.uuid st = .ok g' →
      ThreadedW W chk S dbg R D K (w.setGraph gh (some (c, g'))) (World.put mv m none)
  /-- The `switch_context` of the thread `m` has inserted every node and panics. -/
  | panic {w : World} {mv : Nat → Option MovingW} {m c : Nat} {g : Graph} {st : Arena × OrderMap NodeIndex NodeIndex} {x : Ctx} {e : Panic} :
      ThreadedW W chk S dbg R D K w mv → mv m = some ⟨c, g, st, []⟩ → w.ctx c = some x → g.switchRest S x.uuid st = .error e →
      ThreadedW W chk S dbg R D K w (World.put mv m none)

/-- The same without caught panics. -/
abbrev InterleavesW [SetImpl] (W : Nat) (chk : Bool) (S : Schema) (dbg : Bool) (R : World → Call → Prop) (D : World → Nat → Prop) :
    World → (Nat → Option MovingW) → Prop := ThreadedW W chk S dbg R D fun _ _ => False

/-- The program catches a panic on this machine in the world `w` and goes on in the world `w'` (see `Catches`).  A method that draws indices has
advanced the counter; the indices that it draws fit. -/
inductive CatchesW [SetImpl] (W M : Nat) (chk : Bool) (S : Schema) (dbg : Bool) (w : World) : World → Prop
  /-- A method of the transaction `k` panics.  The transaction is what the method has left. -/
  | method {k c cnt : Nat} {t : Trans} {x : Ctx} {o : TOp} {e : Panic} {part : Node → Node} : w.trans k = some (c, t) → w.ctx c = some x →
      (o.Allowed S t ∨ ∃ i n, o = .fillBackUntyped i n ∧ S.WT n) → M + (w.issued c).length + o.draws < W →
      o.runW W chk t x.cnt = (cnt, .error e) → KeepsTyped S part →
      CatchesW W M chk S dbg w ((w.issue c x cnt []).setTrans k (some (c, o.left part t)))
  /-- `k.merge(g)` panics; `g` has been moved into the call. -/
  | merge {k g c c' : Nat} {t : Trans} {gr : Graph} {e : Panic} : w.trans k = some (c, t) → w.graph g = some (c', gr) → t.merge gr = .error e →
      CatchesW W M chk S dbg w (w.setGraph g none)
  /-- `g.commit(k)` panics because the two belong to different contexts; `k` has been moved into the call. -/
  | commit {k g c c' : Nat} {t : Trans} {gr gr' : Graph} : w.trans k = some (c, t) → w.graph g = some (c', gr) → dbg = true →
      t.ctxId ≠ gr.ctxId → gr.commitLeft S dbg t = some gr' → CatchesW W M chk S dbg w ((w.setTrans k none).setGraph g (some (c', gr')))

/-- A draw of a `switch_context` fits too: the largest index in the files and the number of indices that the context has handed out, with this one, are
together below `W`. -/
def DrawFits (W M : Nat) (w : World) (c : Nat) : Prop := M + (w.issued c).length + 1 < W

/-- The two ways of keeping track of a `switch_context` agree: an index is drawn for the first nodes, the others are left, and what has been done is
the loop of `switch_context` with these draws. -/
def SameMove (S : Schema) : Option MovingW → Option Moving → Prop
  | none, none => True
  | some a, some b => b.ctx = a.ctx ∧ b.graph = a.graph ∧ b.draws.length ≤ a.graph.len S ∧ a.left = (a.graph.iter S).drop b.draws.length ∧
      a.graph.switchInsertDraws S b.draws = .ok a.done
  | _, _ => False

end Spec
end TTGraph
