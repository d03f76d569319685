import Verif.Conform.Script

/-!
# The examples of /repo/src/lib.rs and README.md
-/

set_option autoImplicit false

namespace TTGraph
namespace Conform
namespace Docs
open Demo

/-- `Node`, src/lib.rs:26-48, 82-88: Factory = 1 (name, workers, products), Worker = 2 (name, factory, produced), Product = 3 (id). -/
def factories : Schema where
  variants := [(1, ⟨[dat 10 2, lnk 11 .set, lnk 12 .set], []⟩), (2, ⟨[dat 20 2, lnk 21 .direct, lnk 22 .vec], []⟩), (3, ⟨[dat 30 1], []⟩)]

/-- The same with `bidirectional!{ Factory.workers <-> Worker.factory }`, src/lib.rs:408-417. -/
def factories2 : Schema := { factories with bidirs := [⟨1, 11, 2, 21⟩] }

def fac (name : Nat) (workers products : List NodeIndex) : Node := ⟨1, [st workers, st products], [⟨2, name⟩]⟩
def wor (name : Nat) (factory : NodeIndex) (produced : List NodeIndex) : Node := ⟨2, [di factory, ve produced], [⟨2, name⟩]⟩
def pro (id : Nat) : Node := ⟨3, [], [us id]⟩

/-- src/lib.rs:90-127, README.md:70-113.  The names "Factory", "Alice", "Bob" are 7, 8, 9. -/
def building (dbg : Bool) : Test Bool := do
  let product1 ← insert (pro 1)
  let product2 ← insert (pro 2)
  let worker1 ← alloc 2
  let worker2 ← alloc 2
  let factory ← insert (fac 7 [worker1, worker2] [product1, product2])
  fill worker1 (wor 8 factory [product2])
  fill worker2 (wor 9 factory [product1])
  commit factories dbg
  let g ← graph
  return is g 1 factory [st [worker1, worker2], st [product1, product2]] [⟨2, 7⟩]

example : passes building = true := by decide +kernel

/-- src/lib.rs:419-450, README.md:190-228. -/
def bidirectional (dbg : Bool) : Test Bool := do
  let product1 ← insert (pro 1)
  let product2 ← insert (pro 2)
  let factory ← insert (fac 7 [] [product1, product2])
  let worker1 ← insert (wor 8 factory [product2])
  let worker2 ← insert (wor 9 factory [product1])
  commit factories2 dbg
  let g ← graph
  return is g 1 factory [st [worker1, worker2], st [product1, product2]] [⟨2, 7⟩]

example : passes bidirectional = true := by decide +kernel

/-- `A(NodeA { a })` = 1, `B(NodeB { b })` = 2, src/typed_graph.rs:199-215, macros.rs:46-62. -/
def ab : Schema where
  variants := [(1, ⟨[dat 10 1], []⟩), (2, ⟨[dat 20 1], []⟩)]

/-- `iter()`, src/typed_graph.rs:217-233 and `iter_nodes!`, src/typed_graph/macros.rs:65-84. -/
def iterTest (dbg : Bool) : Test Bool := do
  let _ ← insert ⟨1, [], [us 1]⟩
  let _ ← insert ⟨1, [], [us 2]⟩
  let _ ← insert ⟨2, [], [us 0]⟩
  commit ab dbg
  let g ← graph
  let l ← liftM (Macros.iterNodes g 1)
  return decide (((g.iter ab).take 2).map Prod.snd = [⟨1, [], [us 1]⟩, ⟨1, [], [us 2]⟩]) && decide (l.map (fun e => e.2.data) = [[us 1], [us 2]])

example : passes iterTest = true := by decide +kernel

/-- `merge`, src/typed_graph/transaction.rs:452-494: two graphs of one context, and a third one of another context. -/
def mergeTest (dbg : Bool) : Except Panic Bool := do
  let (n1, t1, c1) ← (Trans.new 1).insert 0 ⟨1, [], [us 1]⟩
  let g1 ← (Graph.new 1).commit ab dbg t1
  let (n2, t2, _) ← (Trans.new 1).insert c1 ⟨1, [], [us 1]⟩
  let t2 ← t2.merge g1
  let g2 ← (Graph.new 1).commit ab dbg t2
  let (g2', _) ← g2.switchContext ab 2 0
  let t3 ← (Trans.new 2).merge g2'
  let g3 ← (Graph.new 2).commit ab dbg t3
  return (g2.get? n1).isSome && (g2.get? n2).isSome && decide (g3.len ab = 2)

example : mergeTest true = .ok true ∧ mergeTest false = .ok true := by
  constructor <;> exact got_ok (d := true) (by decide +kernel)

end Docs
end Conform
end TTGraph
