import Verif.Conform.Script

/-!
# /repo/tests/test_basic.rs
-/

set_option autoImplicit false

namespace TTGraph
namespace Conform
namespace Basic
open Demo

/-- `MyNodeEnum`, test_basic.rs:15-40: `A(NodeA { to, name })` = 1, `B(NodeB { a, x, data1 })` = 2, `Empty(NodeEmpty { x })` = 3. -/
def myNodeEnum : Schema where
  variants := [(1, ⟨[lnk 10 .direct, dat 11 2], []⟩), (2, ⟨[lnk 20 .direct, lnk 21 .direct, dat 22 1], []⟩), (3, ⟨[dat 30 1], []⟩)]

/-- `can_compile`, test_basic.rs:42-80; the strings are numbers here, "A" is 7.  The test only prints what it reads; the values are those
that the printed expressions denote. -/
def canCompile (dbg : Bool) : Test Bool := do
  let n ← insert ⟨3, [], [us 0]⟩
  commit myNodeEnum dbg
  let g1 ← graph
  let b ← alloc 2
  let a ← insert ⟨1, [di b], [⟨2, 7⟩]⟩
  fill b ⟨2, [di a, di n], [us 3]⟩
  commit myNodeEnum dbg
  let g ← graph
  return decide ((g1.iterType 3).map Prod.fst = [n]) && decide ((g.iter myNodeEnum).map Prod.fst = [a, b, n]) &&
    decide ((g.iterType 1).map Prod.fst = [a]) && decide ((g.iterType 2).map Prod.fst = [b]) &&
    is g 1 a [di b] [⟨2, 7⟩] && is g 2 b [di a, di n] [us 3] && is g 3 n [] [us 0] &&
    decide (((g.get? a).bind fun x => x.dataRefByName myNodeEnum 11 2) = some ⟨2, 7⟩) &&
    decide (((g.get? a).bind fun x => x.dataRefByName myNodeEnum 11 1) = none) &&
    decide (((g.get? a).bind fun x => x.dataRefByName myNodeEnum 22 2) = none) &&
    decide (((g.get? b).bind fun x => x.dataRefByName myNodeEnum 22 1) = some (us 3))

example : passes canCompile = true := by decide +kernel

/-- `TestNode`, test_basic.rs:82-92: `CNode(CNode { tos })` = 1. -/
def testNode : Schema where
  variants := [(1, ⟨[lnk 10 .set], []⟩)]

def cnode (l : List NodeIndex) : Node := ⟨1, [st l], []⟩

/-- `redirect_test`, test_basic.rs:94-128, with the expected result of the same example in src/typed_graph/transaction.rs:435-446.  The
graph read back has the same nodes. -/
def redirectTest (dbg : Bool) : Test Bool := do
  let a ← alloc 1
  let b ← alloc 1
  let c ← alloc 1
  let d ← insert (cnode [])
  fill c (cnode [d])
  fill b (cnode [c, d])
  fill a (cnode [b, c, d])
  commit testNode dbg
  redirect c b
  redirect b a
  redirect d c
  commit testNode dbg
  let g ← graph
  let (_, g2) ← liftM (g.serialize testNode |> Graph.deserializeGraph testNode)
  return [g, g2].all fun g => is g 1 a [st [a]] && is g 1 b [st [a]] && is g 1 c [st [a]] && is g 1 d [st []] && backlinks testNode g

example : passes redirectTest = true := by decide +kernel

/-- The example of `redirect_all_links`, src/typed_graph/transaction.rs:345-386. -/
def redirectAllTest (dbg : Bool) : Test Bool := do
  let a ← alloc 1
  let b ← alloc 1
  let c ← alloc 1
  let d ← insert (cnode [])
  fill c (cnode [d])
  fill b (cnode [c, d])
  fill a (cnode [b, c, d])
  redirectAll c b
  redirectAll b a
  redirectAll d c
  commit testNode dbg
  let g ← graph
  return is g 1 a [st [a]] && is g 1 b [st [a]] && is g 1 c [st [a]] && is g 1 d [st []] && backlinks testNode g

example : passes redirectAllTest = true := by decide +kernel

/-- `VecNodeEnum`, test_basic.rs:145-155. -/
def vecNode : Schema where
  variants := [(1, ⟨[lnk 10 .vec], []⟩)]

/-- `test_vec_empty`, test_basic.rs:156-171. -/
def vecEmpty (dbg : Bool) : Test Bool := do
  let a ← alloc 1
  let b ← insert ⟨1, [ve [a]], []⟩
  fill a ⟨1, [ve []], []⟩
  commit vecNode dbg
  mutNode 1 b (put 0 fun v => match v with | .vec l => .vec (l ++ [emptyIdx]) | v => v)
  commit vecNode dbg
  let g ← graph
  return is g 1 a [ve []] && is g 1 b [ve [a, emptyIdx]] && backlinks vecNode g

example : passes vecEmpty = true := by decide +kernel

end Basic
end Conform
end TTGraph
