import Verif.Conform.Script

/-!
# /repo/tests/test_group.rs
-/

set_option autoImplicit false

namespace TTGraph
namespace Conform
namespace Groups
open Demo

/-- `Nodes`, test_group.rs:12-41: fields a, b, c, inserted, d = 10 to 14; groups group1, group2, x = 91, 92, 93. -/
def nodes : Schema where
  variants := [(1, ⟨[lnk 10 .direct [[91, 93]], lnk 11 .vec [[91, 93]], lnk 12 .direct [[92]], lnk 13 .direct, lnk 14 .set [[92, 93]]], []⟩)]

/-- `Node::default()`, test_group.rs:26-36. -/
def dflt : Node := ⟨1, [di emptyIdx, ve [], di emptyIdx, di emptyIdx, st []], []⟩

/-- `test_link_group`, test_group.rs:43-69. -/
def linkGroup (dbg : Bool) : Test Bool := do
  let x1 ← insert dflt
  let x2 ← insert dflt
  let x3 ← insert dflt
  let x4 ← insert dflt
  let x5 ← insert ⟨1, [di x1, ve [x2, x3], di x4, di x2, st [x1, x3]], []⟩
  commit nodes dbg
  let g ← graph
  return match g.get? x5 with
    | some n => decide (n.getLinksByGroup nodes 91 = [x1, x2, x3]) && decide (n.getLinksByGroup nodes 92 = [x4, x1, x3]) &&
        decide (n.getLinksByGroup nodes 93 = [x1, x2, x3, x1, x3])
    | none => false

example : passes linkGroup = true := by decide +kernel

/-- `MultiNodes`, test_group.rs:71-104: variants 1 to 4; groups first, second, third, one, all = 91 to 95. -/
def multiNodes : Schema where
  variants := [(1, ⟨[dat 10 1], []⟩), (2, ⟨[dat 20 1], []⟩), (3, ⟨[dat 30 1], []⟩), (4, ⟨[dat 40 1], []⟩)]
  groups := [(91, [1, 2]), (92, [3, 4]), (93, [1, 4]), (94, [2]), (95, [1, 2, 3, 4])]

/-- `test_node_group`, test_group.rs:106-124; also src/typed_graph.rs:325-341. -/
def nodeGroup (dbg : Bool) : Test Bool := do
  let a ← insert ⟨1, [], [us 1]⟩
  let b ← insert ⟨2, [], [us 2]⟩
  let c ← insert ⟨3, [], [us 3]⟩
  let d ← insert ⟨4, [], [us 4]⟩
  commit multiNodes dbg
  let g ← graph
  let group (name : Ident) : List NodeIndex := (g.iterGroup multiNodes name).map Prod.fst
  return decide (group 91 = [a, b]) && decide (group 92 = [c, d]) && decide (group 93 = [a, d]) && decide (group 94 = [b]) &&
    decide (group 95 = [a, b, c, d])

example : passes nodeGroup = true := by decide +kernel

/-- `len()`, src/typed_graph.rs:350-373. -/
def lenTest (dbg : Bool) : Test Bool := do
  let g0 ← graph
  let _ ← op (.extend [⟨1, [], [us 1]⟩, ⟨1, [], [us 1]⟩, ⟨1, [], [us 1]⟩])
  commit multiNodes dbg
  let g ← graph
  return decide (g0.len multiNodes = 0) && decide (g.len multiNodes = 3)

example : passes lenTest = true := by decide +kernel

/-- `remove`, src/typed_graph/transaction.rs:199-225, and `mutate` and `update`, transaction.rs:233-321. -/
def removeTest (dbg : Bool) : Test Bool := do
  let i ← insert ⟨1, [], [us 1]⟩
  commit multiNodes dbg
  let g1 ← graph
  mutNode 1 i (fun p => { p with data := [us 2] })
  commit multiNodes dbg
  let g2 ← graph
  updateNode 1 i (fun p => { p with data := p.data.map fun v => us (v.val + 1) })
  commit multiNodes dbg
  let g3 ← graph
  remove i
  commit multiNodes dbg
  let g4 ← graph
  return is g1 1 i [] [us 1] && is g2 1 i [] [us 2] && is g3 1 i [] [us 3] && (g4.get? i).isNone && (g1.get? emptyIdx).isNone

example : passes removeTest = true := by decide +kernel

end Groups
end Conform
end TTGraph
