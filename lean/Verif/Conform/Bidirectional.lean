import Verif.Conform.Script

/-!
# /repo/tests/test_bidirectional.rs
-/

set_option autoImplicit false

namespace TTGraph
namespace Conform
namespace Bidirectional
open Demo

/-! ### Declarations, test_bidirectional.rs:12-59 -/

abbrev GraphNode : Ident := 1
abbrev PairNode : Ident := 2
abbrev TreeNode : Ident := 3
abbrev BoxNode : Ident := 4
abbrev DataNode : Ident := 5

/-- `NodeType`, test_bidirectional.rs:44-59. -/
def nodeType : Schema where
  variants := [
    (GraphNode, ⟨[lnk 11 .set, lnk 12 .set, dat 13 1], []⟩),
    (PairNode, ⟨[lnk 21 .direct], []⟩),
    (TreeNode, ⟨[lnk 31 .set, lnk 32 .direct], []⟩),
    (BoxNode, ⟨[lnk 41 .set], []⟩),
    (DataNode, ⟨[lnk 51 .direct, dat 52 1], []⟩)]
  bidirs := [⟨GraphNode, 11, GraphNode, 12⟩, ⟨PairNode, 21, PairNode, 21⟩, ⟨TreeNode, 32, TreeNode, 31⟩, ⟨BoxNode, 41, DataNode, 51⟩]

def gn (tos froms : List NodeIndex) (data : Nat) : Node := ⟨GraphNode, [st tos, st froms], [us data]⟩
def pn (other : NodeIndex) : Node := ⟨PairNode, [di other], []⟩
def tn (children : List NodeIndex) (father : NodeIndex) : Node := ⟨TreeNode, [st children, di father], []⟩
def bn (inside : List NodeIndex) : Node := ⟨BoxNode, [st inside], []⟩
def dn (parent : NodeIndex) (data : Nat) : Node := ⟨DataNode, [di parent], [us data]⟩

/-- `GraphUnderTest`, test_bidirectional.rs:61-76. -/
structure Names where
  (gn1 gn2 gn3 pn1 pn2 pn3 tn1 tn2 tn3 tn4 bn dn1 dn2 dn3 : NodeIndex)

/-- `build_graph`, test_bidirectional.rs:86-184. -/
def build (dbg : Bool) : Test Names := do
  let gn1 ← alloc GraphNode
  let gn2 ← alloc GraphNode
  let gn3 ← alloc GraphNode
  let pn1 ← alloc PairNode
  let pn2 ← alloc PairNode
  let pn3 ← alloc PairNode
  let tn1 ← alloc TreeNode
  let tn2 ← alloc TreeNode
  let tn3 ← alloc TreeNode
  let tn4 ← alloc TreeNode
  let bn0 ← alloc BoxNode
  let dn1 ← alloc DataNode
  let dn2 ← alloc DataNode
  let dn3 ← alloc DataNode
  fill gn1 (gn [gn2, gn3] [gn3] 1)
  fill gn2 (gn [gn2] [gn3] 2)
  fill gn3 (gn [] [gn1] 3)
  fill pn1 (pn emptyIdx)
  fill pn2 (pn pn1)
  fill pn3 (pn emptyIdx)
  fill tn1 (tn [tn2] emptyIdx)
  fill tn2 (tn [tn4] tn1)
  fill tn3 (tn [] tn1)
  fill tn4 (tn [] emptyIdx)
  fill bn0 (bn [dn1, dn3, tn1, gn1, pn3])
  fill dn1 (dn bn0 1)
  fill dn2 (dn bn0 2)
  fill dn3 (dn emptyIdx 3)
  commit nodeType dbg
  return ⟨gn1, gn2, gn3, pn1, pn2, pn3, tn1, tn2, tn3, tn4, bn0, dn1, dn2, dn3⟩

/-- `can_build_graph`, test_bidirectional.rs:186-288. -/
def canBuild (dbg : Bool) : Test Bool := do
  let n ← build dbg
  let g ← graph
  return is g GraphNode n.gn1 [st [n.gn2, n.gn3], st [n.gn3]] [us 1] && is g GraphNode n.gn2 [st [n.gn2], st [n.gn1, n.gn2, n.gn3]] [us 2] &&
    is g GraphNode n.gn3 [st [n.gn1, n.gn2], st [n.gn1]] [us 3] && is g PairNode n.pn1 [di n.pn2] && is g PairNode n.pn2 [di n.pn1] &&
    is g PairNode n.pn3 [di emptyIdx] && is g TreeNode n.tn1 [st [n.tn2, n.tn3], di emptyIdx] && is g TreeNode n.tn2 [st [n.tn4], di n.tn1] &&
    is g TreeNode n.tn3 [st [], di n.tn1] && is g TreeNode n.tn4 [st [], di n.tn2] &&
    is g BoxNode n.bn [st [n.dn1, n.dn2, n.dn3, n.tn1, n.gn1, n.pn3]] && is g DataNode n.dn1 [di n.bn] [us 1] &&
    is g DataNode n.dn2 [di n.bn] [us 2] && is g DataNode n.dn3 [di n.bn] [us 3] && backlinks nodeType g

example : passes canBuild = true := by decide +kernel

/-- `can_add_node`, test_bidirectional.rs:290-444. -/
def canAdd (dbg : Bool) : Test Bool := do
  let n ← build dbg
  let gn4 ← alloc GraphNode
  fill gn4 (gn [n.gn2, n.gn3, gn4] [n.gn1, n.gn3] 4)
  let pn4 ← insert (pn n.pn3)
  let tn5 ← insert (tn [] n.tn2)
  let dn5 ← alloc DataNode
  let bn2 ← insert (bn [dn5])
  let dn4 ← insert (dn n.bn 4)
  fill dn5 (dn emptyIdx 5)
  commit nodeType dbg
  let g ← graph
  return is g GraphNode n.gn1 [st [n.gn2, n.gn3, gn4], st [n.gn3]] [us 1] &&
    is g GraphNode n.gn2 [st [n.gn2], st [n.gn1, n.gn2, n.gn3, gn4]] [us 2] &&
    is g GraphNode n.gn3 [st [n.gn1, n.gn2, gn4], st [n.gn1, gn4]] [us 3] &&
    is g GraphNode gn4 [st [n.gn2, n.gn3, gn4], st [n.gn1, n.gn3, gn4]] [us 4] && is g PairNode n.pn1 [di n.pn2] &&
    is g PairNode n.pn2 [di n.pn1] && is g PairNode n.pn3 [di pn4] && is g PairNode pn4 [di n.pn3] &&
    is g TreeNode n.tn1 [st [n.tn2, n.tn3], di emptyIdx] && is g TreeNode n.tn2 [st [n.tn4, tn5], di n.tn1] &&
    is g TreeNode n.tn3 [st [], di n.tn1] && is g TreeNode n.tn4 [st [], di n.tn2] && is g TreeNode tn5 [st [], di n.tn2] &&
    is g BoxNode n.bn [st [n.dn1, n.dn2, n.dn3, dn4, n.tn1, n.gn1, n.pn3]] && is g BoxNode bn2 [st [dn5]] &&
    is g DataNode n.dn1 [di n.bn] [us 1] && is g DataNode n.dn2 [di n.bn] [us 2] && is g DataNode n.dn3 [di n.bn] [us 3] &&
    is g DataNode dn4 [di n.bn] [us 4] && is g DataNode dn5 [di bn2] [us 5] && backlinks nodeType g

example : passes canAdd = true := by decide +kernel

/-- `can_modify_and_update_node`, test_bidirectional.rs:446-651. -/
def canModify (dbg : Bool) : Test Bool := do
  let n ← build dbg
  let gn4 ← alloc GraphNode
  mutNode GraphNode n.gn1 (fun x => put 1 (del n.gn3) (put 0 (del n.gn3) x))
  mutNode GraphNode n.gn2 (put 0 (del n.gn2))
  updateNode GraphNode n.gn3 (fun x => { x with links := [st [n.gn2], st [gn4]] })
  fill gn4 (gn [n.gn2, gn4] [n.gn1, n.gn3] 4)
  let pn4 ← insert (pn n.pn2)
  mutNode PairNode n.pn1 (put 0 fun _ => di emptyIdx)
  mutNode PairNode n.pn2 (put 0 fun _ => di emptyIdx)
  let tn5 ← insert (tn [n.tn2, n.tn4] n.tn1)
  mutNode TreeNode n.tn2 (fun x => put 0 (del n.tn4) (put 1 (fun _ => di tn5) x))
  mutNode TreeNode n.tn4 (put 1 fun _ => di tn5)
  let dn4 ← insert (dn emptyIdx 4)
  mutNode BoxNode n.bn (put 0 fun v => add dn4 (del n.gn1 (del n.dn3 (del n.dn2 v))))
  let bn2 ← insert (bn [n.dn2, n.dn3, n.gn1])
  updateNode DataNode n.dn2 (put 0 fun _ => di bn2)
  mutNode DataNode n.dn3 (put 0 fun _ => di emptyIdx)
  let dn5 ← insert (dn bn2 5)
  commit nodeType dbg
  let g ← graph
  return is g GraphNode n.gn1 [st [n.gn2, gn4], st []] [us 1] && is g GraphNode n.gn2 [st [], st [n.gn1, n.gn3, gn4]] [us 2] &&
    is g GraphNode n.gn3 [st [n.gn2, gn4], st [gn4]] [us 3] && is g GraphNode gn4 [st [n.gn2, n.gn3, gn4], st [n.gn1, n.gn3, gn4]] [us 4] &&
    is g PairNode n.pn1 [di emptyIdx] && is g PairNode n.pn2 [di pn4] && is g PairNode n.pn3 [di emptyIdx] && is g PairNode pn4 [di n.pn2] &&
    is g TreeNode n.tn1 [st [tn5, n.tn3], di emptyIdx] && is g TreeNode n.tn2 [st [], di tn5] && is g TreeNode n.tn3 [st [], di n.tn1] &&
    is g TreeNode n.tn4 [st [], di tn5] && is g TreeNode tn5 [st [n.tn2, n.tn4], di n.tn1] &&
    is g BoxNode n.bn [st [n.dn1, dn4, n.tn1, n.pn3]] && is g BoxNode bn2 [st [n.dn2, n.dn3, dn5, n.gn1]] &&
    is g DataNode n.dn1 [di n.bn] [us 1] && is g DataNode n.dn2 [di bn2] [us 2] && is g DataNode n.dn3 [di bn2] [us 3] &&
    is g DataNode dn4 [di n.bn] [us 4] && is g DataNode dn5 [di bn2] [us 5] && backlinks nodeType g

example : passes canModify = true := by decide +kernel

/-- `can_remove_node`, test_bidirectional.rs:653-752. -/
def canRemove (dbg : Bool) : Test Bool := do
  let n ← build dbg
  remove n.gn3
  remove n.pn2
  remove n.tn2
  remove n.dn3
  commit nodeType dbg
  let g ← graph
  return is g GraphNode n.gn1 [st [n.gn2], st []] [us 1] && is g GraphNode n.gn2 [st [n.gn2], st [n.gn1, n.gn2]] [us 2] &&
    none? g GraphNode n.gn3 && is g PairNode n.pn1 [di emptyIdx] && none? g PairNode n.pn2 && is g PairNode n.pn3 [di emptyIdx] &&
    is g TreeNode n.tn1 [st [n.tn3], di emptyIdx] && none? g TreeNode n.tn2 && is g TreeNode n.tn3 [st [], di n.tn1] &&
    is g TreeNode n.tn4 [st [], di emptyIdx] && is g BoxNode n.bn [st [n.dn1, n.dn2, n.tn1, n.gn1, n.pn3]] &&
    is g DataNode n.dn1 [di n.bn] [us 1] && is g DataNode n.dn2 [di n.bn] [us 2] && none? g DataNode n.dn3 && backlinks nodeType g

example : passes canRemove = true := by decide +kernel

/-- `can_redirect_node`, test_bidirectional.rs:754-886. -/
def canRedirect (dbg : Bool) : Test Bool := do
  let n ← build dbg
  redirect n.gn2 n.gn3
  redirect n.pn2 n.pn3
  redirect n.tn2 n.tn3
  let bn2 ← insert (bn [])
  redirect n.bn bn2
  commit nodeType dbg
  let g ← graph
  return is g GraphNode n.gn1 [st [n.gn3], st [n.gn3]] [us 1] && is g GraphNode n.gn2 [st [n.gn3], st []] [us 2] &&
    is g GraphNode n.gn3 [st [n.gn1, n.gn3], st [n.gn1, n.gn2, n.gn3]] [us 3] && is g PairNode n.pn1 [di n.pn3] &&
    is g PairNode n.pn2 [di emptyIdx] && is g PairNode n.pn3 [di n.pn1] && is g TreeNode n.tn1 [st [n.tn3], di emptyIdx] &&
    is g TreeNode n.tn2 [st [], di emptyIdx] && is g TreeNode n.tn3 [st [n.tn4], di n.tn1] && is g TreeNode n.tn4 [st [], di n.tn3] &&
    is g BoxNode n.bn [st [n.tn1, n.gn1, n.pn3]] && is g BoxNode bn2 [st [n.dn1, n.dn2, n.dn3]] && is g DataNode n.dn1 [di bn2] [us 1] &&
    is g DataNode n.dn2 [di bn2] [us 2] && is g DataNode n.dn3 [di bn2] [us 3] && backlinks nodeType g

example : passes canRedirect = true := by decide +kernel

/-! ### Groups, test_bidirectional.rs:888-1054 (also src/lib.rs:660-820) -/

/-- The structs `Left1` to `Left4` (fields 10, 11; groups `l1` = 101, `l2` = 102) and `Right1` to `Right4` (groups `r1` = 103, `r2` = 104). -/
def side (a b : Ident) : StructDecl := ⟨[lnk 10 .direct [[a]], lnk 11 .direct [[b]]], []⟩

/-- `LR`, test_bidirectional.rs:954-985: variants 1 to 4 are `Left1` to `Left4`, 5 to 8 are `Right1` to `Right4`; groups `left` = 91,
`right` = 92, `LU` = 93, `LD` = 94, `RU` = 95, `RD` = 96. -/
def lr : Schema where
  variants := [(1, side 101 102), (2, side 101 102), (3, side 101 102), (4, side 101 102),
    (5, side 103 104), (6, side 103 104), (7, side 103 104), (8, side 103 104)]
  groups := [(91, [1, 2, 3, 4]), (92, [5, 6, 7, 8]), (93, [1, 2]), (94, [3, 4]), (95, [5, 6]), (96, [7, 8])]
  annos := [⟨91, 101, [95]⟩, ⟨91, 102, [96]⟩, ⟨92, 103, [93]⟩, ⟨92, 104, [94]⟩]
  bidirs := [⟨93, 101, 95, 103⟩, ⟨94, 101, 95, 104⟩, ⟨93, 102, 96, 103⟩, ⟨94, 102, 96, 104⟩]

def two (d : Ident) (a b : NodeIndex) : Node := ⟨d, [di a, di b], []⟩

/-- `test_group_bidirectional`, test_bidirectional.rs:987-1054. -/
def groupBidirectional (dbg : Bool) : Test Bool := do
  let l1 ← alloc 1
  let l2 ← alloc 2
  let l3 ← alloc 3
  let l4 ← alloc 4
  let r1 ← alloc 5
  let r2 ← alloc 6
  let r3 ← alloc 7
  let r4 ← alloc 8
  fill l1 (two 1 r1 r3)
  fill l2 (two 2 r2 r4)
  fill l3 (two 3 r1 r4)
  fill l4 (two 4 r2 r3)
  fill r1 (two 5 emptyIdx emptyIdx)
  fill r2 (two 6 emptyIdx emptyIdx)
  fill r3 (two 7 emptyIdx emptyIdx)
  fill r4 (two 8 emptyIdx emptyIdx)
  commit lr dbg
  let g ← graph
  return is g 1 l1 [di r1, di r3] && is g 2 l2 [di r2, di r4] && is g 3 l3 [di r1, di r4] && is g 4 l4 [di r2, di r3] &&
    is g 5 r1 [di l1, di l3] && is g 6 r2 [di l2, di l4] && is g 7 r3 [di l1, di l4] && is g 8 r4 [di l2, di l3]

example : passes groupBidirectional = true := by decide +kernel

/-! ### A choice of fields, test_bidirectional.rs:1056-1126 -/

/-- `XYNode`, test_bidirectional.rs:1069-1082: `XNode { y }` = 1, `YNode { x1, x2 }` = 2 with the group `x` = 100. -/
def xy : Schema where
  variants := [(1, ⟨[lnk 10 .direct], []⟩), (2, ⟨[lnk 20 .direct [[100]], lnk 21 .direct [[100]]], []⟩)]
  annos := [⟨1, 10, [2]⟩, ⟨2, 100, [1]⟩]
  bidirs := [⟨1, 10, 2, 100⟩]

/-- `test_multilink_1`, test_bidirectional.rs:1084-1107 (`should_panic`). -/
def multilink1 (dbg : Bool) : Test Unit := do
  let y ← insert (two 2 emptyIdx emptyIdx)
  let _ ← insert ⟨1, [di y], []⟩
  let _ ← insert ⟨1, [di y], []⟩
  commit xy dbg

example : panics multilink1 .multiChoice = true := by decide +kernel

/-- `test_multilink_2`, test_bidirectional.rs:1109-1126. -/
def multilink2 (dbg : Bool) : Test Bool := do
  let x1 ← insert ⟨1, [di emptyIdx], []⟩
  let x2 ← insert ⟨1, [di emptyIdx], []⟩
  let y ← insert (two 2 x1 x2)
  commit xy dbg
  let g ← graph
  return is g 1 x1 [di y] && is g 1 x2 [di y] && is g 2 y [di x1, di x2]

example : passes multilink2 = true := by decide +kernel

end Bidirectional
end Conform
end TTGraph
