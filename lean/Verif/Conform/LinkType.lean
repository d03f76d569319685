import Verif.Conform.Script

/-!
# /repo/tests/test_link_type.rs
-/

set_option autoImplicit false

namespace TTGraph
namespace Conform
namespace LinkTypes
open Demo

/-- `Node`, test_link_type.rs:12-52: A = 1 (to_a, to_b, x = 10, 11, 12), B = 2 (20, 21, 22), C = 3 (x, y = 30, 31); groups AB = 91, BC = 92. -/
def node : Schema where
  variants := [(1, ⟨[lnk 10 .direct, lnk 11 .set, lnk 12 .direct], []⟩), (2, ⟨[lnk 20 .vec, lnk 21 .set, lnk 22 .direct], []⟩),
    (3, ⟨[lnk 30 .direct, lnk 31 .direct], []⟩)]
  groups := [(91, [1, 2]), (92, [2, 3])]
  annos := [⟨1, 10, [1]⟩, ⟨1, 11, [2]⟩, ⟨1, 12, [1, 2]⟩, ⟨2, 20, [1]⟩, ⟨2, 21, [2]⟩, ⟨2, 22, [92]⟩, ⟨3, 30, [91]⟩, ⟨3, 31, [91, 3]⟩]

def nodeA (toA : NodeIndex) (toB : List NodeIndex) (x : NodeIndex) : Node := ⟨1, [di toA, st toB, di x], []⟩
def nodeB (toA toB : List NodeIndex) (x : NodeIndex) : Node := ⟨2, [ve toA, st toB, di x], []⟩
def nodeC (x y : NodeIndex) : Node := ⟨3, [di x, di y], []⟩

/-- `test_link_type`, test_link_type.rs:54-82. -/
def test1 (dbg : Bool) : Test Bool := do
  let a ← alloc 1
  let b ← alloc 2
  let c ← alloc 3
  fill a (nodeA a [b] emptyIdx)
  fill b (nodeB [a] [b] c)
  fill c (nodeC b a)
  commit node dbg
  return true

example : passes test1 = true := by decide +kernel

/-- The tests with two nodes, test_link_type.rs:84-200. -/
def two (dbg : Bool) (na nb : NodeIndex → NodeIndex → Node) : Test (NodeIndex × NodeIndex) := do
  let a ← alloc 1
  let b ← alloc 2
  fill a (na a b)
  fill b (nb a b)
  commit node dbg
  return (a, b)

/-- `test_link_type2`, test_link_type.rs:84-110 (`should_panic`). -/
example : panics (two · (fun _ b => nodeA b [b] emptyIdx) (fun a b => nodeB [a] [b] b)) .linkType = true := by decide +kernel
/-- `test_link_type3`, test_link_type.rs:112-138 (`should_panic`). -/
example : panics (two · (fun a _ => nodeA a [a] emptyIdx) (fun a b => nodeB [a] [b] b)) .linkType = true := by decide +kernel
/-- `test_link_type4`, test_link_type.rs:140-166 (`should_panic`). -/
example : panics (two · (fun a b => nodeA a [b] emptyIdx) (fun a b => nodeB [a, b] [b] b)) .linkType = true := by decide +kernel
/-- `test_link_type5`, test_link_type.rs:168-194 (`should_panic`). -/
example : panics (two · (fun a b => nodeA a [b] emptyIdx) (fun a b => nodeB [a] [a, b] b)) .linkType = true := by decide +kernel

/-- `test_link_type6`, test_link_type.rs:196-228 (`should_panic`): the first commit returns, the second panics. -/
def test6a (dbg : Bool) : Test (NodeIndex × NodeIndex) := two dbg (fun a b => nodeA a [b] emptyIdx) (fun a b => nodeB [a] [b] b)

def test6 (dbg : Bool) : Test Unit := do
  let (a, _) ← test6a dbg
  mutNode 1 a (put 1 (add a))
  commit node dbg

example : passes (fun dbg => do let _ ← test6a dbg; return true) = true := by decide +kernel
example : panics test6 .linkType = true := by decide +kernel

/-- `test_link_type7`, test_link_type.rs:230-259 (`should_panic`). -/
def test7 (dbg : Bool) : Test Unit := do
  let a ← alloc 1
  let b ← alloc 2
  let c ← alloc 3
  fill a (nodeA a [b] emptyIdx)
  fill b (nodeB [a] [b] c)
  fill c (nodeC c c)
  commit node dbg

example : panics test7 .linkType = true := by decide +kernel

/-- The structs of test_link_type.rs:261-323. -/
def side (a b : Ident) : StructDecl := ⟨[lnk 10 .direct [[a]], lnk 11 .direct [[b]]], []⟩

/-- `LR`, test_link_type.rs:325-351; the names are those of `Bidirectional.lean`. -/
def lr : Schema where
  variants := [(1, side 101 102), (2, side 101 102), (3, side 101 102), (4, side 101 102),
    (5, side 103 104), (6, side 103 104), (7, side 103 104), (8, side 103 104)]
  groups := [(91, [1, 2, 3, 4]), (92, [5, 6, 7, 8]), (93, [1, 2]), (94, [3, 4]), (95, [5, 6]), (96, [7, 8])]
  annos := [⟨91, 101, [95]⟩, ⟨91, 102, [96]⟩, ⟨92, 103, [93]⟩, ⟨92, 104, [94]⟩]

def pair (d : Ident) (a b : NodeIndex) : Node := ⟨d, [di a, di b], []⟩

/-- The three tests differ in `l1.g2` and `r4.g1`, test_link_type.rs:353-441. -/
def groupLink (l1g2 r4g1 : NodeIndex → NodeIndex → NodeIndex → NodeIndex → NodeIndex) (dbg : Bool) : Test Bool := do
  let l1 ← alloc 1
  let l2 ← alloc 2
  let l3 ← alloc 3
  let l4 ← alloc 4
  let r1 ← alloc 5
  let r2 ← alloc 6
  let r3 ← alloc 7
  let r4 ← alloc 8
  fill l1 (pair 1 r1 (l1g2 r1 r2 r3 r4))
  fill l2 (pair 2 r2 r3)
  fill l3 (pair 3 r1 r4)
  fill l4 (pair 4 r2 r4)
  fill r1 (pair 5 l1 l3)
  fill r2 (pair 6 l2 l3)
  fill r3 (pair 7 l1 l4)
  fill r4 (pair 8 (r4g1 l1 l2 l3 l4) l4)
  commit lr dbg
  return true

/-- `test_group_link_1`, test_link_type.rs:353-380. -/
example : passes (groupLink (fun _ _ r3 _ => r3) (fun _ l2 _ _ => l2)) = true := by decide +kernel
/-- `test_group_link_2`, test_link_type.rs:382-410 (`should_panic`). -/
example : panics (groupLink (fun r1 _ _ _ => r1) (fun _ l2 _ _ => l2)) .linkType = true := by decide +kernel
/-- `test_group_link_3`, test_link_type.rs:412-441 (`should_panic`). -/
example : panics (groupLink (fun _ _ r3 _ => r3) (fun _ _ _ l4 => l4)) .linkType = true := by decide +kernel

end LinkTypes
end Conform
end TTGraph
