import Verif.Model.Graph
import Verif.Model.Sorted

/-!
# Checks: `GraphCheck`, `commit_checked`, `check_integrity`, `check_backlinks`

A check function returns `Ok(())` or `Err(())`, or it panics; what it panics with is not modelled.
-/

set_option autoImplicit false

namespace TTGraph

/-- `CheckResult`, src/typed_graph/check.rs:5; a call of a check function may also panic. -/
inductive CheckResult
  | ok
  | err
  | panics
  deriving DecidableEq, Repr

/-- A call of a check function and `is_err()` on its result, src/typed_graph.rs:729, 737, 745: `true` for `Ok(())`. -/
def CheckResult.run : CheckResult → Except Panic Bool
  | .ok => .ok true
  | .err => .ok false
  | .panics => .error .user

/-- `NodeCheckFunc`, src/typed_graph/check.rs:6. -/
abbrev NodeCheck := NodeIndex → Node → CheckResult

/-- `LinkCheckFunc`, src/typed_graph/check.rs:7-8. -/
abbrev LinkCheck := NodeIndex → NodeIndex → Node → Option Node → CheckResult

/-- `GraphCheck`, src/typed_graph/check.rs:14-18. -/
structure GraphCheck where
  nodeChecks : Sorted NodeCheck
  addChecks : Sorted LinkCheck
  removeChecks : Sorted LinkCheck

namespace GraphCheck

/-- `GraphCheck::new`, src/typed_graph/check.rs:21-27. -/
def new : GraphCheck := ⟨Sorted.empty, Sorted.empty, Sorted.empty⟩

/-- `insert_node_check`, src/typed_graph/check.rs:29-33. -/
def insertNodeCheck (c : GraphCheck) (name : Ident) (f : NodeCheck) : GraphCheck := { c with nodeChecks := c.nodeChecks.insert name f }

/-- `remove_node_check`, src/typed_graph/check.rs:35-37. -/
def removeNodeCheck (c : GraphCheck) (name : Ident) : GraphCheck := { c with nodeChecks := c.nodeChecks.remove name }

/-- `insert_link_add_check`, src/typed_graph/check.rs:39-44. -/
def insertAddCheck (c : GraphCheck) (name : Ident) (f : LinkCheck) : GraphCheck := { c with addChecks := c.addChecks.insert name f }

/-- `remove_link_add_check`, src/typed_graph/check.rs:46-48. -/
def removeAddCheck (c : GraphCheck) (name : Ident) : GraphCheck := { c with addChecks := c.addChecks.remove name }

/-- `insert_link_remove_check`, src/typed_graph/check.rs:50-55. -/
def insertRemoveCheck (c : GraphCheck) (name : Ident) (f : LinkCheck) : GraphCheck :=
  { c with removeChecks := c.removeChecks.insert name f }

/-- `remove_link_remove_check`, src/typed_graph/check.rs:57-59. -/
def removeRemoveCheck (c : GraphCheck) (name : Ident) : GraphCheck := { c with removeChecks := c.removeChecks.remove name }

end GraphCheck

namespace Graph

/-- The inner loops of `check_change`, src/typed_graph.rs:728-733, 736-741, 744-749: `true` if some element fails; stops at the first
failure or panic. -/
def anyFails {α : Type} (ok : α → Except Panic Bool) : List α → Except Panic Bool
  | [] => .ok false
  | a :: as =>
    match ok a with
    | .error e => .error e
    | .ok false => .ok true
    | .ok true => anyFails ok as

/-- One of the outer loops of `check_change`: the names of the failed checks are pushed on `failed`, src/typed_graph.rs:727-750. -/
def runChecks {φ α : Type} (run : φ → α → Except Panic Bool) (items : List α) (failed : List Ident) (checks : Sorted φ) :
    Except Panic (List Ident) :=
  foldE (fun failed (c : Ident × φ) =>
    match anyFails (run c.2) items with
    | .error e => .error e
    | .ok true => .ok (failed ++ [c.1])
    | .ok false => .ok failed) failed checks.entries

/-- `changed_nodes`, src/typed_graph.rs:723-726. -/
def changedNodes (r : Lcr) : OrderSet NodeIndex :=
  (r.adds.elems ++ r.removes.elems).foldl (fun s c => s.insert c.1) OrderSet.empty

/-- `check_func(*x, self.get(*x).unwrap())`, src/typed_graph.rs:729. -/
def runNodeCheck (g : Graph) (f : NodeCheck) (x : NodeIndex) : Except Panic Bool :=
  match g.get? x with
  | none => .error .nodeMissing
  | some n => (f x n).run

/-- `check_func(*x, *y, self.get(*x).unwrap(), self.get(*y))`, src/typed_graph.rs:737, 745. -/
def runLinkCheck (g : Graph) (f : LinkCheck) (c : Change) : Except Panic Bool :=
  match g.get? c.1 with
  | none => .error .nodeMissing
  | some n => (f c.1 c.2.1 n (g.get? c.2.1)).run

/-- `check_change`, src/typed_graph.rs:721-752.  (Both loops over links run over `lcr.adds`.) -/
def checkChange (g : Graph) (r : Lcr) (checks : GraphCheck) : Except Panic (List Ident) :=
  match runChecks (runNodeCheck g) (changedNodes r).elems [] checks.nodeChecks with
  | .error e => .error e
  | .ok failed1 =>
    match runChecks (runLinkCheck g) r.adds.elems failed1 checks.addChecks with
    | .error e => .error e
    | .ok failed2 => runChecks (runLinkCheck g) r.adds.elems failed2 checks.removeChecks

/-- `commit_checked`, src/typed_graph.rs:432-439. -/
def commitChecked [SetImpl] (S : Schema) (dbg : Bool) (g : Graph) (t : Trans) (checks : GraphCheck) : Except Panic Graph :=
  match doCommit S dbg g t with
  | .error e => .error e
  | .ok (g', r) =>
    match checkLinkType S g' r with
    | .error e => .error e
    | .ok _ =>
      match checkChange g' r checks with
      | .error e => .error e
      | .ok [] => .ok g'
      | .ok (name :: names) => .error (.checkFailed (name :: names))

/-- `check_integrity`, src/typed_graph.rs:480-486. -/
def checkIntegrity (S : Schema) (dbg : Bool) (g : Graph) : Except Panic Unit :=
  foldE (fun _ (e : NodeIndex × Node) =>
    foldE (fun _ (p : NodeIndex × Source) =>
      if dbg && (g.get? p.1).isNone then .error .integrity else .ok ()) () e.2.iterSources) () (g.nodes.entries S)

/-- The body of the inner loop of `check_backlinks`, src/typed_graph.rs:498-502. -/
def backStep (dbg : Bool) (g : Graph) (x : NodeIndex) (b : Back) (p : NodeIndex × Source) : Except Panic Back :=
  match g.back.get? p.1 with
  | none => .error .backlinkCheck
  | some links => if dbg && decide ((x, p.2) ∉ links) then .error .backlinkCheck else .ok (b.link p.1 (x, p.2))

/-- The first loop of `check_backlinks`, src/typed_graph.rs:496-503. -/
def rebuildBack (S : Schema) (dbg : Bool) (g : Graph) : Except Panic Back :=
  foldE (fun (b : Back) (e : NodeIndex × Node) => foldE (backStep dbg g e.1) (b.touch e.1) e.2.iterSources) OrderMap.empty (g.nodes.entries S)

/-- `OrderSet::set_eq`: equal as sets. -/
def setEq (a b : OrderSet (NodeIndex × Source)) : Bool := a.elems.all (fun e => decide (e ∈ b)) && b.elems.all (fun e => decide (e ∈ a))

/-- `check_backlinks`, src/typed_graph.rs:494-510. -/
def checkBacklinks (S : Schema) (dbg : Bool) (g : Graph) : Except Panic Unit :=
  match rebuildBack S dbg g with
  | .error e => .error e
  | .ok b =>
    foldE (fun _ (kv : NodeIndex × OrderSet (NodeIndex × Source)) =>
      match g.back.get? kv.1 with
      | none => .error .backlinkCheck
      | some v2 => if setEq v2 kv.2 then .ok () else .error .backlinkCheck) () b.entries

end Graph
end TTGraph
