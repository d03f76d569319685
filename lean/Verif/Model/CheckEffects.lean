import Verif.Model.Effects

/-!
# Check functions with side effects

The functions of a `GraphCheck` are `Fn(..) -> CheckResult + 'static` (src/typed_graph/check.rs:6-8): through shared cells they may read and
change the state of the rest of the program, for example to count or to collect messages.  `Model/Check.lean` has them as functions of their
arguments.  Here they also get the state `σ` and leave a new one; the functions of the crate that call them are modelled again.
-/

set_option autoImplicit false

namespace TTGraph

/-- `NodeCheckFunc`, src/typed_graph/check.rs:6, with side effects. -/
abbrev ENodeCheck (σ : Type) := NodeIndex → Node → σ → CheckResult × σ

/-- `LinkCheckFunc`, src/typed_graph/check.rs:7-8, with side effects. -/
abbrev ELinkCheck (σ : Type) := NodeIndex → NodeIndex → Node → Option Node → σ → CheckResult × σ

/-- `GraphCheck`, src/typed_graph/check.rs:14-18. -/
structure EGraphCheck (σ : Type) where
  nodeChecks : Sorted (ENodeCheck σ)
  addChecks : Sorted (ELinkCheck σ)
  removeChecks : Sorted (ELinkCheck σ)

namespace Graph
variable {σ : Type}

/-- The inner loops of `check_change`, src/typed_graph.rs:728-733, 736-741, 744-749: `true` if some element fails; stops at the first
failure or panic. -/
def anyFailsE {α : Type} (ok : α → σ → Except Panic Bool × σ) : List α → σ → Except Panic Bool × σ
  | [], s => (.ok false, s)
  | a :: as, s =>
    match ok a s with
    | (.error e, s') => (.error e, s')
    | (.ok false, s') => (.ok true, s')
    | (.ok true, s') => anyFailsE ok as s'

/-- One of the outer loops of `check_change`: the names of the failed checks are pushed on `failed`, src/typed_graph.rs:727-750. -/
def runChecksE {φ α : Type} (run : φ → α → σ → Except Panic Bool × σ) (items : List α) :
    List Ident → List (Ident × φ) → σ → Except Panic (List Ident) × σ
  | failed, [], s => (.ok failed, s)
  | failed, c :: l, s =>
    match anyFailsE (run c.2) items s with
    | (.error e, s') => (.error e, s')
    | (.ok true, s') => runChecksE run items (failed ++ [c.1]) l s'
    | (.ok false, s') => runChecksE run items failed l s'

/-- `check_func(*x, self.get(*x).unwrap())`, src/typed_graph.rs:729. -/
def runNodeCheckE (g : Graph) (f : ENodeCheck σ) (x : NodeIndex) (s : σ) : Except Panic Bool × σ :=
  match g.get? x with
  | none => (.error .nodeMissing, s)
  | some n => ((f x n s).1.run, (f x n s).2)

/-- `check_func(*x, *y, self.get(*x).unwrap(), self.get(*y))`, src/typed_graph.rs:737, 745. -/
def runLinkCheckE (g : Graph) (f : ELinkCheck σ) (c : Change) (s : σ) : Except Panic Bool × σ :=
  match g.get? c.1 with
  | none => (.error .nodeMissing, s)
  | some n => ((f c.1 c.2.1 n (g.get? c.2.1) s).1.run, (f c.1 c.2.1 n (g.get? c.2.1) s).2)

/-- `check_change`, src/typed_graph.rs:721-752.  (Both loops over links run over `lcr.adds`.) -/
def checkChangeE (g : Graph) (r : Lcr) (checks : EGraphCheck σ) (s : σ) : Except Panic (List Ident) × σ :=
  match runChecksE (runNodeCheckE g) (changedNodes r).elems [] checks.nodeChecks.entries s with
  | (.error e, s1) => (.error e, s1)
  | (.ok failed1, s1) =>
    match runChecksE (runLinkCheckE g) r.adds.elems failed1 checks.addChecks.entries s1 with
    | (.error e, s2) => (.error e, s2)
    | (.ok failed2, s2) => runChecksE (runLinkCheckE g) r.adds.elems failed2 checks.removeChecks.entries s2

/-- `commit_checked` after `do_commit`, src/typed_graph.rs:434-438. -/
def finishAsking (S : Schema) (checks : EGraphCheck σ) : Except Panic (Graph × Lcr) → σ → Except Panic Graph × σ
  | .error e, s => (.error e, s)
  | .ok (g', r), s =>
    match checkLinkType S g' r with
    | .error e => (.error e, s)
    | .ok _ =>
      match checkChangeE g' r checks s with
      | (.error e, s') => (.error e, s')
      | (.ok [], s') => (.ok g', s')
      | (.ok (name :: names), s') => (.error (.checkFailed (name :: names)), s')

/-- `commit_checked`, src/typed_graph.rs:432-439, with closures that are functions of the node. -/
def commitAsking [SetImpl] (S : Schema) (dbg : Bool) (g : Graph) (t : Trans) (checks : EGraphCheck σ) (s : σ) : Except Panic Graph × σ :=
  finishAsking S checks (doCommit S dbg g t) s

/-- `commit_checked`, src/typed_graph.rs:432-439, with closures that have side effects, too. -/
def commitAskingE [SetImpl] (S : Schema) (dbg : Bool) (g : Graph) (t : Trans) (p : Pend σ) (checks : EGraphCheck σ) (s : σ) :
    Except Panic Graph × σ :=
  finishAsking S checks (doCommitE S dbg g t p s).1 (doCommitE S dbg g t p s).2

end Graph
end TTGraph
