import Verif.Demo.Decls
import Verif.Model.Macros

/-!
# Running the repository's own tests on the model

The files of this directory transcribe the tests of /repo/tests (and of the documentation) and check by evaluation that the model gives
the results that the tests assert.  They are not proofs of any property: they are evidence that the model behaves like the code on the runs
whose outcome the authors of the code have written down.

A test has one context, one graph and one transaction at a time.  Nodes are written as in the test, with the fields in declaration order.
Sets are `Demo.listSet`, and `==` of sets is compared by membership.
-/

set_option autoImplicit false

namespace TTGraph
namespace Conform
open Demo

/-- What a test has at one moment. -/
structure St where
  cnt : Nat
  graph : Graph
  trans : Trans

/-- A test. -/
abbrev Test := StateT St (Except Panic)

/-- A call on the transaction. -/
def op (o : TOp) : Test (List NodeIndex) := fun s => do
  let (t, cnt, l) ← o.run s.trans s.cnt
  return (l, { s with trans := t, cnt := cnt })

/-- The first index that a call handed out. -/
def one (o : TOp) : Test NodeIndex := do
  let l ← op o
  return l.headD emptyIdx

/-- `trans.insert(n)`. -/
def insert (n : Node) : Test NodeIndex := one (.insert n)
/-- `alloc_node!(trans, d)`. -/
def alloc (d : Ident) : Test NodeIndex := one (.alloc d)
/-- `trans.fill_back(i, n)`. -/
def fill (i : NodeIndex) (n : Node) : Test Unit := do let _ ← op (.fillBack i n)
/-- `trans.remove(i)`. -/
def remove (i : NodeIndex) : Test Unit := do let _ ← op (.remove i)
/-- `trans.redirect_links(a, b)`. -/
def redirect (a b : NodeIndex) : Test Unit := do let _ ← op (.redirectLinks a b)
/-- `trans.redirect_all_links(a, b)`. -/
def redirectAll (a b : NodeIndex) : Test Unit := do let _ ← op (.redirectAllLinks a b)
/-- `mut_node!(trans, d, i, f)`. -/
def mutNode (d : Ident) (i : NodeIndex) (f : Payload → Payload) : Test Unit := fun s => do
  let t ← Macros.mutNode s.trans d i (fun p => .ok (f p))
  return ((), { s with trans := t })
/-- `update_node!(trans, d, i, f)`. -/
def updateNode (d : Ident) (i : NodeIndex) (f : Payload → Payload) : Test Unit := fun s => do
  let t ← Macros.updateNode s.trans d i (fun p => .ok (f p))
  return ((), { s with trans := t })
/-- `graph.commit(trans)`, followed by `trans = Transaction::new(&ctx)`. -/
def commit (S : Schema) (dbg : Bool) : Test Unit := fun s => do
  let g ← s.graph.commit S dbg s.trans
  return ((), { s with graph := g, trans := Trans.new s.graph.ctxId })
/-- The graph. -/
def graph : Test Graph := fun s => .ok (s.graph, s)

/-- `let ctx = Context::new(); let graph = Graph::new(&ctx); let trans = Transaction::new(&ctx);` and then the test. -/
def Test.run' {α : Type} (t : Test α) : Except Panic α := (t ⟨0, Graph.new 1, Trans.new 1⟩).map Prod.fst

/-- Set-typed link field. -/
def st (l : List NodeIndex) : LinkVal := .set (setOf l)
/-- Direct link field. -/
def di (i : NodeIndex) : LinkVal := .direct i
/-- `Vec` link field. -/
def ve (l : List NodeIndex) : LinkVal := .vec l
/-- `usize` data field. -/
def us (n : Nat) : DataVal := ⟨1, n⟩

/-- `==` on link fields: sets by membership. -/
def linkEq : LinkVal → LinkVal → Bool
  | .direct a, .direct b => decide (a = b)
  | .set s, .set s' => s.elems.all (fun x => decide (x ∈ s'.elems)) && s'.elems.all (fun x => decide (x ∈ s.elems))
  | .vec l, .vec l' => decide (l = l')
  | _, _ => false

/-- All assertions of a test about one node: `get_node!(graph, d, i)` has the given fields. -/
def is (g : Graph) (d : Ident) (i : NodeIndex) (links : List LinkVal) (data : List DataVal := []) : Bool :=
  match Macros.getNode g d i with
  | some p => decide (p.links.length = links.length) && (p.links.zip links).all (fun p => linkEq p.1 p.2) && decide (p.data = data)
  | none => false

/-- `get_node!(graph, d, i).is_none()`. -/
def none? (g : Graph) (d : Ident) (i : NodeIndex) : Bool := (Macros.getNode g d i).isNone

/-- `graph.check_backlinks()` does not panic. -/
def backlinks (S : Schema) (g : Graph) : Bool := (g.checkBacklinks S true).toOption.isSome && (g.checkBacklinks S false).toOption.isSome

/-- Replace one field of a payload. -/
def put (k : Nat) (f : LinkVal → LinkVal) (p : Payload) : Payload := { p with links := p.links.modify k f }

/-- `set.remove(&i)`. -/
def del (i : NodeIndex) : LinkVal → LinkVal
  | .set s => .set (SetImpl.del i s)
  | v => v

/-- `set.insert(i)`. -/
def add (i : NodeIndex) : LinkVal → LinkVal
  | .set s => .set (SetImpl.ins i s)
  | v => v

/-- All assertions of a test hold, with and without `debug_assertions`. -/
def passes (t : Bool → Test Bool) : Bool := [true, false].all fun dbg =>
  match (t dbg).run' with
  | .ok b => b
  | .error _ => false

/-- A test panics, with and without `debug_assertions`. -/
def panics {α : Type} (t : Bool → Test α) (p : Panic) : Bool := [true, false].all fun dbg => decide (panicked (t dbg).run' = some p)

end Conform
end TTGraph
