import Verif.Spec.Valid
import Verif.Spec.Switch
import Verif.Spec.Protocol

/-!
# An abstract machine

The objects of a program as a reader of the documentation knows them: a context is the set of indices that have been used in it, a graph is a
partial map from indices to nodes, a transaction is a collection of pending operations, together with the state of every index in the
protocol of `alloc` and `fill_back`.  `Step` says what an API call may do.  None of the data structures of the implementation (containers,
dispatcher, back-links, tables of link changes, counters) occurs here.
-/

set_option autoImplicit false

namespace TTGraph
namespace Machine
open Spec

/-- The objects of a program. -/
structure State where
  /-- the indices that have been used in a context -/
  used : Nat → Option (NodeIndex → Prop)
  /-- the context of a graph and its nodes -/
  graph : Nat → Option (Nat × View)
  /-- the context of a transaction, its pending operations and the state of every index -/
  trans : Nat → Option (Nat × Pending × (NodeIndex → Slot))

/-- The start of a program. -/
def State.init : State := ⟨fun _ => none, fun _ => none, fun _ => none⟩

/-- Replace one entry of a table. -/
def put {α : Type} (f : Nat → α) (k : Nat) (v : α) : Nat → α := fun j => if j = k then v else f j

/-- The indices `l` are different from each other, from the empty index, and from all indices used before. -/
def Fresh (U : NodeIndex → Prop) (l : List NodeIndex) : Prop := l.Nodup ∧ ∀ i ∈ l, i ≠ emptyIdx ∧ ¬ U i

/-- The indices `l` are now used, too. -/
def use (U : NodeIndex → Prop) (l : List NodeIndex) : NodeIndex → Prop := fun i => U i ∨ i ∈ l

/-- A method of a transaction may be called: its arguments are well typed, `fill_back_untyped` is used on an unfilled index, and nothing is
redirected away from the empty index. -/
def Permitted (S : Schema) (p : Pending) : TOp → Prop
  | .insert n => S.WT n
  | .extend l => ∀ n ∈ l, S.WT n
  | .alloc d => d ∈ S.discs
  | .fillBack _ n => S.WT n
  | .fillBackUntyped i n => S.WT n ∧ p.unfilled i
  | .mutate _ f => f.Typed S
  | .update _ f => f.Typed S
  | .redirectAllLinks old _ => old ≠ emptyIdx
  | .redirectLinks old _ => old ≠ emptyIdx
  | _ => True

/-- A method of a transaction panics: `fill_back` on an index that is not reserved for nodes of this variant, or a closure that panics on a node
of the transaction. -/
def Refused (p : Pending) (s : NodeIndex → Slot) : TOp → Prop
  | .fillBack i n => s i ≠ .reserved n.disc
  | .mutate i f => ∃ n e, p.new i = some n ∧ f n = .error e
  | .update i f => ∃ n e, p.new i = some n ∧ f n = .error e
  | _ => False

/-- What the operations of a transaction make of the view `v`, in the documented order. -/
def Performed (p : Pending) (v v6 : View) : Prop :=
  ∃ v1 v2 v3 v4 v5 xs, Redirected p.redir v v1 ∧ Inserted p.new v1 v2 ∧ Applied p.muts v2 v3 ∧ Applied p.upds v3 v4 ∧
    Redirected p.redirAll v4 v5 ∧ (∀ x, x ∈ xs ↔ p.removed x) ∧ Removed xs v5 v6

/-- A view that the operations pass through: the start, or a state after the first redirection, the insertion, some of the mutations, some of
the updates, or the second redirection. -/
def Stage (p : Pending) (v0 v : View) : Prop :=
  v = v0 ∨ Redirected p.redir v0 v ∨ ∃ v1 v2, Redirected p.redir v0 v1 ∧ Inserted p.new v1 v2 ∧
    ((∃ pre, pre <+: p.muts ∧ Applied pre v2 v) ∨ ∃ v3, Applied p.muts v2 v3 ∧
      ((∃ pre, pre <+: p.upds ∧ Applied pre v3 v) ∨ ∃ v4, Applied p.upds v3 v4 ∧ Redirected p.redirAll v4 v))

/-- The field `m` of `x` is not a `Vec`, or it never holds `y` twice while the operations are performed. -/
def Steady (S : Schema) (p : Pending) (v0 : View) (x : NodeIndex) (m : Mirror) (y : NodeIndex) : Prop :=
  S.kind? m ≠ some .vec ∨ ∀ v, Stage p v0 v → v.Once x m y

/-- No `Vec` field of a `bidirectional!` line holds a node twice while the operations are performed. -/
def SteadyBidir (S : Schema) (p : Pending) (v0 : View) : Prop := ∀ x m y m', Opposite S m m' → Steady S p v0 x m y

/-- What a commit that returns makes of the view `v`: the operations are performed, then only bidirectional link fields change.  Unless one of
them is a `Vec` that holds a node twice in between, no direct field needs two values, no `Vec` needs to be changed, and the opposites of the
links are completed.  Every link that the operations have added is permitted by its annotations (except those of `Vec`s that hold a
node twice in between).  With debug assertions, every allocated index is filled. -/
def Commits (S : Schema) (dbg : Bool) (p : Pending) (v v' : View) : Prop :=
  (dbg = true → ∀ i, ¬ p.unfilled i) ∧ ∃ v6, Performed p v v6 ∧ SameUpToBidir S v6 v' ∧
    (SteadyBidir S p v → ¬ Spec.Conflict S v v6 ∧ NoVecDue S v v6 ∧ Completion S v v6 v') ∧
    ∀ x m y n, AddedLink v v6 x m y → Steady S p v x m y → v' y = some n → Spec.Permitted S m n.disc

/-- What the checks `cs` have accepted when a commit that runs them returns: node checks the nodes that the operations have given or taken a
link, link checks (also those for removed links, see C30) the links that the operations have added.  `Vec`s that hold a node
twice in between aside. -/
def Accepts (S : Schema) (cs : GraphCheck) (p : Pending) (v v' : View) : Prop :=
  ∃ v6, Performed p v v6 ∧ SameUpToBidir S v6 v' ∧
    (∀ name f x m y, cs.nodeChecks.get? name = some f → (AddedLink v v6 x m y ∨ RemovedLink v v6 x m y) → Steady S p v x m y →
      ∃ n, v' x = some n ∧ f x n = .ok) ∧
    ∀ name f x m y, cs.addChecks.get? name = some f ∨ cs.removeChecks.get? name = some f → AddedLink v v6 x m y → Steady S p v x m y →
      ∃ n, v' x = some n ∧ f x y n (v' y) = .ok

/-- A commit that must not panic: the operations make sense, bidirectional `Vec`s hold no node twice in between, and the result can be
completed, without a change to these `Vec`s, and satisfies its annotations. -/
def Sensible (S : Schema) (dbg : Bool) (p : Pending) (v : View) : Prop :=
  (dbg = true → ∀ i, ¬ p.unfilled i) ∧ Valid S v p ∧ SteadyBidir S p v ∧ ∀ v6, Performed p v v6 → ¬ Spec.Conflict S v v6 ∧ ¬ Undecided S v v6 ∧
    NoVecDue S v v6 ∧
    ∀ x m y n, v6.Link x m y → (Steady S p v x m y → ¬ v.Link x m y) → v6 y = some n → Spec.Permitted S m n.disc

/-- The list enumerates the nodes of the view. -/
def Enumerates (order : List NodeIndex) (v : View) : Prop := order.Nodup ∧ ∀ i, i ∈ order ↔ v i ≠ none

/-- What `switch_context` that returns makes of the view `v`: the nodes, in some order, get the indices `l`, in this order.  They keep variant,
data, kinds of links and lengths of `Vec`s.  If all links are internal and answered, and the new indices are not indices of the graph, the
links are renamed along with the nodes. -/
def Switches (S : Schema) (order l : List NodeIndex) (v v' : View) : Prop :=
  Enumerates order v ∧ ∃ ρ : NodeIndex → NodeIndex, l = order.map ρ ∧ (∀ i, v' i ≠ none ↔ i ∈ l) ∧
    (∀ x n, v x = some n → ∃ n', v' (ρ x) = some n' ∧ n'.shape = n.shape) ∧
    (Internal v → Answered S v → (∀ i ∈ l, v i = none) → Isomorphic ρ v v')

/-- A `switch_context` that must not panic. -/
def Movable (S : Schema) (l : List NodeIndex) (v : View) : Prop := Internal v ∧ Answered S v ∧ WellTyped S v ∧ ∀ i ∈ l, v i = none

/-- The view of a list of nodes with indices. -/
def Lists (nodes : List (NodeIndex × Node)) (v : View) : Prop := ∀ i n, v i = some n ↔ (i, n) ∈ nodes

/-- What `deserialize_graph` that returns makes of a list of nodes: their indices are different, and the opposites of the links are completed. -/
def Loads (S : Schema) (nodes : List (NodeIndex × Node)) (v' : View) : Prop :=
  (nodes.map Prod.fst).Nodup ∧ ∃ v, Lists nodes v ∧ ¬ Spec.Conflict S (fun _ => none) v ∧ ¬ VecMissing S (fun _ => none) v ∧
    Completion S (fun _ => none) v v'

/-- A `deserialize_graph` that must not panic. -/
def Loadable (S : Schema) (nodes : List (NodeIndex × Node)) : Prop :=
  (nodes.map Prod.fst).Nodup ∧ ∀ v, Lists nodes v → ¬ Spec.Conflict S (fun _ => none) v ∧ ¬ Undecided S (fun _ => none) v ∧
    ¬ VecMissing S (fun _ => none) v

/-- Some check is registered. -/
def Registers (cs : GraphCheck) : Prop := cs ≠ GraphCheck.new

/-- An object that the call uses does not exist (such a call cannot be written). -/
def Missing (a : State) : Call → Prop
  | .newGraph _ c => a.used c = none
  | .newTrans _ c => a.used c = none
  | .op k _ => a.trans k = none
  | .merge k g => a.trans k = none ∨ a.graph g = none
  | .commit g k => a.trans k = none ∨ a.graph g = none
  | .commitChecked g k _ => a.trans k = none ∨ a.graph g = none
  | .switchContext g c => a.graph g = none ∨ a.used c = none
  | _ => False

/-- What a call may do. -/
inductive Step (S : Schema) (dbg : Bool) (a : State) : Call → State → Prop
  | missing {call : Call} : Missing a call → Step S dbg a call a
  | newContext {c u : Nat} : a.used c = none → Step S dbg a (.newContext c u) { a with used := put a.used c (some fun _ => False) }
  | defaultContext {c : Nat} : a.used c = none → Step S dbg a (.defaultContext c) { a with used := put a.used c (some fun _ => False) }
  | newGraph {g c : Nat} : a.used c ≠ none → a.graph g = none →
      Step S dbg a (.newGraph g c) { a with graph := put a.graph g (some (c, fun _ => none)) }
  | newTrans {k c : Nat} : a.used c ≠ none → a.trans k = none →
      Step S dbg a (.newTrans k c)
        { a with trans := put a.trans k (some (c, ⟨fun _ => none, fun _ => False, fun _ => False, [], [], [], []⟩, fun _ => .unknown)) }
  | op {k c : Nat} {o : TOp} {U : NodeIndex → Prop} {p p' : Pending} {s : NodeIndex → Slot} {l : List NodeIndex} :
      a.trans k = some (c, p, s) → a.used c = some U → Permitted S p o → ¬ Refused p s o → Fresh U l → Effect o l p p' →
      Step S dbg a (.op k o) { a with
        used := put a.used c (some (use U l))
        trans := put a.trans k (some (c, p', fun i => Event.slot i (s i) (.op o l))) }
  | opPanics {k c : Nat} {o : TOp} {p : Pending} {s : NodeIndex → Slot} : a.trans k = some (c, p, s) → Permitted S p o → Refused p s o →
      Step S dbg a (.op k o) { a with trans := put a.trans k none }
  | merge {k g c : Nat} {p : Pending} {s : NodeIndex → Slot} {v : View} : a.trans k = some (c, p, s) → a.graph g = some (c, v) →
      (∀ i, v i = none ∨ p.new i = none) →
      Step S dbg a (.merge k g) { a with
        trans := put a.trans k (some (c, { p with new := union v p.new }, fun i => if (v i).isSome then .filled else s i))
        graph := put a.graph g none }
  | commit {g k c : Nat} {p : Pending} {s : NodeIndex → Slot} {v v' : View} : a.trans k = some (c, p, s) → a.graph g = some (c, v) →
      Commits S dbg p v v' →
      Step S dbg a (.commit g k) { a with trans := put a.trans k none, graph := put a.graph g (some (c, v')) }
  | commitPanics {g k c : Nat} {p : Pending} {s : NodeIndex → Slot} {v : View} : a.trans k = some (c, p, s) → a.graph g = some (c, v) →
      ¬ Sensible S dbg p v →
      Step S dbg a (.commit g k) { a with trans := put a.trans k none, graph := put a.graph g none }
  | commitChecked {g k c : Nat} {cs : GraphCheck} {p : Pending} {s : NodeIndex → Slot} {v v' : View} : a.trans k = some (c, p, s) →
      a.graph g = some (c, v) → Commits S dbg p v v' → Accepts S cs p v v' →
      Step S dbg a (.commitChecked g k cs) { a with trans := put a.trans k none, graph := put a.graph g (some (c, v')) }
  | commitCheckedPanics {g k c : Nat} {cs : GraphCheck} {p : Pending} {s : NodeIndex → Slot} {v : View} : a.trans k = some (c, p, s) →
      a.graph g = some (c, v) → (Registers cs ∨ ¬ Sensible S dbg p v) →
      Step S dbg a (.commitChecked g k cs) { a with trans := put a.trans k none, graph := put a.graph g none }
  | dropTrans {k : Nat} : Step S dbg a (.dropTrans k) { a with trans := put a.trans k none }
  | dropGraph {g : Nat} : Step S dbg a (.dropGraph g) { a with graph := put a.graph g none }
  | switchContext {g c c0 : Nat} {U : NodeIndex → Prop} {v v' : View} {order l : List NodeIndex} : a.graph g = some (c0, v) → a.used c = some U →
      Fresh U l → Switches S order l v v' →
      Step S dbg a (.switchContext g c) { a with used := put a.used c (some (use U l)), graph := put a.graph g (some (c, v')) }
  | switchPanics {g c c0 : Nat} {U : NodeIndex → Prop} {v : View} {l : List NodeIndex} : a.graph g = some (c0, v) → a.used c = some U →
      Fresh U l → ¬ Movable S l v →
      Step S dbg a (.switchContext g c) { a with used := put a.used c (some (use U l)), graph := put a.graph g none }
  | load {g c : Nat} {input : GraphSerializer} {U : NodeIndex → Prop} {v' : View} : a.graph g = none → a.used c = none → Loads S input.nodes v' →
      (∀ i, v' i ≠ none → U i) →
      Step S dbg a (.deserialize g c input) { a with used := put a.used c (some U), graph := put a.graph g (some (c, v')) }
  | loadPanics {g c : Nat} {input : GraphSerializer} : ¬ Loadable S input.nodes → Step S dbg a (.deserialize g c input) a

/-- The states that the machine can reach. -/
inductive Reaches (S : Schema) (dbg : Bool) : State → Prop
  | init : Reaches S dbg State.init
  | step {a a' : State} {call : Call} : Reaches S dbg a → Step S dbg a call a' → Reaches S dbg a'

/-- The transaction holds the index: as a new node or as an unfilled index. -/
def Has (p : Pending) (i : NodeIndex) : Prop := p.new i ≠ none ∨ p.unfilled i

/-- The state of an index fits the pending operations. -/
def Fits (p : Pending) (i : NodeIndex) : Slot → Prop
  | .unknown => p.new i = none ∧ ¬ p.unfilled i
  | .untyped => p.new i = none ∧ p.unfilled i
  | .reserved _ => p.new i = none ∧ p.unfilled i
  | .filled => p.new i ≠ none ∧ ¬ p.unfilled i

/-- An object (a graph or a transaction) of the context `c` holds the index `i`. -/
def Owns (a : State) : Nat ⊕ Nat → Nat → NodeIndex → Prop
  | .inl g, c, i => ∃ v, a.graph g = some (c, v) ∧ v i ≠ none
  | .inr k, c, i => ∃ p s, a.trans k = some (c, p, s) ∧ Has p i

end Machine

open Spec in
/-- What the objects of a program mean: its contexts have used the indices up to their counters, `get` shows the nodes of its graphs, its
transactions have pending operations, and the calls made so far give the state of every index. -/
def World.meaning (w : World) (tr : Nat → List Event) : Machine.State where
  used c := (w.ctx c).map fun x i => i ≠ emptyIdx ∧ (i : Nat) ≤ x.cnt
  graph h := (w.graph h).map fun e => (e.1, e.2.get?)
  trans k := (w.trans k).map fun e => (e.1, e.2.pending, slotAfter (tr k))

end TTGraph
