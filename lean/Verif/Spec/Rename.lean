import Verif.Spec.Pending
import Verif.Spec.Switch
import Mathlib.Logic.Equiv.Defs

/-!
# Two executions that differ only in the values of indices

`σ` is a one-to-one correspondence of indices that keeps `NodeIndex::empty()`.  `Alike σ` relates what one execution has with what the
other one has.
-/

set_option autoImplicit false

namespace TTGraph
namespace Spec

/-- The graph `w` is the graph `v` with every index `x` replaced by `σ x`: as the index of a node and in the links. -/
def Alike (σ : Equiv.Perm NodeIndex) (v w : View) : Prop := View.Renamed σ v (fun x => w (σ x))

/-- The closures do the same to nodes whose links correspond. -/
def AlikeClosure (σ : Equiv.Perm NodeIndex) (f f2 : Closure) : Prop :=
  ∀ n n2, Node.Renamed σ n n2 → (∃ e, f n = .error e ∧ f2 n2 = .error e) ∨ ∃ m m2, f n = .ok m ∧ f2 n2 = .ok m2 ∧ Node.Renamed σ m m2

/-- A closure for a node and the same closure for the corresponding node. -/
def AlikeTask (σ : Equiv.Perm NodeIndex) (p q : NodeIndex × Closure) : Prop := q.1 = σ p.1 ∧ AlikeClosure σ p.2 q.2

/-- The pending operations correspond. -/
structure AlikePending (σ : Equiv.Perm NodeIndex) (p q : Pending) : Prop where
  new : Alike σ p.new q.new
  unfilled : ∀ x, q.unfilled (σ x) ↔ p.unfilled x
  removed : ∀ x, q.removed (σ x) ↔ p.removed x
  muts : List.Forall₂ (AlikeTask σ) p.muts q.muts
  upds : List.Forall₂ (AlikeTask σ) p.upds q.upds
  redirAll : q.redirAll = p.redirAll.map (fun e => (σ e.1, σ e.2))
  redir : q.redir = p.redir.map (fun e => (σ e.1, σ e.2))

/-- The same method with corresponding arguments. -/
def AlikeOp (σ : Equiv.Perm NodeIndex) : TOp → TOp → Prop
  | .insert n, .insert n2 => Node.Renamed σ n n2
  | .extend ns, .extend ns2 => List.Forall₂ (Node.Renamed σ) ns ns2
  | .alloc d, .alloc d2 => d2 = d
  | .allocUntyped, .allocUntyped => True
  | .fillBack i n, .fillBack i2 n2 => i2 = σ i ∧ Node.Renamed σ n n2
  | .fillBackUntyped i n, .fillBackUntyped i2 n2 => i2 = σ i ∧ Node.Renamed σ n n2
  | .remove i, .remove i2 => i2 = σ i
  | .mutate i f, .mutate i2 f2 => i2 = σ i ∧ AlikeClosure σ f f2
  | .update i f, .update i2 f2 => i2 = σ i ∧ AlikeClosure σ f f2
  | .redirectAllLinks o n, .redirectAllLinks o2 n2 => o2 = σ o ∧ n2 = σ n
  | .redirectLinks o n, .redirectLinks o2 n2 => o2 = σ o ∧ n2 = σ n
  | _, _ => False

/-! ### Two executions side by side -/

/-- The call `o` on the transaction `k` of the context `c` returns the indices `l`. -/
def Hands (w : World) (k : Nat) (o : TOp) (c : Nat) (l : List NodeIndex) : Prop :=
  ∃ t x t' cnt, w.trans k = some (c, t) ∧ w.ctx c = some x ∧ o.run t x.cnt = .ok (t', cnt, l)

/-- When `switch_context` moves the graph `g` to the context `c`, the node `x` gets the index `y`: the indices are given out in the order of
iteration. -/
def Moves (S : Schema) (w : World) (g c : Nat) (x y : NodeIndex) : Prop :=
  ∃ (c0 : Nat) (gr : Graph) (k : Ctx) (p : Nat), w.graph g = some (c0, gr) ∧ w.ctx c = some k ∧ ((gr.iter S).map Prod.fst)[p]? = some x ∧ y = k.cnt + 1 + p

/-- The graph `g` and the context `c` exist, all links of the graph lead to its nodes, and no old index of a link is equal to a new one (see
C32). -/
def MovesWell (S : Schema) (w : World) (g c : Nat) : Prop :=
  ∃ (c0 : Nat) (gr : Graph) (k : Ctx), w.graph g = some (c0, gr) ∧ w.ctx c = some k ∧ Internal gr.get? ∧
    ¬ Collision gr.get? ((gr.iter S).map Prod.fst) k.cnt

/-- The same entry of two files. -/
def AlikeEntry (σ : Equiv.Perm NodeIndex) (e e2 : NodeIndex × Node) : Prop := e2.1 = σ e.1 ∧ Node.Renamed σ e.2 e2.2

/-- The same call in two executions, with corresponding arguments; the objects it uses exist, and if it returns indices in both, they
correspond, as do the indices that `switch_context` gives to corresponding nodes.  There is one correspondence `σ c` for each context `c`.
The random id of a new context is arbitrary, and so are the checks of `commit_checked`.  A graph that moves to another context does so
without colliding indices. -/
def AlikeCall (S S2 : Schema) (σ : Nat → Equiv.Perm NodeIndex) (w w2 : World) : Call → Call → Prop
  | .newContext c _, .newContext c2 _ => c2 = c
  | .defaultContext c, .defaultContext c2 => c2 = c
  | .newGraph g c, .newGraph g2 c2 => g2 = g ∧ c2 = c
  | .newTrans k c, .newTrans k2 c2 => k2 = k ∧ c2 = c
  | .op k o, .op k2 o2 => k2 = k ∧ w.trans k ≠ none ∧ w2.trans k ≠ none ∧ ∀ c t, w.trans k = some (c, t) →
      AlikeOp (σ c) o o2 ∧ ∀ l l2, Hands w k o c l → Hands w2 k o2 c l2 → l2 = l.map (σ c)
  | .merge k g, .merge k2 g2 => k2 = k ∧ g2 = g ∧ w.trans k ≠ none ∧ w2.trans k ≠ none ∧ w.graph g ≠ none ∧ w2.graph g ≠ none
  | .commit g k, .commit g2 k2 => k2 = k ∧ g2 = g ∧ w.trans k ≠ none ∧ w2.trans k ≠ none ∧ w.graph g ≠ none ∧ w2.graph g ≠ none
  | .commitChecked g k _, .commitChecked g2 k2 _ =>
    k2 = k ∧ g2 = g ∧ w.trans k ≠ none ∧ w2.trans k ≠ none ∧ w.graph g ≠ none ∧ w2.graph g ≠ none
  | .dropTrans k, .dropTrans k2 => k2 = k
  | .dropGraph g, .dropGraph g2 => g2 = g
  | .switchContext g c, .switchContext g2 c2 => g2 = g ∧ c2 = c ∧ MovesWell S w g c ∧ MovesWell S2 w2 g c ∧
      ∀ c0 gr x y y2, w.graph g = some (c0, gr) → Moves S w g c x y → Moves S2 w2 g c (σ c0 x) y2 → y2 = σ c y
  | .deserialize g c f, .deserialize g2 c2 f2 => g2 = g ∧ c2 = c ∧ List.Forall₂ (AlikeEntry (σ c)) f.nodes f2.nodes
  | _, _ => False

/-- The call uses no graph in `G` and no transaction in `T`. -/
def Elsewhere (G T : Nat → Prop) : Call → Prop
  | .newContext _ _ => True
  | .defaultContext _ => True
  | .newGraph g _ => ¬ G g
  | .newTrans k _ => ¬ T k
  | .op k _ => ¬ T k
  | .merge k g => ¬ T k ∧ ¬ G g
  | .commit g k => ¬ T k ∧ ¬ G g
  | .commitChecked g k _ => ¬ T k ∧ ¬ G g
  | .commitCaught g k => ¬ T k ∧ ¬ G g
  | .dropTrans k => ¬ T k
  | .dropGraph g => ¬ G g
  | .switchContext g _ => ¬ G g
  | .deserialize g _ _ => ¬ G g

/-- The call uses only graphs in `G` and transactions in `T`. -/
def Inside (G T : Nat → Prop) : Call → Prop
  | .newContext _ _ => True
  | .defaultContext _ => True
  | .newGraph g _ => G g
  | .newTrans k _ => T k
  | .op k _ => T k
  | .merge k g => T k ∧ G g
  | .commit g k => T k ∧ G g
  | .commitChecked g k _ => T k ∧ G g
  | .commitCaught g k => T k ∧ G g
  | .dropTrans k => T k
  | .dropGraph g => G g
  | .switchContext g _ => G g
  | .deserialize g _ _ => G g

/-- Two executions of a program that uses the graphs `G` and the transactions `T`, from the worlds `u` and `u2` on.  The first one has the
declaration `S`, the second one the declaration `S2` (in C50 they are the same).  In each of them other parts of the program, which do not
touch these objects but may share their contexts, do what they like in between.  The calls of the program itself satisfy `R`. -/
inductive TwinsFrom [SetImpl] (S S2 : Schema) (dbg : Bool) (R : World → Call → Prop) (σ : Nat → Equiv.Perm NodeIndex) (G T : Nat → Prop) (u u2 : World) :
    World → World → Prop
  | start : TwinsFrom S S2 dbg R σ G T u u2 u u2
  | both {w w2 : World} {a b : Call} : TwinsFrom S S2 dbg R σ G T u u2 w w2 → a.Allowed S w → b.Allowed S2 w2 → R w a → R w2 b →
      Inside G T a → AlikeCall S S2 σ w w2 a b → TwinsFrom S S2 dbg R σ G T u u2 (w.exec S dbg a) (w2.exec S2 dbg b)
  | left {w w2 : World} {a : Call} : TwinsFrom S S2 dbg R σ G T u u2 w w2 → a.Allowed S w → Elsewhere G T a →
      TwinsFrom S S2 dbg R σ G T u u2 (w.exec S dbg a) w2
  | right {w w2 : World} {b : Call} : TwinsFrom S S2 dbg R σ G T u u2 w w2 → b.Allowed S2 w2 → Elsewhere G T b →
      TwinsFrom S S2 dbg R σ G T u u2 w (w2.exec S2 dbg b)

/-- Two executions from the beginning. -/
abbrev Twins [SetImpl] (S S2 : Schema) (dbg : Bool) (R : World → Call → Prop) (σ : Nat → Equiv.Perm NodeIndex) (G T : Nat → Prop) (w w2 : World) : Prop :=
  TwinsFrom S S2 dbg R σ G T World.init World.init w w2

end Spec
end TTGraph
