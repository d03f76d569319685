import Verif.Spec.Rename
import Verif.Spec.RenameOrder

/-!
# Two runs of the same program

What may differ between two runs of one program are the random ids of contexts and the order in which hash sets are iterated, which depends on
random seeds.
-/

set_option autoImplicit false

namespace TTGraph
namespace Spec

/-- The closures do the same, whatever the order of sets. -/
def SameClosure (f f2 : Closure) : Prop :=
  ∀ n n2, Node.Same n n2 → (∃ e, f n = .error e ∧ f2 n2 = .error e) ∨ ∃ m m2, f n = .ok m ∧ f2 n2 = .ok m2 ∧ Node.Same m m2

/-- The same method with the same arguments, up to the order of sets. -/
def SameOp : TOp → TOp → Prop
  | .insert n, .insert n2 => Node.Same n n2
  | .extend ns, .extend ns2 => List.Forall₂ Node.Same ns ns2
  | .alloc d, .alloc d2 => d2 = d
  | .allocUntyped, .allocUntyped => True
  | .fillBack i n, .fillBack i2 n2 => i2 = i ∧ Node.Same n n2
  | .fillBackUntyped i n, .fillBackUntyped i2 n2 => i2 = i ∧ Node.Same n n2
  | .remove i, .remove i2 => i2 = i
  | .mutate i f, .mutate i2 f2 => i2 = i ∧ SameClosure f f2
  | .update i f, .update i2 f2 => i2 = i ∧ SameClosure f f2
  | .redirectAllLinks o n, .redirectAllLinks o2 n2 => o2 = o ∧ n2 = n
  | .redirectLinks o n, .redirectLinks o2 n2 => o2 = o ∧ n2 = n
  | _, _ => False

/-- An index and its node, up to the order of sets. -/
def SameEntry (e e2 : NodeIndex × Node) : Prop := e2.1 = e.1 ∧ Node.Same e.2 e2.2

/-- The same call with the same arguments, up to the order of sets and the random ids of contexts. -/
def SameCall : Call → Call → Prop
  | .newContext c _, .newContext c2 _ => c2 = c
  | .defaultContext c, .defaultContext c2 => c2 = c
  | .newGraph g c, .newGraph g2 c2 => g2 = g ∧ c2 = c
  | .newTrans k c, .newTrans k2 c2 => k2 = k ∧ c2 = c
  | .op k o, .op k2 o2 => k2 = k ∧ SameOp o o2
  | .merge k g, .merge k2 g2 => k2 = k ∧ g2 = g
  | .commit g k, .commit g2 k2 => g2 = g ∧ k2 = k
  | .commitChecked g k _, .commitChecked g2 k2 _ => g2 = g ∧ k2 = k
  | .dropTrans k, .dropTrans k2 => k2 = k
  | .dropGraph g, .dropGraph g2 => g2 = g
  | .switchContext g c, .switchContext g2 c2 => g2 = g ∧ c2 = c
  | .deserialize g c f, .deserialize g2 c2 f2 => g2 = g ∧ c2 = c ∧ List.Forall₂ SameEntry f.nodes f2.nodes
  | _, _ => False

/-- The call returns: its objects exist and it does not panic. -/
def Returns [SetImpl] (S : Schema) (dbg : Bool) (w : World) : Call → Prop
  | .newContext _ _ => True
  | .defaultContext _ => True
  | .newGraph _ c => ∃ x, w.ctx c = some x
  | .newTrans _ c => ∃ x, w.ctx c = some x
  | .op k o => ∃ c t x r, w.trans k = some (c, t) ∧ w.ctx c = some x ∧ o.run t x.cnt = .ok r
  | .merge k g => ∃ c t c' gr t', w.trans k = some (c, t) ∧ w.graph g = some (c', gr) ∧ t.merge gr = .ok t'
  | .commit g k => ∃ c t c' gr gr', w.trans k = some (c, t) ∧ w.graph g = some (c', gr) ∧ gr.commit S dbg t = .ok gr'
  | .commitChecked g k ch => ∃ c t c' gr gr', w.trans k = some (c, t) ∧ w.graph g = some (c', gr) ∧ gr.commitChecked S dbg t ch = .ok gr'
  | .commitCaught _ _ => False
  | .dropTrans _ => True
  | .dropGraph _ => True
  | .switchContext g c => ∃ c' gr x r, w.graph g = some (c', gr) ∧ w.ctx c = some x ∧ gr.switchContext S x.uuid x.cnt = .ok r
  | .deserialize _ _ f => ∃ r, Graph.deserializeGraph S f = .ok r

/-- Two runs of a program; `w` and `w2` are what they have after the same number of calls, all of which returned. -/
inductive Reruns [SetImpl] (S : Schema) (dbg : Bool) (R : World → Call → Prop) : World → World → Prop
  | start : Reruns S dbg R World.init World.init
  | call {w w2 : World} {a b : Call} : Reruns S dbg R w w2 → a.Allowed S w → b.Allowed S w2 → R w a → R w2 b → SameCall a b →
      Returns S dbg w a → Returns S dbg w2 b → Reruns S dbg R (w.exec S dbg a) (w2.exec S dbg b)

/-- The pending operations are the same, up to the order of sets. -/
structure SamePending (p q : Pending) : Prop where
  new : View.Same p.new q.new
  unfilled : ∀ x, q.unfilled x ↔ p.unfilled x
  removed : ∀ x, q.removed x ↔ p.removed x
  muts : List.Forall₂ (fun a b => b.1 = a.1 ∧ SameClosure a.2 b.2) p.muts q.muts
  upds : List.Forall₂ (fun a b => b.1 = a.1 ∧ SameClosure a.2 b.2) p.upds q.upds
  redirAll : q.redirAll = p.redirAll
  redir : q.redir = p.redir

/-- The graphs are the same for a program: `get`, `iter`, `iter_type`, `iter_group` and the written file. -/
structure SameGraph (S : Schema) (g g2 : Graph) : Prop where
  get : View.Same g.get? g2.get?
  iter : List.Forall₂ SameEntry (g.iter S) (g2.iter S)
  type : ∀ d, List.Forall₂ SameEntry (g.iterType d) (g2.iterType d)
  group : ∀ name, List.Forall₂ SameEntry (g.iterGroup S name) (g2.iterGroup S name)
  file : List.Forall₂ SameEntry (g.serialize S).nodes (g2.serialize S).nodes

/-- Two runs have the same: the same objects, which belong to the same contexts; the contexts have handed out the same indices in the same
order and will hand out the same next one. -/
structure SameWorld (S : Schema) (w w2 : World) : Prop where
  counter : ∀ c, (w2.ctx c).map Ctx.cnt = (w.ctx c).map Ctx.cnt
  issued : ∀ c, w2.issued c = w.issued c
  graph : ∀ k, (w.graph k = none ∧ w2.graph k = none) ∨
    ∃ c g g2, w.graph k = some (c, g) ∧ w2.graph k = some (c, g2) ∧ SameGraph S g g2
  trans : ∀ k, (w.trans k = none ∧ w2.trans k = none) ∨
    ∃ c t t2, w.trans k = some (c, t) ∧ w2.trans k = some (c, t2) ∧ SamePending t.pending t2.pending

end Spec
end TTGraph
