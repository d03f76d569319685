import Verif.Model.World
import Verif.Spec.Commit

/-!
# Histories

Which calls a program may make, and the worlds it can reach.
-/

set_option autoImplicit false

namespace TTGraph

/-- A closure that keeps nodes well typed, as Rust's type system guarantees. -/
def Closure.Typed (S : Schema) (f : Closure) : Prop := ∀ n n', S.WT n → f n = .ok n' → S.WT n'

/-- A closure that keeps the variant. -/
def Closure.KeepsVariant (f : Closure) : Prop := ∀ n n', f n = .ok n' → n'.disc = n.disc

/-- A closure that does not look at the iteration order of sets. -/
def Closure.Respects (f : Closure) : Prop :=
  ∀ n n', Node.Same n n' → (∃ e, f n = .error e ∧ f n' = .error e) ∨ ∃ m m', f n = .ok m ∧ f n' = .ok m' ∧ Node.Same m m'

/-- Conditions on a method of a transaction.  Nodes and closures are well typed (Rust guarantees it).  `fill_back_untyped` is only used on
an index that this transaction has allocated and not filled yet, and nothing is redirected away from `NodeIndex::empty()`.  All other
indices are arbitrary. -/
def TOp.Allowed (S : Schema) (t : Trans) : TOp → Prop
  | .insert n => S.WT n
  | .extend l => ∀ n ∈ l, S.WT n
  | .alloc d => d ∈ S.discs
  | .allocUntyped => True
  | .fillBack _ n => S.WT n
  | .fillBackUntyped i n => S.WT n ∧ i ∈ t.allocs
  | .remove _ => True
  | .mutate _ f => f.Typed S
  | .update _ f => f.Typed S
  | .redirectAllLinks old _ => old ≠ emptyIdx
  | .redirectLinks old _ => old ≠ emptyIdx

/-- Conditions on a call.  New handles are not in use; random context ids do not collide; objects that are used together belong to the same
context; a file that is deserialized holds well-typed nodes, none under the empty index. -/
def Call.Allowed (S : Schema) (w : World) : Call → Prop
  | .newContext c u => w.ctx c = none ∧ u ≠ 0 ∧ ∀ c' x, w.ctx c' = some x → x.uuid ≠ u
  | .defaultContext c => w.ctx c = none
  | .newGraph g _ => w.graph g = none
  | .newTrans k _ => w.trans k = none
  | .op k o => ∀ c t, w.trans k = some (c, t) → o.Allowed S t
  | .merge k g => ∀ c t c' gr, w.trans k = some (c, t) → w.graph g = some (c', gr) → c = c'
  | .commit g k => ∀ c t c' gr, w.trans k = some (c, t) → w.graph g = some (c', gr) → c = c'
  | .commitChecked g k _ => ∀ c t c' gr, w.trans k = some (c, t) → w.graph g = some (c', gr) → c = c'
  | .commitCaught g k => ∀ c t c' gr, w.trans k = some (c, t) → w.graph g = some (c', gr) → c = c'
  | .dropTrans _ => True
  | .dropGraph _ => True
  | .switchContext _ _ => True
  | .deserialize g c input => w.graph g = none ∧ w.ctx c = none ∧ ∀ e ∈ input.nodes, e.1 ≠ emptyIdx ∧ S.WT e.2

/-- The worlds that a program reaches by allowed calls that also satisfy `R`. -/
inductive Reaches [SetImpl] (S : Schema) (dbg : Bool) (R : World → Call → Prop) : World → Prop
  | init : Reaches S dbg R World.init
  | step {w : World} {c : Call} : Reaches S dbg R w → c.Allowed S w → R w c → Reaches S dbg R (w.exec S dbg c)

/-- No further restriction. -/
def AnyCall (_ : World) (_ : Call) : Prop := True

/-- The program does not go on with a graph whose commit panicked. -/
def NoCatch (_ : World) : Call → Prop
  | .commitCaught _ _ => False
  | _ => True

/-- The closures of all `mutate` and `update` calls keep the variant of the node. -/
def KeepVariants (_ : World) : Call → Prop
  | .op _ (.mutate _ f) => f.KeepsVariant
  | .op _ (.update _ f) => f.KeepsVariant
  | _ => True

/-- A program can have the graph `g`. -/
def Reachable [SetImpl] (S : Schema) (dbg : Bool) (R : World → Call → Prop) (g : Graph) : Prop :=
  ∃ w h c, Reaches S dbg R w ∧ w.graph h = some (c, g)

/-- At some moment a program can have the graph `g` and the transaction `t`, both of the same context. -/
def Meets [SetImpl] (S : Schema) (dbg : Bool) (R : World → Call → Prop) (g : Graph) (t : Trans) : Prop :=
  ∃ w h k c, Reaches S dbg R w ∧ w.graph h = some (c, g) ∧ w.trans k = some (c, t)

/-- At some moment a program can have the transaction `t`, whose context has the counter `cnt`. -/
def Building [SetImpl] (S : Schema) (dbg : Bool) (R : World → Call → Prop) (t : Trans) (cnt : Nat) : Prop :=
  ∃ w k c x, Reaches S dbg R w ∧ w.trans k = some (c, t) ∧ w.ctx c = some x ∧ x.cnt = cnt

end TTGraph
