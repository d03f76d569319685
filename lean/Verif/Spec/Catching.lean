import Verif.Model.TransLeft
import Verif.Spec.History

/-!
# Programs that catch panics

`World.exec` drops the objects that a panicking call has borrowed.  Here is a program that wraps calls in `catch_unwind` and goes on with what
they have left.
-/

set_option autoImplicit false

namespace TTGraph
namespace Spec

/-- What a panicking closure can have made of a node so far: it is a node of a declared type. -/
def KeepsTyped (S : Schema) (part : Node → Node) : Prop := ∀ n, S.WT n → S.WT (part n)

/-- The worlds that a program reaches by calls that are allowed and satisfy `R`, if it catches the panics of methods that satisfy `C`, of
`merge`, and, with debug assertions, of a commit to a graph of another context. -/
inductive Survives [SetImpl] (S : Schema) (dbg : Bool) (R : World → Call → Prop) (C : TOp → Prop) : World → Prop
  | init : Survives S dbg R C World.init
  | step {w : World} {c : Call} : Survives S dbg R C w → c.Allowed S w → R w c → Survives S dbg R C (w.exec S dbg c)
  /-- A method of the transaction `k` panics.  The transaction is what the method has left. -/
  | method {w : World} {k c : Nat} {t : Trans} {x : Ctx} {o : TOp} {e : Panic} {part : Node → Node} : Survives S dbg R C w →
      w.trans k = some (c, t) → w.ctx c = some x → (o.Allowed S t ∨ ∃ i n, o = .fillBackUntyped i n ∧ S.WT n) → C o →
      o.run t x.cnt = .error e → KeepsTyped S part → Survives S dbg R C (w.setTrans k (some (c, o.left part t)))
  /-- `k.merge(g)` panics, before it does anything (src/typed_graph/transaction.rs:497); `g` has been moved into the call. -/
  | merge {w : World} {k g c c' : Nat} {t : Trans} {gr : Graph} {e : Panic} : Survives S dbg R C w → w.trans k = some (c, t) →
      w.graph g = some (c', gr) → t.merge gr = .error e → Survives S dbg R C (w.setGraph g none)
  /-- `g.commit(k)` panics because the two belong to different contexts (src/typed_graph.rs:516); `k` has been moved into the call. -/
  | commit {w : World} {k g c c' : Nat} {t : Trans} {gr gr' : Graph} : Survives S dbg R C w → w.trans k = some (c, t) →
      w.graph g = some (c', gr) → dbg = true → t.ctxId ≠ gr.ctxId → gr.commitLeft S dbg t = some gr' →
      Survives S dbg R C ((w.setTrans k none).setGraph g (some (c', gr')))

end Spec
end TTGraph
