import Verif.Model.Wrap
import Verif.Spec.History

/-!
# Programs on a machine with a word size
-/

set_option autoImplicit false

namespace TTGraph

/-- How many indices a method draws. -/
def TOp.draws : TOp → Nat
  | .insert _ => 1
  | .extend l => l.length
  | .alloc _ => 1
  | .allocUntyped => 1
  | _ => 0

/-- How many indices of the context `c` a call draws: those of the methods of its transactions, and one for every node of a graph that is
switched to it. -/
def Call.draws (S : Schema) (w : World) (c : Nat) : Call → Nat
  | .op k o => if (w.trans k).map Prod.fst = some c then o.draws else 0
  | .switchContext g c' =>
    match w.graph g, w.ctx c' with
    | some (_, gr), some _ => if c' = c then gr.len S else 0
    | _, _ => 0
  | _ => 0

/-- If the call reads a file, all indices of the nodes in it are at most `M`. -/
def Call.FilesUpTo (M : Nat) : Call → Prop
  | .deserialize _ _ input => ∀ e ∈ input.nodes, e.1 ≤ M
  | _ => True

namespace Spec

/-- The worlds that a program reaches on a machine with `W` values of `usize`, by calls that are allowed and satisfy `R`. -/
inductive ReachesW [SetImpl] (W : Nat) (chk : Bool) (S : Schema) (dbg : Bool) (R : World → Call → Prop) : World → Prop
  | init : ReachesW W chk S dbg R World.init
  | step {w : World} {c : Call} : ReachesW W chk S dbg R w → c.Allowed S w → R w c → ReachesW W chk S dbg R (w.execW W chk S dbg c)

/-- The largest index in the files that the program reads, and the number of indices that a context has handed out, with this call, are
together below `W`. -/
def Fits (W M : Nat) (S : Schema) (w : World) (call : Call) : Prop :=
  call.FilesUpTo M ∧ ∀ c, M + (w.issued c).length + call.draws S w c < W

end Spec
end TTGraph
