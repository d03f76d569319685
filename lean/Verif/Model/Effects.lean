import Verif.Model.World

/-!
# Closures with side effects

The closures given to `mutate` and `update` are `FnOnce(&mut NodeT) + 'a` and `FnOnce(NodeT) -> NodeT + 'a` (src/typed_graph.rs:859-862,
transaction.rs:274-337): they may read and change whatever they have captured.  `Model/Trans.lean` has closures as functions of the node.  Here
a closure also gets the state `σ` of the rest of the program and leaves a new one, also when it panics; the functions of the crate that call
closures are modelled again with that state.  What the crate itself does never touches `σ`.

Closures that call the API of the crate are treated in `Spec/Nested.lean`.  Not covered: programs that catch the panic of a commit.
-/

set_option autoImplicit false

namespace TTGraph

/-- A closure with side effects on the state `σ`. -/
abbrev EClosure (σ : Type) := Node → σ → Except Panic Node × σ

/-- Closures that wait for the commit: the fields `mut_nodes` and `update_nodes`, src/typed_graph/transaction.rs:22-23. -/
structure Pend (σ : Type) where
  muts : List (NodeIndex × EClosure σ)
  upds : List (NodeIndex × EClosure σ)

namespace Arena

/-- `get_mut(i).unwrap()` followed by the closure, src/cate_arena.rs:95-97. -/
def modifyAtE {σ : Type} (a : Arena) (i : NodeIndex) (f : EClosure σ) (s : σ) : Except Panic Arena × σ :=
  match a.disp.get? i with
  | none => (.error .nodeMissing, s)
  | some d =>
    match (a.cont d).get? i with
    | none => (.error .nodeMissing, s)
    | some n =>
      match f n s with
      | (.error e, s') => (.error e, s')
      | (.ok n', s') => (.ok (a.setCont d ((a.cont d).insert i n')), s')

/-- `update_with`, src/cate_arena.rs:98-105. -/
def updateWithE {σ : Type} (a : Arena) (i : NodeIndex) (f : EClosure σ) (s : σ) : Except Panic Arena × σ :=
  match a.disp.get? i with
  | none => (.error .updateMissing, s)
  | some d =>
    match (a.cont d).get? i with
    | none => (.error .updateMissing, s)
    | some n =>
      match f n s with
      | (.error e, s') => (.error e, s')
      | (.ok n', s') => (.ok (a.setCont d (((a.cont d).swapRemove i).insert i n')), s')

end Arena

namespace Graph

/-- The second half of `modify_node` and `update_node`, src/typed_graph.rs:571-575, 588-592. -/
def relinkE {σ : Type} (g : Graph) (x : NodeIndex) (st1 : Back × Lcr) : Except Panic Arena × σ → Except Panic (Graph × Lcr) × σ
  | (.error e, s) => (.error e, s)
  | (.ok nodes1, s) =>
    match nodes1.get? x with
    | none => (.error .nodeMissing, s)
    | some n' =>
      match linkSources x st1 n'.iterSources with
      | .error e => (.error e, s)
      | .ok (back2, r2) => (.ok ({ g with nodes := nodes1, back := back2 }, r2), s)

/-- `modify_node`, src/typed_graph.rs:561-576. -/
def modifyNodeE {σ : Type} (g : Graph) (x : NodeIndex) (f : EClosure σ) (r : Lcr) (s : σ) : Except Panic (Graph × Lcr) × σ :=
  match g.nodes.get? x with
  | none => (.error .nodeMissing, s)
  | some n =>
    match unlinkSources x (g.back, r) n.iterSources with
    | .error e => (.error e, s)
    | .ok st1 => relinkE g x st1 (g.nodes.modifyAtE x f s)

/-- `update_node`, src/typed_graph.rs:578-593. -/
def updateNodeE {σ : Type} (g : Graph) (x : NodeIndex) (f : EClosure σ) (r : Lcr) (s : σ) : Except Panic (Graph × Lcr) × σ :=
  match g.nodes.get? x with
  | none => (.error .nodeMissing, s)
  | some n =>
    match unlinkSources x (g.back, r) n.iterSources with
    | .error e => (.error e, s)
    | .ok st1 => relinkE g x st1 (g.nodes.updateWithE x f s)

/-- The loops of `do_commit` over the stored closures, src/typed_graph.rs:523-528. -/
def applyClosuresE {σ : Type} (step : Graph → NodeIndex → EClosure σ → Lcr → σ → Except Panic (Graph × Lcr) × σ) :
    Graph × Lcr → List (NodeIndex × EClosure σ) → σ → Except Panic (Graph × Lcr) × σ
  | st, [], s => (.ok st, s)
  | st, p :: l, s =>
    match step st.1 p.1 p.2 st.2 s with
    | (.ok st', s') => applyClosuresE step st' l s'
    | (.error e, s') => (.error e, s')

/-- `do_commit` after the closures, src/typed_graph.rs:530-535. -/
def afterClosures [SetImpl] (S : Schema) (t : Trans) (st : Graph × Lcr) : Except Panic (Graph × Lcr) :=
  match redirectLinksVec st.1 t.redirAll st.2 with
  | .error e => .error e
  | .ok st5 =>
    match foldE (fun (st : Graph × Lcr) x => removeNode st.1 x st.2) st5 t.dec.elems with
    | .error e => .error e
    | .ok (g6, r6) =>
      match applyBidirectional S g6 r6 with
      | .error e => .error e
      | .ok g7 => .ok (g7, r6)

/-- `do_commit`, src/typed_graph.rs:515-536; the closures are those of `p`. -/
def doCommitE {σ : Type} [SetImpl] (S : Schema) (dbg : Bool) (g : Graph) (t : Trans) (p : Pend σ) (s : σ) : Except Panic (Graph × Lcr) × σ :=
  if dbg && decide (t.ctxId ≠ g.ctxId) then (.error .ctxMismatch, s)
  else if dbg && !t.allocs.isEmpty then (.error .unfilledAlloc, s)
  else
    match redirectLinksVec g t.redir Lcr.new with
    | .error e => (.error e, s)
    | .ok (g1, r1) =>
      match applyClosuresE modifyNodeE (mergeNodes S g1 t.inc r1) p.muts s with
      | (.error e, s') => (.error e, s')
      | (.ok st3, s') =>
        match applyClosuresE updateNodeE st3 p.upds s' with
        | (.error e, s'') => (.error e, s'')
        | (.ok st4, s'') => (afterClosures S t st4, s'')

/-- `commit`, src/typed_graph.rs:423-426, from the result of `do_commit`. -/
def finish (S : Schema) : Except Panic (Graph × Lcr) → Except Panic Graph
  | .error e => .error e
  | .ok (g', r) =>
    match checkLinkType S g' r with
    | .error e => .error e
    | .ok _ => .ok g'

/-- `commit_checked`, src/typed_graph.rs:432-439, from the result of `do_commit`. -/
def finishChecked (S : Schema) (checks : GraphCheck) : Except Panic (Graph × Lcr) → Except Panic Graph
  | .error e => .error e
  | .ok (g', r) =>
    match checkLinkType S g' r with
    | .error e => .error e
    | .ok _ =>
      match checkChange g' r checks with
      | .error e => .error e
      | .ok [] => .ok g'
      | .ok (name :: names) => .error (.checkFailed (name :: names))

/-- `commit`, src/typed_graph.rs:423-426. -/
def commitE {σ : Type} [SetImpl] (S : Schema) (dbg : Bool) (g : Graph) (t : Trans) (p : Pend σ) (s : σ) : Except Panic Graph × σ :=
  ((finish S (doCommitE S dbg g t p s).1), (doCommitE S dbg g t p s).2)

/-- `commit_checked`, src/typed_graph.rs:432-439. -/
def commitCheckedE {σ : Type} [SetImpl] (S : Schema) (dbg : Bool) (g : Graph) (t : Trans) (p : Pend σ) (checks : GraphCheck) (s : σ) :
    Except Panic Graph × σ :=
  ((finishChecked S checks (doCommitE S dbg g t p s).1), (doCommitE S dbg g t p s).2)

end Graph

/-! ### Programs -/

/-- A program with its own state.  The closures that wait in the transaction `k` are `pend k`; the lists in `world.trans k` are not used. -/
structure EWorld (σ : Type) where
  world : World
  pend : Nat → Pend σ
  env : σ

/-- One step of such a program. -/
inductive ECall (σ : Type)
  /-- the program computes -/
  | think (h : σ → σ)
  /-- a call that neither takes nor runs closures -/
  | plain (c : Call)
  /-- `k.mutate(i, f)` -/
  | mutate (k : Nat) (i : NodeIndex) (f : EClosure σ)
  /-- `k.update(i, f)` -/
  | update (k : Nat) (i : NodeIndex) (f : EClosure σ)
  /-- `g.commit(k)` -/
  | commit (g k : Nat)
  /-- `g.commit_checked(k, checks)` -/
  | commitChecked (g k : Nat) (checks : GraphCheck)

/-- A call that neither takes nor runs closures. -/
def Call.Plain : Call → Prop
  | .op _ (.mutate _ _) => False
  | .op _ (.update _ _) => False
  | .commit _ _ => False
  | .commitChecked _ _ _ => False
  | .commitCaught _ _ => False
  | _ => True

namespace EWorld
variable {σ : Type}

/-- The start of a program. -/
def init (s : σ) : EWorld σ := ⟨World.init, fun _ => ⟨[], []⟩, s⟩

/-- The result of a closure that runs at once on a new node of transaction `k` of context `c`. -/
def ran (w : EWorld σ) (k c : Nat) (t : Trans) : Except Panic Arena × σ → EWorld σ
  | (.ok inc, s) => { w with world := w.world.setTrans k (some (c, { t with inc })), env := s }
  | (.error _, s) => { w with world := w.world.setTrans k none, env := s }

/-- The result of a commit of transaction `k` to graph `g` of context `c`. -/
def committed (w : EWorld σ) (g k c : Nat) : Except Panic Graph × σ → EWorld σ
  | (.ok gr, s) => { w with world := (w.world.setTrans k none).setGraph g (some (c, gr)), env := s }
  | (.error _, s) => { w with world := (w.world.setTrans k none).setGraph g none, env := s }

/-- A new transaction has no closures. -/
def fresh (pend : Nat → Pend σ) : Call → Nat → Pend σ
  | .newTrans k _ => World.put pend k ⟨[], []⟩
  | _ => pend

/-- The effect of one step; `mutate` and `update`: src/typed_graph/transaction.rs:274-282, 328-337. -/
def exec [SetImpl] (S : Schema) (dbg : Bool) (w : EWorld σ) : ECall σ → EWorld σ
  | .think h => { w with env := h w.env }
  | .plain c => { w with world := w.world.exec S dbg c, pend := fresh w.pend c }
  | .mutate k i f =>
    match w.world.trans k with
    | some (c, t) =>
      if t.inc.contains i then w.ran k c t (t.inc.modifyAtE i f w.env)
      else { w with pend := World.put w.pend k { w.pend k with muts := (w.pend k).muts ++ [(i, f)] } }
    | none => w
  | .update k i f =>
    match w.world.trans k with
    | some (c, t) =>
      if t.inc.contains i then w.ran k c t (t.inc.updateWithE i f w.env)
      else { w with pend := World.put w.pend k { w.pend k with upds := (w.pend k).upds ++ [(i, f)] } }
    | none => w
  | .commit g k =>
    match w.world.trans k, w.world.graph g with
    | some (_, t), some (c, gr) => w.committed g k c (gr.commitE S dbg t (w.pend k) w.env)
    | _, _ => w
  | .commitChecked g k checks =>
    match w.world.trans k, w.world.graph g with
    | some (_, t), some (c, gr) => w.committed g k c (gr.commitCheckedE S dbg t (w.pend k) checks w.env)
    | _, _ => w

end EWorld
end TTGraph
