import Verif.Model.Graph

/-!
# What a panicking commit leaves behind

`commit` takes `&mut self`; a program that catches the panic (`catch_unwind`, or a thread that is joined) can go on using the graph.  The
functions here give the graph that it finds.
-/

set_option autoImplicit false

namespace TTGraph
namespace Graph

/-- The state in which a loop stops, when an iteration that panics does so before it changes anything. -/
def stopped {σ α : Type} (f : σ → α → Except Panic σ) : σ → List α → σ
  | s, [] => s
  | s, a :: as =>
    match f s a with
    | .error _ => s
    | .ok s' => stopped f s' as

/-- `redirect_links_vec`, src/typed_graph.rs:614-648: the loop check (617-629) precedes all changes; after that an iteration can only panic
at `swap_remove(&old_node).unwrap()` (596), which changes nothing. -/
def redirectLeft [SetImpl] (g : Graph) (reps : List (NodeIndex × NodeIndex)) (r : Lcr) : Graph :=
  match foldE faStep (faInit reps) reps with
  | .error _ => g
  | .ok fa => (stopped redirStep (fa, g, r) reps).2.1

/-- The loops over closures, src/typed_graph.rs:523-528.  `mid` is the graph in the middle of `modify_node` or `update_node`, if a closure
panics or leaves a link to an unknown index; if the node is missing, nothing has changed (565, 582). -/
def closuresLeft (step : Graph → NodeIndex → Closure → Lcr → Except Panic (Graph × Lcr)) (mid : Graph → NodeIndex → Closure → Option Graph) :
    Graph × Lcr → List (NodeIndex × Closure) → Option Graph
  | st, [] => some st.1
  | st, p :: l =>
    match step st.1 p.1 p.2 st.2 with
    | .error _ => if (st.1.get? p.1).isNone then some st.1 else mid st.1 p.1 p.2
    | .ok st' => closuresLeft step mid st' l

/-- The last loop of `modify_node` and `update_node` (572-575, 589-592) up to the first unknown index. -/
def relinkLeft (x : NodeIndex) (b : Back) (srcs : List (NodeIndex × Source)) : Back :=
  stopped (fun (b : Back) p => b.linkKnown p.1 (x, p.2)) b srcs

/-- The graph in the middle of `modify_node`, src/typed_graph.rs:561-576.  The links of the node are no longer recorded; if the closure panics,
the node is what the closure has made of it so far (`left`); otherwise the links up to the first unknown index have been recorded again. -/
def modifyLeft (left : Node → Node) (g : Graph) (x : NodeIndex) (f : Closure) : Option Graph :=
  match g.nodes.get? x with
  | none => some g
  | some n =>
    match removeBackLinks g.back x n.iterSources with
    | .error _ => none
    | .ok back1 =>
      match f n with
      | .error _ =>
        match g.nodes.modifyAt x (fun n => .ok (left n, ())) with
        | .error _ => none
        | .ok (nodes1, _) => some { g with nodes := nodes1, back := back1 }
      | .ok n' =>
        match g.nodes.modifyAt x (fun _ => .ok (n', ())) with
        | .error _ => none
        | .ok (nodes1, _) => some { g with nodes := nodes1, back := relinkLeft x back1 n'.iterSources }

/-- The graph in the middle of `update_node`, src/typed_graph.rs:578-593.  If the closure panics, the node has been taken out of its container
(`update_with`, src/cate_arena.rs:103) and is lost, while the dispatcher still has its index. -/
def updateLeft (g : Graph) (x : NodeIndex) (f : Closure) : Option Graph :=
  match g.nodes.disp.get? x, g.nodes.get? x with
  | some d, some n =>
    match removeBackLinks g.back x n.iterSources with
    | .error _ => none
    | .ok back1 =>
      match f n with
      | .error _ => some { g with nodes := g.nodes.setCont d ((g.nodes.cont d).swapRemove x), back := back1 }
      | .ok n' =>
        some { g with nodes := g.nodes.setCont d (((g.nodes.cont d).swapRemove x).insert x n'), back := relinkLeft x back1 n'.iterSources }
  | _, _ => some g

/-- The first loop of `apply_bidirectional_links`, src/typed_graph.rs:651-663, when it panics: the generated `remove_link`
(ttgraph_macros/src/typed_node.rs:277-307) panics on a `Vec` field before it changes anything, after the opposites before it have been removed. -/
def bdRemovesLeft [SetImpl] (S : Schema) (g : Graph) : List Change → Graph
  | [] => g
  | c :: cs =>
    match bdRemove S g c with
    | .ok g' => bdRemovesLeft S g' cs
    | .error _ =>
      match g.nodes.get? c.1, g.nodes.get? c.2.1 with
      | some _, some ny => stopped (bdRemoveOne S c.1 c.2.1) g (S.opposites c.2.2 ny.disc)
      | _, _ => g

/-- `apply_bidirectional_links`, src/typed_graph.rs:650-687: the assertions (680, and in the generated `add_link`,
ttgraph_macros/src/typed_node.rs) precede the change of the same iteration. -/
def bidirLeft [SetImpl] (S : Schema) (g : Graph) (r : Lcr) : Graph :=
  match foldE (bdRemove S) g r.removes.elems with
  | .error _ => bdRemovesLeft S g r.removes.elems
  | .ok g1 => stopped (bdAdd S) g1 r.adds.elems

/-- The graph after `commit`, whether it returns or panics; src/typed_graph.rs:423-426, 515-536.  (`check_link_type` changes nothing;
`remove_node` panics at its first line, 550.) -/
def commitLeftWith [SetImpl] (S : Schema) (dbg : Bool) (midM midU : Graph → NodeIndex → Closure → Option Graph) (g : Graph) (t : Trans) : Option Graph :=
  if dbg && decide (t.ctxId ≠ g.ctxId) then some g
  else if dbg && !t.allocs.isEmpty then some g
  else
    match redirectLinksVec g t.redir Lcr.new with
    | .error _ => some (redirectLeft g t.redir Lcr.new)
    | .ok (g1, r1) =>
      match applyClosures modifyNode (mergeNodes S g1 t.inc r1) t.muts with
      | .error _ => closuresLeft modifyNode midM (mergeNodes S g1 t.inc r1) t.muts
      | .ok st3 =>
        match applyClosures updateNode st3 t.upds with
        | .error _ => closuresLeft updateNode midU st3 t.upds
        | .ok (g4, r4) =>
          match redirectLinksVec g4 t.redirAll r4 with
          | .error _ => some (redirectLeft g4 t.redirAll r4)
          | .ok st5 =>
            match foldE (fun (st : Graph × Lcr) x => removeNode st.1 x st.2) st5 t.dec.elems with
            | .error _ => some (stopped (fun (st : Graph × Lcr) x => removeNode st.1 x st.2) st5 t.dec.elems).1
            | .ok (g6, r6) => some (bidirLeft S g6 r6)

/-- The graph after `commit`, whether it returns or panics, unless it panics in the middle of `modify_node` or `update_node` (`none`): in a
closure, or because the closure left a link to an unknown index. -/
def commitLeft [SetImpl] (S : Schema) (dbg : Bool) (g : Graph) (t : Trans) : Option Graph :=
  commitLeftWith S dbg (fun _ _ _ => none) (fun _ _ _ => none) g t

/-- The graph after `commit`, whether it returns or panics, in any case.  `left` is what a closure that panics has made of the node. -/
def commitWreck [SetImpl] (S : Schema) (dbg : Bool) (left : Node → Node) (g : Graph) (t : Trans) : Option Graph :=
  commitLeftWith S dbg (modifyLeft left) updateLeft g t

end Graph
end TTGraph
