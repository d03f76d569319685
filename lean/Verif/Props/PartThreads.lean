import Verif.Lemmas.PartThreads
import Verif.Props.Parts
import Verif.Props.Interleaved
import Mathlib.Data.List.Induction

/-!
# C92: parts of a program, while threads are in the middle of a `switch_context`
-/

set_option autoImplicit false

namespace TTGraph
open Spec
variable [SetImpl] {S : Schema} {dbg : Bool} {R : World → Call → Prop} {o : Parts} {th : Nat → Nat}

/-- The lists of events are the executions of C84. -/
theorem C92_events {w : World} {mv : Nat → Option Moving} :
    Interleaves S dbg R w mv ↔ ∃ l, EventsAllowed S dbg R l ∧ runEvents S dbg Running.init l = (w, mv) := by
  refine ⟨interleaves_events, ?_⟩
  rintro ⟨l, h1, h2⟩
  have key : ∀ l, EventsAllowed S dbg R l → Interleaves S dbg R (runEvents S dbg Running.init l).1 (runEvents S dbg Running.init l).2 := by
    intro l
    induction l using List.reverseRecOn with
    | nil => exact fun _ => .init
    | append_singleton l e ih =>
      intro h
      rw [runEvents_append]
      refine interleaves_exec (ih fun pre a post hl => h pre a (post ++ [e]) (by rw [hl]; simp)) fun a ha => h l a [] (by rw [ha])
  have := key l h1
  rw [h2] at this
  exact this

/-- C92: divide objects and threads into parts so that nothing that happens concerns two parts. Whatever the interleaving, also of the draws of
`switch_context`s, each part has exactly what it would have if its own events had been the only ones, and its threads have drawn the same. -/
theorem C92_threads {l : List (Nat × ThreadEvent)} (hl : ∀ e ∈ l, EventWithin o th e.1 e.2) (i : Nat) :
    SameRunning o th i (runEvents S dbg Running.init (l.map Prod.snd)) (runEvents S dbg Running.init (eventsOf i l)) :=
  parts_events hl (.init o th) (.init o th) ⟨.refl _ _ _, fun _ _ => rfl⟩

/-- A `switch_context` that nobody interrupts. -/
theorem switch_events (hw : WellNamed S) {s : Running} (h : Interleaves S dbg R s.1 s.2) {m gh c c' : Nat} {g : Graph} {x : Ctx} (hm : s.2 m = none)
    (hg : s.1.graph gh = some (c', g)) (hx : s.1.ctx c = some x) :
    runEvents S dbg s (.start m gh c :: (List.replicate (g.len S) (.draw m) ++ [.finish m gh])) = s.exec S dbg (.call (.switchContext gh c)) := by
  obtain ⟨w, mv⟩ := s
  simp only at hm hg hx h
  have draws : ∀ n, n ≤ g.len S → runEvents S dbg (w, mv) (.start m gh c :: List.replicate n (.draw m)) =
      ((w.setGraph gh none).issue c x (x.cnt + n) ((List.range' x.cnt n).map (· + 1)), World.put mv m (some ⟨c, g, List.range' x.cnt n⟩)) := by
    intro n
    induction n with
    | zero =>
      intro _
      have e : (w.setGraph gh none).issue c x (x.cnt + 0) ((List.range' x.cnt 0).map (· + 1)) = w.setGraph gh none := by
        simp only [World.issue, World.setGraph, World.mk.injEq, Nat.add_zero, List.range'_zero, List.map_nil, List.append_nil, true_and]
        exact ⟨put_self hx, put_self rfl⟩
      rw [e]
      simp only [runEvents, List.replicate_zero, List.foldl_cons, List.foldl_nil, Running.exec, hm, hg, hx, List.range'_zero]
    | succ n ih =>
      intro hn
      have e : ThreadEvent.start m gh c :: List.replicate (n + 1) (.draw m) = (.start m gh c :: List.replicate n (.draw m)) ++ [.draw m] := by
        rw [List.replicate_succ']; rfl
      rw [e, runEvents_append, ih (by omega)]
      have k1 : (World.put mv m (some (⟨c, g, List.range' x.cnt n⟩ : Moving))) m = some ⟨c, g, List.range' x.cnt n⟩ := by simp [World.put]
      have k2 : ((w.setGraph gh none).issue c x (x.cnt + n) ((List.range' x.cnt n).map (· + 1))).ctx c = some { x with cnt := x.cnt + n } := by
        simp [World.issue, World.put]
      have k3 : (List.range' x.cnt n).length < g.len S := by simp; omega
      simp only [runEvents, List.foldl_cons, List.foldl_nil, Running.exec, k1, k2, k3, if_true]
      rw [issue_issue, put_put]
      have e : List.range' x.cnt (n + 1) = List.range' x.cnt n ++ [x.cnt + n] := by rw [List.range'_concat]; simp
      rw [e, List.map_append]
      rfl
  obtain ⟨_, _, _, hgi⟩ := (h.inv hw).world.graph gh c' g hg
  obtain ⟨a0, idMap, a, h1, h2, h3, h4, h5, h6, h7⟩ := Graph.switchNodes_ok hw.variants hgi x.cnt
  have hlen : g.len S = (g.iter S).length := Arena.len_eq S g.nodes
  have hids : idMap.entries.map Prod.snd = (List.range' x.cnt (g.len S)).map (· + 1) := by
    have : idMap.entries = (g.iter S).zipIdx.map fun q => (q.1.1, Graph.newIndex x.cnt q.2) := h2.map
    have e2 : (fun q : (NodeIndex × Node) × Nat => Graph.newIndex x.cnt q.2) = (Graph.newIndex x.cnt) ∘ Prod.snd := rfl
    rw [this, List.map_map, hlen]
    show ((g.iter S).zipIdx.map fun q => Graph.newIndex x.cnt q.2) = _
    rw [e2, ← List.map_map, List.zipIdx_map_snd, List.range'_eq_map_range, List.range'_eq_map_range (s := x.cnt), List.map_map, List.map_map]
    apply List.map_congr_left
    intro p _
    simp only [Function.comp, Graph.newIndex]
    omega
  have hd := C62_alone (S := S) g x.uuid x.cnt
  rw [← hlen] at hd
  rw [← List.cons_append, runEvents_append, draws _ (Nat.le_refl _)]
  have k1 : (World.put mv m (some (⟨c, g, List.range' x.cnt (g.len S)⟩ : Moving))) m = some ⟨c, g, List.range' x.cnt (g.len S)⟩ := by simp [World.put]
  have k2 : ((w.setGraph gh none).issue c x (x.cnt + g.len S) ((List.range' x.cnt (g.len S)).map (· + 1))).ctx c = some { x with cnt := x.cnt + g.len S } := by
    simp [World.issue, World.put]
  have k3 : (List.range' x.cnt (g.len S)).length = g.len S := by simp
  have e0 : World.put (World.put mv m (some ⟨c, g, List.range' x.cnt (g.len S)⟩)) m none = mv := by rw [put_put]; exact put_self hm
  simp only [runEvents, List.foldl_cons, List.foldl_nil, Running.exec, k1, k2, k3, if_true, e0, World.exec, hg, hx, h1, hids]
  have e1 : ∀ (v : Option (Nat × Graph)) n l, ((w.setGraph gh none).issue c x n l).setGraph gh v = (w.issue c x n l).setGraph gh v := by
    intro v n l
    simp only [World.issue, World.setGraph, put_put]
  cases k4 : g.switchContext S x.uuid x.cnt with
  | error e =>
    rw [k4] at hd
    simp only [← hd, Except.map, Prod.mk.injEq, and_true]
    rw [hlen]
    rfl
  | ok st =>
    obtain ⟨g', cnt'⟩ := st
    obtain ⟨rfl, _⟩ := Graph.switchContext_ok hw hgi h2 h3 h7 k4
    rw [k4] at hd
    simp only [← hd, Except.map, Prod.mk.injEq, and_true]
    rw [e1, hlen]

/-- C92: if a thread calls `switch_context` and nothing else happens in its part until it ends, then, whatever happens in other parts meanwhile, the
part ends as if the call had been a single step. -/
theorem C92_switch (hw : WellNamed S) {l : List (Nat × ThreadEvent)} (hl : ∀ e ∈ l, EventWithin o th e.1 e.2) {i m gh c c' : Nat} {g : Graph} {x : Ctx}
    {pre : List ThreadEvent} (hp : EventsAllowed S dbg R pre) (hm : (runEvents S dbg Running.init pre).2 m = none)
    (hg : (runEvents S dbg Running.init pre).1.graph gh = some (c', g)) (hx : (runEvents S dbg Running.init pre).1.ctx c = some x)
    (he : eventsOf i l = pre ++ .start m gh c :: (List.replicate (g.len S) (.draw m) ++ [.finish m gh])) :
    SameRunning o th i (runEvents S dbg Running.init (l.map Prod.snd)) (runEvents S dbg Running.init (pre ++ [.call (.switchContext gh c)])) := by
  have h := C92_threads (S := S) (dbg := dbg) hl i
  have hi : Interleaves S dbg R (runEvents S dbg Running.init pre).1 (runEvents S dbg Running.init pre).2 := C92_events.2 ⟨pre, hp, rfl⟩
  rw [he, runEvents_append, switch_events hw hi hm hg hx] at h
  rw [runEvents_append]
  exact h

end TTGraph

namespace TTGraph.Demo
open Spec

theorem eventsAllowed_of [SetImpl] {S : Schema} {dbg : Bool} {l : List Step} (h : runOk S dbg anyStep [] World.init l = true) :
    EventsAllowed S dbg AnyCall (l.map fun s => .call s.call') := by
  have key : ∀ (l : List Step) {us : List Nat} {w : World} {mv : Nat → Option Moving}, Ids us w → runOk S dbg anyStep us w l = true →
      ∀ pre a post, (l.map fun s => ThreadEvent.call s.call') = pre ++ .call a :: post → a.Allowed S (runEvents S dbg (w, mv) pre).1 := by
    intro l
    induction l with
    | nil => exact fun _ _ pre a post e => absurd (congrArg List.length e) (by simp)
    | cons s l ih =>
      intro us w mv hu hok pre a post e
      simp only [runOk, Bool.and_eq_true] at hok
      cases pre with
      | nil =>
        simp only [List.map_cons, List.nil_append, List.cons.injEq, ThreadEvent.call.injEq] at e
        rw [← e.1]
        exact stepOk_sound hu hok.1.1
      | cons b pre =>
        simp only [List.map_cons, List.cons_append, List.cons.injEq] at e
        rw [← e.1]
        exact ih (hu.exec _) hok.2 pre a post e.2
  exact fun pre a post e => ⟨key l (fun _ _ h => absurd h (by simp [World.init])) h pre a post e, trivial⟩

/-- A graph of two nodes and a second context. -/
def own : List Step :=
  [.call (.newContext 0 77), .call (.newContext 2 78), .call (.newGraph 0 0), .call (.newTrans 0 0), .call (.op 0 (.insert (pA 2 []))),
   .call (.op 0 (.insert (pB [] 0))), .call (.commit 0 0)]

/-- Part 0 moves its graph to its second context.  Part 1 makes a context, a graph and a node meanwhile, and moves the graph within its context; it
has not finished yet. -/
def moves : List (Nat × ThreadEvent) :=
  own.map (fun s => (0, .call s.call')) ++
  [(1, .call (.newContext 1 88)), (0, .start 4 0 2), (1, .call (.newGraph 1 1)), (1, .call (.newTrans 1 1)), (0, .draw 4), (1, .call (.op 1 (.insert (pB [] 0)))),
   (1, .call (.commit 1 1)), (1, .start 5 1 1), (1, .draw 5), (0, .draw 4), (0, .finish 4 0)]

theorem moves_within : ∀ e ∈ moves, EventWithin evenOdd (· % 2) e.1 e.2 := by
  have h1 : ∀ s ∈ own, Within evenOdd 0 s.call' := by decide +kernel
  intro e he
  rcases List.mem_append.1 he with he | he
  · obtain ⟨s, hs, rfl⟩ := List.mem_map.1 he
    exact h1 s hs
  · simp only [List.mem_cons, List.not_mem_nil, or_false] at he
    rcases he with rfl | rfl | rfl | rfl | rfl | rfl | rfl | rfl | rfl | rfl | rfl <;> simp [EventWithin, Within, evenOdd]

/-- C92: both parts are as if they were alone.  The thread 4 has moved the nodes 1 and 2 to the indices 1 and 2 of the other context, as if in one step;
the thread 5 has drawn one index and is not done. -/
example : let s := runEvents typed true Running.init (moves.map Prod.snd)
    nodesIn s.1 0 = some [1, 2] ∧ (s.1.ctx 2).map Ctx.cnt = some 2 ∧ nodesIn s.1 1 = none ∧ (s.2 5).map Moving.draws = some [1] ∧ (s.2 4).isNone = true ∧
    SameRunning evenOdd (· % 2) 1 s (runEvents typed true Running.init (eventsOf 1 moves)) ∧
    SameRunning evenOdd (· % 2) 0 s (runEvents typed true Running.init ((own.map fun s => .call s.call') ++ [.call (.switchContext 0 2)])) := by
  intro s
  refine ⟨by decide +kernel, by decide +kernel, by decide +kernel, by decide +kernel, by decide +kernel, C92_threads moves_within 1, ?_⟩
  exact C92_switch (R := AnyCall) (c' := 0) (g := graphAt (run typed true World.init own) 0) (x := ⟨78, 0⟩) (m := 4) typed_named moves_within
    (eventsAllowed_of (by decide +kernel)) rfl rfl rfl rfl

end TTGraph.Demo
