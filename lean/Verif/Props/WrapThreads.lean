import Verif.Lemmas.WrapThreads
import Verif.Props.Threads

/-!
# C87: programs with threads on a machine with a word size
-/

set_option autoImplicit false

namespace TTGraph
open Spec
variable [SetImpl] {S : Schema} {dbg : Bool} {R : World → Call → Prop}

/-- Threads that are in the middle of a `switch_context`, in a program that draws so few indices that the largest index in the files it reads and the
number of indices drawn stay below `W`: on a machine with `W` values of `usize` they reach only what they reach with unbounded counters.  So everything
that C84 says about programs with threads holds for it.

Full statement of C87: the same for every program that draws fewer than `W` indices.  That is false for programs that read files, see
`Demo.C87_loaded_fails`. -/
theorem C87_threads_partial (hw : WellNamed S) {W M : Nat} {chk : Bool} {w : World} {mv : Nat → Option MovingW}
    (h : InterleavesW W chk S dbg (fun w c => R w c ∧ Fits W M S w c) (DrawFits W M) w mv) :
    ∃ mv', Interleaves S dbg (fun w c => R w c ∧ Fits W M S w c) w mv' ∧ ∀ m, SameMove S (mv m) (mv' m) :=
  threadedW_matched hw ⟨fun h => h.inv hw, .init, .call, .start, .draw, .finish, .panic⟩ (fun _ _ h => h.elim) h

/-- And they reach all of it: whatever threads reach with unbounded counters, without drawing more indices than fit, they also reach on a machine with
`W` values of `usize`, and each of them is in the middle of the same `switch_context`. -/
theorem C87_threads_all_partial (hw : WellNamed S) {W M : Nat} {chk : Bool} {w : World} {mv' : Nat → Option Moving}
    (h : Interleaves S dbg (fun w c => R w c ∧ Fits W M S w c) w mv') (hfit : ∀ c, M + (w.issued c).length < W) :
    ∃ mv, InterleavesW W chk S dbg (fun w c => R w c ∧ Fits W M S w c) (DrawFits W M) w mv ∧ ∀ m, SameMove S (mv m) (mv' m) :=
  have hs : Steps S dbg (fun w c => R w c ∧ Fits W M S w c) (Interleaves S dbg fun w c => R w c ∧ Fits W M S w c) :=
    ⟨fun h => h.inv hw, .init, .call, .start, .draw, .finish, .panic⟩
  (h.closed (hs.machine hw)).2.2 hfit

/-- In such a program the objects keep their guarantees: indices are unique, a node belongs to one object, back-links are exact, methods and commits do
what they say.  (This is `C84_intact`.) -/
theorem C87_threads_intact_partial (hw : WellNamed S) {W M : Nat} {chk : Bool} {w : World} {mv : Nat → Option MovingW}
    (h : InterleavesW W chk S dbg (fun w c => R w c ∧ Fits W M S w c) (DrawFits W M) w mv) : Intact S dbg w := by
  obtain ⟨mv', h1, _⟩ := C87_threads_partial hw h
  exact C84_intact hw h1

/-- Programs whose threads also catch panics (of methods of a transaction, of `merge`, and of a commit to a graph of another context): on the machine
they reach only what they reach with unbounded counters, as long as all draws fit. -/
theorem C87_caught_partial (hw : WellNamed S) {W M : Nat} {chk : Bool} {w : World} {mv : Nat → Option MovingW}
    (h : ThreadedW W chk S dbg (fun w c => R w c ∧ Fits W M S w c) (DrawFits W M) (CatchesW W M chk S dbg) w mv) :
    ∃ mv', Threaded S dbg (fun w c => R w c ∧ Fits W M S w c) w mv' ∧ ∀ m, SameMove S (mv m) (mv' m) :=
  threadedW_matched hw ⟨fun h => h.inv hw, .init, .call, .start, .draw, .finish, .panic⟩ (fun hP hb hc =>
    have h1 := hc.catches (hP.inv hw).world hb
    ⟨hP.caught h1, (C86_caught h1).1, (C86_caught h1).2.1⟩) h

/-- And they reach all of it. -/
theorem C87_caught_all_partial (hw : WellNamed S) {W M : Nat} {chk : Bool} {w : World} {mv' : Nat → Option Moving}
    (h : Threaded S dbg (fun w c => R w c ∧ Fits W M S w c) w mv') (hfit : ∀ c, M + (w.issued c).length < W) :
    ∃ mv, ThreadedW W chk S dbg (fun w c => R w c ∧ Fits W M S w c) (DrawFits W M) (CatchesW W M chk S dbg) w mv ∧
      ∀ m, SameMove S (mv m) (mv' m) := by
  have hs : Steps S dbg (fun w c => R w c ∧ Fits W M S w c) (Threaded S dbg fun w c => R w c ∧ Fits W M S w c) :=
    ⟨fun h => h.inv hw, .init, .call, .start, .draw, .finish, .panic⟩
  refine (h.closed (hs.machine hw) ?_).2.2 hfit
  rintro w w' mv' ⟨h0, h3, ih⟩ hc
  obtain ⟨e1, e2, _⟩ := C86_caught hc
  refine ⟨h0.caught hc, fun c x hx => by rw [e2]; exact h3 c x (e1 ▸ hx), fun hf => ?_⟩
  rw [e2] at hf
  obtain ⟨mv, h1, h2⟩ := ih hf
  exact ⟨mv, h1.caught (hc.machine chk (h0.inv hw).world hf), h2⟩

/-- In such a program the objects keep their guarantees, too.  (This is `C86_intact`.) -/
theorem C87_caught_intact_partial (hw : WellNamed S) {W M : Nat} {chk : Bool} {w : World} {mv : Nat → Option MovingW}
    (h : ThreadedW W chk S dbg (fun w c => R w c ∧ Fits W M S w c) (DrawFits W M) (CatchesW W M chk S dbg) w mv) : Intact S dbg w := by
  obtain ⟨mv', h1, _⟩ := C87_caught_partial hw h
  exact C86_intact hw h1

end TTGraph

namespace TTGraph.Demo
open Spec

/-- A file is read and a second context is made. -/
def wrapStart : World := (World.init.execW (2 ^ 64) true plain true (.deserialize 0 0 smallFile)).execW (2 ^ 64) true plain true (.newContext 1 88)

/-- The first node has moved to the second context, then a thread makes a transaction there and inserts a node. -/
def wrapMiddle : World :=
  (((wrapStart.setGraph 0 none).issue 1 ⟨88, 0⟩ 1 [1]).execW (2 ^ 64) true plain true (.newTrans 5 1)).execW (2 ^ 64) true plain true (.op 5 (.insert (nB 5)))

/-- The arena with the first node. -/
def wrapArena : Arena :=
  match (Arena.new.insertW (2 ^ 64) true 0 (nB 0)).2 with
  | .ok r => r.2
  | .error _ => Arena.new

/-- The thread 3 is in the middle of its `switch_context`. -/
def wrapMoves : Nat → Option MovingW :=
  World.put (World.put (fun _ => none) 3 (some ⟨1, graphAt wrapStart 0, (Arena.new, OrderMap.empty), (graphAt wrapStart 0).nodes.entries plain⟩)) 3
    (some ⟨1, graphAt wrapStart 0, (wrapArena, OrderMap.empty.insert 1 1), [(7, nB 1)]⟩)

theorem wrapMiddle_reached (K : World → World → Prop) :
    ThreadedW (2 ^ 64) true plain true (fun w c => AnyCall w c ∧ Fits (2 ^ 64) 7 plain w c) (DrawFits (2 ^ 64) 7) K wrapMiddle wrapMoves := by
  have hwt : ∀ i, i < 9 → plain.WT (nB i) := fun i hi => (by decide +kernel : ∀ i, i < 9 → wt plain (nB i) = true) i hi |> wt_sound
  have hsm : ∀ e ∈ smallFile.nodes, e.1 ≠ emptyIdx ∧ plain.WT e.2 := by
    intro e he
    simp only [smallFile, List.mem_cons, List.not_mem_nil, or_false] at he
    rcases he with rfl | rfl
    · exact ⟨by decide, hwt 0 (by decide)⟩
    · exact ⟨by decide, hwt 1 (by decide)⟩
  have fits : ∀ {w : World} {a : Call}, a.FilesUpTo 7 → (∀ c, (w.issued c).length ≤ 3 ∧ a.draws plain w c ≤ 1) → Fits (2 ^ 64) 7 plain w a := by
    intro w a h1 h2
    refine ⟨h1, fun c => ?_⟩
    have := h2 c
    omega
  have h0 : ThreadedW (2 ^ 64) true plain true (fun w c => AnyCall w c ∧ Fits (2 ^ 64) 7 plain w c) (DrawFits (2 ^ 64) 7) K wrapStart (fun _ => none) :=
    (ThreadedW.init.call (c := .deserialize 0 0 smallFile) ⟨rfl, rfl, hsm⟩
      ⟨trivial, fits (by decide : ∀ e ∈ smallFile.nodes, e.1 ≤ 7) fun c => ⟨Nat.zero_le _, Nat.zero_le _⟩⟩).call (c := .newContext 1 88)
      ⟨rfl, by decide, fun c' x h => by
        match c', h with
        | 0, h => rw [← Option.some.inj (h : some (⟨77, 7⟩ : Ctx) = some x)]; decide
        | c' + 1, h => exact absurd (show (none : Option Ctx) = some x from h) nofun⟩
      ⟨trivial, fits trivial fun c => ⟨Nat.zero_le _, Nat.zero_le _⟩⟩
  have h1 := h0.start (m := 3) (gh := 0) (c := 1) (c' := 0) (g := graphAt wrapStart 0) (x := ⟨88, 0⟩) rfl rfl rfl
  have h2 := h1.draw (m := 3) (c := 1) (cnt := 1) (g := graphAt wrapStart 0) (st := (Arena.new, OrderMap.empty)) (e := (1, nB 0)) (l := [(7, nB 1)])
    (x := ⟨88, 0⟩) (new := 1) rfl rfl (by show 7 + 0 + 1 < 2 ^ 64; decide) rfl
  have i2 : ∀ c, (((wrapStart.setGraph 0 none).issue 1 ⟨88, 0⟩ 1 [1]).issued c).length ≤ 3 := fun c => by
    match c with
    | 0 => decide +kernel
    | 1 => decide +kernel
    | c + 2 => exact Nat.zero_le _
  have h3 := h2.call (c := .newTrans 5 1) rfl ⟨trivial, fits trivial fun c => ⟨i2 c, Nat.zero_le _⟩⟩
  have h4 := h3.call (c := .op 5 (.insert (nB 5))) (fun _ _ _ => hwt 5 (by decide)) ⟨trivial, fits trivial fun c => ⟨i2 c, by
    simp only [Call.draws, TOp.draws]
    split <;> omega⟩⟩
  exact h4

/-- C87: on a 64-bit machine, a graph with two nodes that was read from a file is moved to another context by a thread; meanwhile another thread inserts
a node there.  All draws fit.  The nodes get the indices 1 and 3. -/
theorem wrap_moved : ∃ w mv, InterleavesW (2 ^ 64) true plain true (fun w c => AnyCall w c ∧ Fits (2 ^ 64) 7 plain w c) (DrawFits (2 ^ 64) 7) w mv ∧
    w.issued 1 = [1, 2, 3] ∧ (∀ c, (w.issued c).length ≤ 3) ∧ (w.graph 0).map (fun q => q.2.iter plain) = some [(1, nB 0), (3, nB 1)] ∧ Intact plain true w := by
  have h4 := wrapMiddle_reached fun _ _ => False
  have h5 := ThreadedW.draw (w := wrapMiddle) h4 (m := 3) (c := 1) (cnt := 3) (g := graphAt wrapStart 0) (x := ⟨88, 2⟩) (new := 3) rfl rfl
    (by show 7 + 2 + 1 < 2 ^ 64; decide) rfl
  have h6 := h5.finish (m := 3) (gh := 0) (c := 1) (g := graphAt wrapStart 0) (x := ⟨88, 3⟩) rfl rfl (got_ok (d := Graph.new 0) (by decide +kernel))
  refine ⟨_, _, h6, by decide +kernel, fun c => ?_, by decide +kernel, C87_threads_intact_partial plain_named h6⟩
  match c with
  | 0 => decide +kernel
  | 1 => decide +kernel
  | c + 2 => exact Nat.zero_le _

/-- C87: the other way round, for the same program: with unbounded counters it draws three indices, so it does the same on a 64-bit machine, in a
release build too. -/
example : ∃ w mv', Interleaves plain true (fun w c => AnyCall w c ∧ Fits (2 ^ 64) 7 plain w c) w mv' ∧ w.issued 1 = [1, 2, 3] ∧
    ∃ mv, InterleavesW (2 ^ 64) false plain true (fun w c => AnyCall w c ∧ Fits (2 ^ 64) 7 plain w c) (DrawFits (2 ^ 64) 7) w mv := by
  obtain ⟨w, mv, h, hi, hl, _⟩ := wrap_moved
  obtain ⟨mv', h', _⟩ := C87_threads_partial plain_named h
  obtain ⟨mv2, h2, _⟩ := C87_threads_all_partial (chk := false) plain_named h' fun c => by
    have := hl c
    omega
  exact ⟨w, mv', h', hi, mv2, h2⟩

/-- C87: in the middle of the `switch_context`, the other thread catches the panic of an `update` closure: its pending node 2 is lost.  The thread 3 goes
on; its second node gets the index 3.  All draws fit, with unbounded counters as well. -/
example : ∃ w mv, ThreadedW (2 ^ 64) true plain true (fun w c => AnyCall w c ∧ Fits (2 ^ 64) 7 plain w c) (DrawFits (2 ^ 64) 7)
      (CatchesW (2 ^ 64) 7 true plain true) w mv ∧
    (transAt wrapMiddle 5).pending.new 2 = some (nB 5) ∧ (transAt w 5).pending.new 2 = none ∧ w.issued 1 = [1, 2, 3] ∧ Intact plain true w ∧
    ∃ mv', Threaded plain true (fun w c => AnyCall w c ∧ Fits (2 ^ 64) 7 plain w c) w mv' ∧ ∀ c, 7 + (w.issued c).length < 2 ^ 64 := by
  have h4 := wrapMiddle_reached (CatchesW (2 ^ 64) 7 true plain true)
  have h5 := h4.caught (.method (k := 5) (c := 1) (x := ⟨88, 2⟩) (o := .update 2 (fun _ => .error .user)) (e := .user) (part := id) (cnt := 2)
    rfl rfl (.inl (fun _ _ _ e => absurd e (by simp))) (by show 7 + 2 + 0 < 2 ^ 64; decide) rfl (id_keeps _))
  have h6 := h5.draw (m := 3) (c := 1) (cnt := 3) (g := graphAt wrapStart 0) (x := ⟨88, 2⟩) (new := 3) rfl rfl
    (by show 7 + 2 + 1 < 2 ^ 64; decide) rfl
  obtain ⟨mv', h7, _⟩ := C87_caught_partial plain_named h6
  refine ⟨_, _, h6, by decide +kernel, by decide +kernel, by decide +kernel, C87_caught_intact_partial plain_named h6, mv', h7, fun c => ?_⟩
  match c with
  | 0 => decide +kernel
  | 1 => decide +kernel
  | c + 2 => exact (by decide : 7 + 0 < 2 ^ 64)

end TTGraph.Demo
