import Verif.Lemmas.Interleaved
import Verif.Lemmas.Intact
import Verif.Props.SwitchDraws

/-!
# C84: programs in which a `switch_context` takes its time
-/

set_option autoImplicit false

namespace TTGraph
open Spec
variable [SetImpl] {S : Schema} {dbg : Bool} {R : World → Call → Prop}

/-- Whatever other threads do while threads are in the middle of a `switch_context`, the objects of the program keep their guarantees: indices
are unique, a node belongs to one object, back-links are exact, methods and commits do what they say. -/
theorem C84_intact (hw : WellNamed S) {w : World} {mv : Nat → Option Moving} (h : Interleaves S dbg R w mv) : Intact S dbg w :=
  (h.inv hw).world.intact hw dbg

/-- What a `switch_context` has drawn is reserved for it: no graph and no transaction of the context has a node or an allocation there, no other
`switch_context` to the context has drawn the same, and nothing has been drawn twice. -/
theorem C84_reserved (hw : WellNamed S) {w : World} {mv : Nat → Option Moving} (h : Interleaves S dbg R w mv) {m c : Nat} {g : Graph}
    {ds : List Nat} (hm : mv m = some ⟨c, g, ds⟩) :
    ds.Nodup ∧ ∀ d ∈ ds, Nowhere w c (d + 1) ∧ ∀ m' g' ds', mv m' = some ⟨c, g', ds'⟩ → d ∈ ds' → m' = m :=
  ⟨(h.inv hw).nodup m c g ds hm, fun d hd => ⟨((h.inv hw).gone m c g ds hm d hd).nowhere,
    fun m' g' ds' hm' hd' => (h.inv hw).apart m' m c g' g ds' ds hm' hm d hd' hd⟩⟩

/-- A `switch_context` that returns gives every node the index that it drew for it, distinct from those of the other nodes, and keeps variants,
data, kinds of links and lengths of `Vec`s. -/
theorem C84_nodes (hw : WellNamed S) {w : World} {mv : Nat → Option Moving} (h : Interleaves S dbg R w mv) {m c u : Nat} {g g' : Graph}
    {ds : List Nat} (hm : mv m = some ⟨c, g, ds⟩) (hl : ds.length = g.len S) (hs : g.switchContextDraws S u ds = .ok g') :
    g'.ctxId = u ∧ ∃ ρ : NodeIndex → NodeIndex,
      (∀ (p : Nat) (i : NodeIndex) (d : Nat), ((g.iter S).map Prod.fst)[p]? = some i → ds[p]? = some d → ρ i = d + 1) ∧
      (∀ x y, g.get? x ≠ none → g.get? y ≠ none → ρ x = ρ y → x = y) ∧
      (∀ x', g'.get? x' ≠ none → ∃ x, g.get? x ≠ none ∧ ρ x = x') ∧
      ∀ x n, g.get? x = some n → ∃ n', g'.get? (ρ x) = some n' ∧ n'.shape = n.shape :=
  Graph.switchDraws_nodes hw ((h.inv hw).graph m c g ds hm) ((h.inv hw).nodup m c g ds hm) hl hs

/-- A `switch_context` of a graph with internal links in which every link has its opposite and satisfies its annotations returns an isomorphic
graph, in which the nodes have the indices that were drawn for them, if no old index collides with a new one.

Full statement of C84: the same without the last condition.  That is false, see `Demo.C62_schedule_fails` and below. -/
theorem C84_iso_partial (hw : WellNamed S) {w : World} {mv : Nat → Option Moving} (h : Interleaves S dbg R w mv) {m c : Nat} (u : Nat) {g : Graph}
    {ds : List Nat} (hm : mv m = some ⟨c, g, ds⟩) (hl : ds.length = g.len S) (hI : Internal g.get?) (ha : Answered S g.get?)
    (ht : WellTyped S g.get?) (hc : ¬ CollisionWith g.get? ((g.iter S).map Prod.fst) (ds.map (· + 1))) :
    ∃ g' ρ, g.switchContextDraws S u ds = .ok g' ∧
      (∀ (p : Nat) (i : NodeIndex) (d : Nat), ((g.iter S).map Prod.fst)[p]? = some i → ds[p]? = some d → ρ i = d + 1) ∧
      Isomorphic ρ g.get? g'.get? :=
  Graph.switchDraws_iso hw u ((h.inv hw).graph m c g ds hm) ((h.inv hw).nodup m c g ds hm) hl hI ha ht hc

/-- No index collides if all draws are above the indices of the graph. -/
theorem C84_above (hw : WellNamed S) {w : World} {mv : Nat → Option Moving} (h : Interleaves S dbg R w mv) {m c : Nat} {g : Graph}
    {ds : List Nat} (hm : mv m = some ⟨c, g, ds⟩) (hc : ∀ i : Nat, g.get? i ≠ none → ∀ d ∈ ds, i ≤ d) :
    ¬ CollisionWith g.get? ((g.iter S).map Prod.fst) (ds.map (· + 1)) := by
  have inv := (h.inv hw).graph m c g ds hm
  rintro ⟨p, q, a, b, h1, h2, h3, h4, _⟩
  rw [List.getElem?_map, Option.map_eq_some_iff] at h4
  obtain ⟨d, h5, rfl⟩ := h4
  rw [List.getElem?_map, Option.map_eq_some_iff] at h2
  obtain ⟨⟨i, n⟩, h6, h7⟩ := h2
  have hg : g.get? i = some n := (Arena.mem_entries inv.arena).1 (List.mem_of_getElem? h6)
  have := hc i (by rw [hg]; simp) d (List.mem_of_getElem? h5)
  have h8 : @Eq Nat i (d + 1) := h7
  omega

omit [SetImpl] in
theorem issue_issue (w : World) (c : Nat) (x : Ctx) (a b : Nat) (l k : List NodeIndex) :
    (w.issue c x a l).issue c { x with cnt := a } b k = w.issue c x b (l ++ k) := by
  simp only [World.issue, World.mk.injEq, true_and]
  constructor
  · funext j
    simp only [World.put]
    split <;> rfl
  · funext j
    simp only [World.put, if_true]
    split
    · rw [List.append_assoc]
    · rfl

omit [SetImpl] in
theorem put_put {α : Type} (f : Nat → α) (k : Nat) (a b : α) : World.put (World.put f k a) k b = World.put f k b := by
  funext j
  simp only [World.put]
  split <;> rfl

omit [SetImpl] in
theorem put_self {α : Type} {f : Nat → α} {k : Nat} {a : α} (h : f k = a) : World.put f k a = f := by
  funext j
  simp only [World.put]
  split
  · rename_i e; rw [e, h]
  · rfl

/-- The draws of one `switch_context` that nobody interrupts. -/
theorem draws_alone {w : World} {mv : Nat → Option Moving} {m gh c c' : Nat} {g : Graph} {x : Ctx} (h : Interleaves S dbg R w mv)
    (hm : mv m = none) (hg : w.graph gh = some (c', g)) (hx : w.ctx c = some x) (n : Nat) (hn : n ≤ g.len S) :
    Interleaves S dbg R ((w.setGraph gh none).issue c x (x.cnt + n) ((List.range' x.cnt n).map (· + 1)))
      (World.put mv m (some ⟨c, g, List.range' x.cnt n⟩)) := by
  induction n with
  | zero =>
    have := h.start hm hg hx
    have e : (w.setGraph gh none).issue c x (x.cnt + 0) ((List.range' x.cnt 0).map (· + 1)) = w.setGraph gh none := by
      simp only [World.issue, World.setGraph, World.mk.injEq, Nat.add_zero, List.range'_zero, List.map_nil, List.append_nil, true_and]
      exact ⟨put_self hx, put_self rfl⟩
    rw [e]
    exact this
  | succ n ih =>
    have ih := ih (by omega)
    have := ih.draw (m := m) (c := c) (g := g) (ds := List.range' x.cnt n) (x := { x with cnt := x.cnt + n }) (by simp [World.put])
      (by simp [World.issue, World.put]) (by simp; omega)
    rw [issue_issue, put_put] at this
    have e : List.range' x.cnt (n + 1) = List.range' x.cnt n ++ [x.cnt + n] := by rw [List.range'_concat]; simp
    rw [e, List.map_append]
    exact this

/-- The program model in which a `switch_context` is one step is a special case: every world that it reaches is reached by threads whose
`switch_context`s take their time, as if nobody interrupted them. -/
theorem C84_atomic (hw : WellNamed S) {w : World} (h : Reaches S dbg R w) :
    Interleaves S dbg (fun w c => R w c ∧ ∀ g c', c ≠ .switchContext g c') w (fun _ => none) := by
  induction h with
  | init => exact .init
  | @step w call h ha hr ih =>
    by_cases hs : ∃ g c, call = .switchContext g c
    · obtain ⟨gh, c, rfl⟩ := hs
      cases hg : w.graph gh with
      | none => simp only [World.exec, hg]; exact ih
      | some q =>
        obtain ⟨c', g⟩ := q
        cases hx : w.ctx c with
        | none => simp only [World.exec, hg, hx]; exact ih
        | some x =>
          obtain ⟨_, _, _, hgi⟩ := (h.inv hw).graph gh c' g hg
          obtain ⟨a0, idMap, a, h1, h2, h3, h4, h5, h6, h7⟩ := Graph.switchNodes_ok hw.variants hgi x.cnt
          have hk := draws_alone (m := 0) ih rfl hg hx (g.len S) (Nat.le_refl _)
          have hlen : g.len S = (g.iter S).length := Arena.len_eq S g.nodes
          have hids : idMap.entries.map Prod.snd = (List.range' x.cnt (g.len S)).map (· + 1) := by
            have : idMap.entries = (g.iter S).zipIdx.map fun q => (q.1.1, Graph.newIndex x.cnt q.2) := h2.map
            have e2 : (fun q : (NodeIndex × Node) × Nat => Graph.newIndex x.cnt q.2) = (Graph.newIndex x.cnt) ∘ Prod.snd := rfl
            rw [this, List.map_map, hlen]
            show ((g.iter S).zipIdx.map fun q => Graph.newIndex x.cnt q.2) = _
            rw [e2, ← List.map_map, List.zipIdx_map_snd, List.range'_eq_map_range, List.range'_eq_map_range (s := x.cnt), List.map_map, List.map_map]
            apply List.map_congr_left
            intro p _
            simp only [Function.comp, Graph.newIndex]
            omega
          have hd := C62_alone (S := S) g x.uuid x.cnt
          rw [← hlen] at hd
          have e0 : World.put (World.put (fun _ => none) 0 (some ⟨c, g, List.range' x.cnt (g.len S)⟩)) 0 none = fun _ => (none : Option Moving) := by
            rw [put_put]; exact put_self rfl
          simp only [World.exec, hg, hx, h1, hids]
          cases k1 : g.switchContext S x.uuid x.cnt with
          | error e =>
            rw [k1] at hd
            have := hk.panic (m := 0) (c := c) (g := g) (x := { x with cnt := x.cnt + g.len S }) (by simp [World.put])
              (by simp [World.issue, World.put]) (by simp) hd.symm
            rw [e0] at this
            rw [hlen] at this ⊢
            exact this
          | ok st =>
            obtain ⟨g', cnt'⟩ := st
            obtain ⟨rfl, _⟩ := Graph.switchContext_ok hw hgi h2 h3 h7 k1
            rw [k1] at hd
            have := hk.finish (m := 0) (gh := gh) (c := c) (g := g) (x := { x with cnt := x.cnt + g.len S }) (by simp [World.put])
              (by simp [World.issue, World.put]) (by simp) hd.symm
            rw [e0] at this
            have e1 : ∀ (v : Option (Nat × Graph)) n l, ((w.setGraph gh none).issue c x n l).setGraph gh v = (w.issue c x n l).setGraph gh v := by
              intro v n l
              simp only [World.issue, World.setGraph, put_put]
            rw [e1] at this
            rw [hlen] at this ⊢
            exact this
    · exact ih.call ha ⟨hr, fun g c e => hs ⟨g, c, e⟩⟩

omit [SetImpl] in
theorem foldE_acc {f : Trans × Nat × List NodeIndex → Node → Except Panic (Trans × Nat × List NodeIndex)}
    (hf : ∀ t cnt acc n, f (t, cnt, acc) n = (f (t, cnt, []) n).map fun r => (r.1, r.2.1, acc ++ r.2.2)) (l : List Node) :
    ∀ t cnt acc, foldE f (t, cnt, acc) l = (foldE f (t, cnt, []) l).map fun r => (r.1, r.2.1, acc ++ r.2.2) := by
  induction l with
  | nil => intro t cnt acc; simp [foldE, Except.map]
  | cons n l ih =>
    intro t cnt acc
    simp only [foldE]
    rw [hf]
    cases f (t, cnt, []) n with
    | error e => rfl
    | ok r =>
      obtain ⟨t', cnt', l'⟩ := r
      simp only [Except.map]
      rw [ih, ih t' cnt' l']
      cases foldE f (t', cnt', []) l with
      | error e => rfl
      | ok r => simp [Except.map, List.append_assoc]

omit [SetImpl] in
theorem setTrans_issue (w : World) (c k : Nat) (x : Ctx) (cnt : Nat) (l : List NodeIndex) (v : Option (Nat × Trans)) :
    (w.setTrans k v).issue c x cnt l = (w.issue c x cnt l).setTrans k v := rfl

/-- The other call that draws several indices: `extend` is a sequence of `insert`s.  So an `extend` that other threads interrupt is a sequence
of `insert`s with their calls in between. -/
theorem C84_extend (hw : WellNamed S) {w : World} {mv : Nat → Option Moving} (h : Interleaves S dbg R w mv) (k : Nat) (l : List Node)
    (hl : ∀ n ∈ l, S.WT n) : w.exec S dbg (.op k (.extend l)) = l.foldl (fun w n => w.exec S dbg (.op k (.insert n))) w := by
  have hi := (h.inv hw).world
  clear h
  induction l generalizing w with
  | nil =>
    simp only [World.exec, TOp.run, Trans.extend, foldE, List.foldl_nil]
    cases ht : w.trans k with
    | none => rfl
    | some q =>
      obtain ⟨c, t⟩ := q
      simp only
      cases hx : w.ctx c with
      | none => rfl
      | some x =>
        simp only
        obtain ⟨a, b, d, e⟩ := w
        simp only [World.issue, World.setTrans, World.mk.injEq, List.append_nil, true_and]
        exact ⟨put_self hx, put_self ht, put_self rfl⟩
  | cons n l ih =>
    rw [List.foldl_cons]
    have ha : (Call.op k (.insert n)).Allowed S w := fun _ _ _ => hl n (by simp)
    rw [← ih (fun n hn => hl n (by simp [hn])) (hi.exec hw dbg _ ha)]
    cases ht : w.trans k with
    | none => simp only [World.exec, ht]
    | some q =>
      obtain ⟨c, t⟩ := q
      obtain ⟨x, hx, hu, hr⟩ := hi.trans k c t ht
      have hb : ∀ i : Nat, t.Owns i → i ≤ x.cnt := by
        intro i ho
        obtain ⟨x', hx', _, h2⟩ := hi.bound (.inr k) c i ⟨t, ht, ho⟩
        rw [hx] at hx'
        simp only [Option.some.injEq] at hx'
        subst hx'
        exact h2
      have h1 := Trans.insert_ok hr hb n
      have hg := Trans.insert_grown hr hb (hl n (by simp))
      have hb' : ∀ i : Nat, ({ t with inc := t.inc.store (x.cnt + 1) n } : Trans).Owns i → i ≤ x.cnt + 1 := by
        intro i ho
        rcases hg.owns i ho with h2 | h2
        · have := hb i h2; omega
        · exact h2.2
      obtain ⟨t2, cnt2, l2, h2, _⟩ := Trans.extend_ok hg.ready hb' (l := l) (fun n hn => hl n (by simp [hn]))
      have h3 : t.extend x.cnt (n :: l) = .ok (t2, cnt2, (x.cnt + 1) :: l2) := by
        simp only [Trans.extend, foldE, h1, List.nil_append]
        simp only [Trans.extend] at h2
        rw [foldE_acc, h2]
        · rfl
        · intro t cnt acc n
          simp only
          cases t.insert cnt n <;> rfl
      have e1 : w.exec S dbg (.op k (.insert n)) =
          (w.issue c x (x.cnt + 1) [x.cnt + 1]).setTrans k (some (c, { t with inc := t.inc.store (x.cnt + 1) n })) := by
        simp only [World.exec, ht, hx, TOp.run, h1, Except.map]
      have e2 : ((w.issue c x (x.cnt + 1) [x.cnt + 1]).setTrans k (some (c, { t with inc := t.inc.store (x.cnt + 1) n }))).trans k =
          some (c, { t with inc := t.inc.store (x.cnt + 1) n }) := by simp [World.setTrans, World.put]
      have e3 : ((w.issue c x (x.cnt + 1) [x.cnt + 1]).setTrans k (some (c, { t with inc := t.inc.store (x.cnt + 1) n }))).ctx c =
          some { x with cnt := x.cnt + 1 } := by simp [World.setTrans, World.issue, World.put]
      rw [e1]
      simp only [World.exec, ht, hx, TOp.run, h3, e2, e3, h2]
      rw [setTrans_issue, issue_issue, World.setTrans_setTrans]
      rfl

end TTGraph

namespace TTGraph.Demo
open Spec

theorem interleaves_of [SetImpl] {S : Schema} {dbg : Bool} {R : World → Call → Prop} {w : World} (h : Reaches S dbg R w) :
    Interleaves S dbg R w (fun _ => none) := by
  induction h with
  | init => exact .init
  | step _ ha hr ih => exact .call ih ha hr

/-- A graph of three nodes in the context 0, and a transaction of another thread in the context 1. -/
def beforeMove : World := run plain true World.init (itself3 ++ [.call (.newContext 1 88), .call (.newTrans 1 1)])

/-- The first thread has drawn 1, the other thread has inserted a node at 2. -/
def duringMove : World :=
  ((beforeMove.setGraph 0 none).issue 1 ⟨88, 0⟩ 1 [1]).exec plain true (.op 1 (.insert (nB 9)))

/-- The first thread has drawn 3 and 4, too. -/
def drawnAll : World := (duringMove.issue 1 ⟨88, 2⟩ 3 [3]).issue 1 ⟨88, 3⟩ 4 [4]

/-- Its `switch_context`. -/
def theMove : Nat → Option Moving := World.put (fun _ => none) 7 (some ⟨1, graphAt beforeMove 0, [0, 2, 3]⟩)

theorem beforeMove_reaches : Reaches plain true SoundCalls beforeMove :=
  reaches_sound (us := []) plain_named _ .init (fun _ _ h => absurd h (by simp [World.init])) (by decide +kernel)

theorem drawnAll_interleaves : Interleaves plain true AnyCall drawnAll theMove := by
  have h0 : Interleaves plain true AnyCall beforeMove (fun _ => none) := interleaves_of (reaches _ (by decide +kernel))
  have h1 := h0.start (m := 7) (gh := 0) (c := 1) (c' := 0) (g := graphAt beforeMove 0) (x := ⟨88, 0⟩) rfl rfl rfl
  have h2 := h1.draw (m := 7) (c := 1) (x := ⟨88, 0⟩) rfl rfl (by decide +kernel)
  have h3 := h2.call (c := .op 1 (.insert (nB 9))) (fun _ _ _ => wt_sound (by decide +kernel)) trivial
  have h4 := h3.draw (m := 7) (c := 1) (x := ⟨88, 2⟩) rfl rfl (by decide +kernel)
  have h5 := h4.draw (m := 7) (c := 1) (x := ⟨88, 3⟩) rfl rfl (by decide +kernel)
  simp only [put_put] at h5
  exact h5

/-- C84: the program goes on in the middle of the `switch_context`.  The thread gets its graph, and the other one commits its transaction to it. -/
example : ∃ g' g2 t, (graphAt beforeMove 0).switchContextDraws plain 88 [0, 2, 3] = .ok g' ∧
    Interleaves plain true AnyCall (drawnAll.setGraph 0 (some (1, g'))) (fun _ => none) ∧ drawnAll.trans 1 = some (1, t) ∧
    g'.commit plain true t = .ok g2 ∧ g2.get? 1 = some (nA 0 [] [] 5) ∧ g2.get? 2 = some (nB 9) ∧ g2.get? 4 = some (nB 0) := by
  have hs := got_ok (e := (graphAt beforeMove 0).switchContextDraws plain 88 [0, 2, 3]) (d := Graph.new 0) (by decide +kernel)
  refine ⟨_, _, transAt drawnAll 1, hs, ?_, rfl, got_ok (d := Graph.new 0) (by decide +kernel), by decide +kernel, by decide +kernel, by decide +kernel⟩
  have h := drawnAll_interleaves.finish (m := 7) (gh := 0) (c := 1) (x := ⟨88, 4⟩) rfl rfl (by decide +kernel) hs
  rw [theMove, put_put, put_self rfl] at h
  exact h

/-- C84: while the thread is in the middle, its draws are reserved, and all its links are internal: for `C84_reserved` and `C84_nodes`. -/
example : theMove 7 = some ⟨1, graphAt beforeMove 0, [0, 2, 3]⟩ ∧ [0, 2, 3].length = (graphAt beforeMove 0).len plain := by
  exact ⟨rfl, by decide +kernel⟩

/-- C84: a graph of four nodes with opposites is renumbered in its own context: the hypotheses of `C84_iso_partial` are met,
as are those of `C84_above`. -/
example : let g := graphAt (run pair true World.init pair4) 0
    ∃ w mv, Interleaves pair true SoundKeep w mv ∧ mv 7 = some ⟨0, g, [4, 5, 6, 7]⟩ ∧ [4, 5, 6, 7].length = g.len pair ∧ Internal g.get? ∧
    Answered pair g.get? ∧ WellTyped pair g.get? ∧ (∀ i : Nat, g.get? i ≠ none → ∀ d ∈ [4, 5, 6, 7], i ≤ d) ∧
    ¬ CollisionWith g.get? ((g.iter pair).map Prod.fst) ([4, 5, 6, 7].map (· + 1)) := by
  intro g
  have hI := fun g (hg : Reachable pair true SoundKeep g) => C12_internal_partial pair_named (fun _ _ h => h.1) hg
  have hk : (g.iter pair).map Prod.fst = [1, 3, 2, 4] := by decide +kernel
  have hr : Reaches pair true SoundKeep (run pair true World.init pair4) := reaches_soundKeep pair_named pair4 (by decide +kernel)
  have hd := draws_alone (m := 7) (interleaves_of hr) rfl (gh := 0) (c := 0) (c' := 0) (g := g) (x := ⟨77, 4⟩) rfl rfl 4 (by decide +kernel)
  have hab : ∀ i : Nat, g.get? i ≠ none → ∀ d ∈ [4, 5, 6, 7], i ≤ d := by
    intro i hi d hd
    obtain ⟨n, hn⟩ := Option.ne_none_iff_exists'.1 hi
    have hm : i ∈ (g.iter pair).map Prod.fst :=
      List.mem_map_of_mem (f := Prod.fst) ((Arena.mem_entries (pair4_reachable.inv pair_named).arena).2 hn)
    rw [hk] at hm
    exact (by decide : ∀ i ∈ [1, 3, 2, 4], ∀ d ∈ [4, 5, 6, 7], i ≤ d) i hm d hd
  refine ⟨_, _, hd, rfl,
    by decide +kernel, hI _ pair4_reachable,
    ((symmetric_closed pair_named (fun w c _ => pair_noVec.steadyBidirCalls w c) pair_one (fun _ _ h => h.2) (fun _ _ h => h.1.noCatch) hI).reachable pair4_reachable).answered,
    fun _ _ _ _ _ _ a ha => absurd ha (by simp [pair]), hab, C84_above (m := 7) (c := 0) pair_named hd rfl hab⟩

/-- C84 fails without the condition on the draws: the links are internal, there are neither opposites nor annotations, and still the node 2, which
linked to itself and to 3, arrives without its link to itself. -/
theorem C84_iso_fails : Interleaves plain true AnyCall drawnAll theMove ∧ theMove 7 = some ⟨1, graphAt beforeMove 0, [0, 2, 3]⟩ ∧
    Internal (graphAt beforeMove 0).get? ∧ Answered plain (graphAt beforeMove 0).get? ∧ WellTyped plain (graphAt beforeMove 0).get? ∧
    (graphAt beforeMove 0).iter plain = [(1, nA 0 [] [] 5), (2, nA 0 [2, 3] [] 5), (3, nB 0)] ∧
    ∃ g', (graphAt beforeMove 0).switchContextDraws plain 88 [0, 2, 3] = .ok g' ∧
      g'.iter plain = [(1, nA 0 [] [] 5), (3, nA 0 [4] [] 5), (4, nB 0)] :=
  ⟨drawnAll_interleaves, rfl, C12_internal_partial plain_named (fun _ _ h => h) (reachable_of beforeMove_reaches 0 (by decide +kernel)),
    fun _ _ _ _ _ _ ⟨_, ⟨l, hl, _⟩, _⟩ => absurd hl (by simp [plain]), fun _ _ _ _ _ _ a ha => absurd ha (by simp [plain]),
    by decide +kernel, _, got_ok (d := Graph.new 0) (by decide +kernel), by decide +kernel⟩

end TTGraph.Demo
