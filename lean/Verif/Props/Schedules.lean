import Verif.Lemmas.Schedule
import Verif.Lemmas.Meets
import Verif.Props.Rename
import Verif.Demo.Traced
import Verif.Demo.Decls

/-!
# C55: the schedule of threads that build transactions does not matter

Several threads share a context, and each of them builds a transaction of its own.
-/

set_option autoImplicit false

namespace TTGraph
open Spec

section
variable [SetImpl] {S : Schema} {dbg : Bool} {P : Nat → Thread} {w w1 : World} {h1 : Nat → Returned} {s s2 : List Nat} {c : Nat} {x : Ctx}

/-- A schedule determines what happens. -/
theorem C55_determined {h h1 h2 : Nat → Returned} {w w1 w2 : World} (a : Runs S dbg P w h s w1 h1) (b : Runs S dbg P w h s w2 h2) :
    w2 = w1 ∧ h2 = h1 := by
  induction a with
  | done => cases b; exact ⟨rfl, rfl⟩
  | step hp _ hh _ ih =>
    cases b with
    | step hp' _ hh' hr' =>
      rw [hp, Option.some.injEq] at hp'
      subst hp'
      obtain ⟨t, x, t', cnt, e1, e2, e3⟩ := hh
      obtain ⟨t0, x0, t0', cnt0, f1, f2, f3⟩ := hh'
      rw [e1, Option.some.injEq, Prod.mk.injEq] at f1
      obtain ⟨rfl, rfl⟩ := f1
      rw [e2, Option.some.injEq] at f2
      subst f2
      rw [e3, Except.ok.injEq, Prod.mk.injEq, Prod.mk.injEq] at f3
      obtain ⟨rfl, rfl, rfl⟩ := f3
      exact ih hr'

/-- The threads `s` start with new transactions of the context `c`.  If all calls return with one schedule, they return with every other
schedule of the same calls.  Then each thread gets the same, and builds the same transaction, up to a replacement of the indices that have
been given out in between; everything else is the same. -/
theorem C55_schedule (hw : WellNamed S) (hr : Reaches S dbg AnyCall w) (hx : w.ctx c = some x)
    (hstart : ∀ k ∈ s, w.trans k = some (c, Trans.new x.uuid)) (hty : ∀ k ∈ s, (P k).Typed S) (hg : ∀ k ∈ s, (P k).Generic x.cnt)
    (hrun : Runs S dbg P w (fun _ => []) s w1 h1) (hperm : s.Perm s2) :
    ∃ w2 h2, ∃ σ : Equiv.Perm NodeIndex, Runs S dbg P w (fun _ => []) s2 w2 h2 ∧ (∀ i : Nat, i ≤ x.cnt → σ i = i) ∧
      (∀ k ∈ s, h2 k = (h1 k).map (List.map σ)) ∧
      (∀ k ∈ s, ∃ t t2, w1.trans k = some (c, t) ∧ w2.trans k = some (c, t2) ∧ AlikePending σ t.pending t2.pending) ∧
      (∀ k, k ∉ s → w2.trans k = w1.trans k) ∧ w2.graph = w1.graph ∧ w2.ctx = w1.ctx := by
  have hs : Started S c (· ∈ s) w (fun _ => []) x :=
    ⟨hr.inv hw, hx, fun k hk => ⟨_, hstart k hk, fun σ _ => Trans.new_alike _⟩, by simp⟩
  obtain ⟨w2, h2, σ, a, b, d⟩ := par_perm (c0 := x.cnt) (fun k hk => ⟨hg k hk, hty k hk⟩) hperm hs (Nat.le_refl _) (fun _ h => h) hrun
  refine ⟨w2, h2, σ, b, a, d.hist, fun k hk => ?_, d.other, d.graph, d.ctx⟩
  obtain ⟨t, t2, e1, e2, e3⟩ := d.trans k hk
  exact ⟨t, t2, e1, e2, e3.pending⟩

/-- Then the transactions are committed in some order, the same with both schedules, to a graph that holds no index that had not been given
out before.  If the commits return, and do not let bidirectional `Vec` fields hold a node twice on the way, the graphs
are the same up to the replacement. -/
theorem C55_commit (hw : WellNamed S) (hr : Reaches S dbg AnyCall w) (hx : w.ctx c = some x)
    (hstart : ∀ k ∈ s, w.trans k = some (c, Trans.new x.uuid)) (hty : ∀ k ∈ s, (P k).Typed S) (hg : ∀ k ∈ s, (P k).Generic x.cnt)
    {gh : Nat} {g : Graph} (hgr : w.graph gh = some (c, g)) (hkn : ∀ y n p (z : Nat), g.get? y = some n → n.Holds p z → z ≤ x.cnt)
    {w2 : World} {h2 : Nat → Returned} (hrun : Runs S dbg P w (fun _ => []) s w1 h1) (hrun2 : Runs S dbg P w (fun _ => []) s2 w2 h2)
    (hperm : s.Perm s2) {ks : List Nat} (hks : ∀ k ∈ ks, k ∈ s)
    (hst : SteadyCommits S dbg gh ks w1) (hst2 : SteadyCommits S dbg gh ks w2) {c1 c2 : Nat} {g1 g2 : Graph}
    (hc1 : (commitAll S dbg gh ks w1).graph gh = some (c1, g1)) (hc2 : (commitAll S dbg gh ks w2).graph gh = some (c2, g2)) :
    ∃ σ : Equiv.Perm NodeIndex, (∀ i : Nat, i ≤ x.cnt → σ i = i) ∧ (∀ k ∈ s, h2 k = (h1 k).map (List.map σ)) ∧ c2 = c1 ∧
      Alike σ g1.get? g2.get? := by
  have hinv := hr.inv hw
  have hs : Started S c (· ∈ s) w (fun _ => []) x :=
    ⟨hinv, hx, fun k hk => ⟨_, hstart k hk, fun σ _ => Trans.new_alike _⟩, by simp⟩
  obtain ⟨w2', h2', σ, a, b, d⟩ := par_perm (c0 := x.cnt) (fun k hk => ⟨hg k hk, hty k hk⟩) hperm hs (Nat.le_refl _) (fun _ h => h) hrun
  obtain ⟨rfl, rfl⟩ := C55_determined b hrun2
  have hgraph : ∀ {s : List Nat} {w w' : World} {h h' : Nat → Returned}, Runs S dbg P w h s w' h' → w'.graph = w.graph := by
    intro s w w' h h' hr
    induction hr with
    | done => rfl
    | step _ _ hh _ ih =>
      obtain ⟨t, x, t', cnt, e1, e2, e3⟩ := hh
      rw [ih, exec_op e1 e2 e3]; rfl
  have e1 := hgraph hrun
  have e2 := hgraph hrun2
  have h0 : σ emptyIdx = emptyIdx := a 0 (Nat.zero_le _)
  have hself : Alike σ g.get? g.get? := by
    have hdom : ∀ y n, g.get? y = some n → σ y = y := by
      intro y n hy
      obtain ⟨x', hx', _, hle⟩ := hinv.bound (.inl gh) c y ⟨g, hgr, by
        intro hc
        simp [Graph.get?, Arena.get?, hc] at hy⟩
      rw [hx, Option.some.injEq] at hx'
      subst hx'
      exact a y hle
    have hinj : ∀ y, σ y ≠ y → g.get? (σ y) = none := by
      intro y hne
      cases hg' : g.get? (σ y) with
      | none => rfl
      | some n => exact absurd (σ.injective (hdom _ n hg')) hne
    refine alike_of (fun y hy => ?_) (fun y n hy => ⟨n, by rw [hdom y n hy]; exact hy, (Node.alike_iff h0).2 ⟨rfl, fun p z => ?_⟩⟩)
    · by_cases e : σ y = y
      · rw [e]; exact hy
      · exact hinj y e
    · constructor
      · intro hh
        have := a (σ z) (hkn y n p (σ z) hy hh)
        rw [σ.injective this] at hh; exact hh
      · intro hh
        rw [a z (hkn y n p z hy hh)]; exact hh
  have htw : TwinInv S S (fun _ => σ) (· = gh) (· ∈ s) w1 w2 := by
    refine ⟨d.left, d.right, ?_, ?_⟩
    · rintro _ c' c'' g' g'' rfl f1 f2
      rw [e1, hgr, Option.some.injEq, Prod.mk.injEq] at f1
      rw [e2, hgr, Option.some.injEq, Prod.mk.injEq] at f2
      obtain ⟨rfl, rfl⟩ := f1
      obtain ⟨rfl, rfl⟩ := f2
      exact ⟨rfl, hself⟩
    · intro k c' c'' t' t'' hk f1 f2
      obtain ⟨t, t2, k1, k2, k3⟩ := d.trans k hk
      rw [k1, Option.some.injEq, Prod.mk.injEq] at f1
      rw [k2, Option.some.injEq, Prod.mk.injEq] at f2
      obtain ⟨rfl, rfl⟩ := f1
      obtain ⟨rfl, rfl⟩ := f2
      exact ⟨rfl, k3.pending⟩
  obtain ⟨f1, f2⟩ := commitAll_alike (c := c) (fun _ => h0) hw ks hst hst2 hks htw (fun c' g' f => by
      rw [e1, hgr, Option.some.injEq, Prod.mk.injEq] at f; exact f.1.symm)
    (fun k c' t hk f => by
      obtain ⟨t, t2, k1, _, _⟩ := d.trans k hk
      rw [k1, Option.some.injEq, Prod.mk.injEq] at f; exact f.1.symm)
    (fun k hk => by
      obtain ⟨t, t2, k1, k2, _⟩ := d.trans k hk
      simp [k1, k2]) hc1 hc2
  exact ⟨σ, a, d.hist, f1, f2⟩

end
end TTGraph

namespace TTGraph.Demo
open Spec

/-- Insert a `B`, then an `A` that links to it, and a redirect from the node 1 of the graph to the `A`. -/
def weave : Thread := fun h =>
  match h with
  | [] => some (.insert (nB 1))
  | [[b]] => some (.insert (nA b [] [b, 1] 5))
  | [[_], [a]] => some (.redirectLinks 1 a)
  | _ => none

theorem weave_typed : Thread.Typed plain weave := by
  intro h o ho t _
  unfold weave at ho
  split at ho
  · obtain rfl := Option.some.inj ho; exact wt_sound (by decide)
  · obtain rfl := Option.some.inj ho; exact wt_sound rfl
  · obtain rfl := Option.some.inj ho; exact (by decide : (1 : Nat) ≠ 0)
  · exact absurd ho (by simp)

theorem weave_generic : Thread.Generic 1 weave := by
  intro σ hσ h
  have h0 : σ 0 = 0 := hσ 0 (by omega)
  have h1 : σ 1 = 1 := hσ 1 (by omega)
  have hb : ∀ b : NodeIndex, (σ b : NodeIndex) = if b = emptyIdx then emptyIdx else σ b := by
    intro b
    split
    · rename_i e; subst e; exact h0
    · rfl
  have hd : ∀ b : NodeIndex, LinkVal.Renamed σ (.direct b) (.direct (σ b)) := hb
  have hv : ∀ b : NodeIndex, LinkVal.Renamed σ (.vec [b, 1]) (.vec [σ b, 1]) := by
    intro b
    show [σ b, 1] = [_, _]
    simp only [← hb, h1]
    rfl
  match h with
  | [] => exact ⟨rfl, rfl, .cons (by have := hd 1; rw [h1] at this; exact this) .nil⟩
  | [[b]] => exact ⟨rfl, rfl, .cons (hd b) (.cons (fun w => by simp [setOf]) (.cons (hv b) .nil))⟩
  | [[_], [a]] => exact ⟨h1.symm, rfl⟩
  | [] :: r => cases r <;> trivial
  | [_ :: _ :: _] => trivial
  | [[_], []] => trivial
  | [[_], _ :: _ :: _] => trivial
  | [_] :: [] :: _ :: _ => trivial
  | [_] :: [_] :: _ :: _ => trivial
  | [_] :: (_ :: _ :: _) :: _ :: _ => trivial
  | (_ :: _ :: _) :: _ :: _ => trivial

/-- A graph with one node, and two transactions. -/
def loom : List Step :=
  [.call (.newContext 0 77), .call (.newGraph 0 0), .call (.newTrans 0 0), .call (.op 0 (.insert (nB 0))), .call (.commit 0 0),
   .call (.newTrans 1 0), .call (.newTrans 2 0)]

/-- The calls of the threads, as they come with the schedule `s`, and what the threads get; `none` if a call does not return. -/
def play (S : Schema) (dbg : Bool) [SetImpl] (P : Nat → Thread) : List Nat → World → (Nat → Returned) → Option (World × (Nat → Returned))
  | [], w, h => some (w, h)
  | k :: ks, w, h =>
    match P k (h k) with
    | none => none
    | some o =>
      match w.trans k with
      | none => none
      | some (c, t) =>
        match w.ctx c with
        | none => none
        | some x =>
          match o.run t x.cnt with
          | .error _ => none
          | .ok (_, _, l) => if opOk S t o then play S dbg P ks (w.exec S dbg (.op k o)) (World.put h k (h k ++ [l])) else none

theorem play_runs [SetImpl] {S : Schema} {dbg : Bool} {P : Nat → Thread} (s : List Nat) : ∀ {w w' : World} {h h' : Nat → Returned},
    play S dbg P s w h = some (w', h') → Runs S dbg P w h s w' h' := by
  induction s with
  | nil =>
    intro w w' h h' e
    simp only [play, Option.some.injEq, Prod.mk.injEq] at e
    obtain ⟨rfl, rfl⟩ := e
    exact .done
  | cons k ks ih =>
    intro w w' h h' e
    simp only [play] at e
    split at e
    · exact absurd e (by simp)
    · rename_i o ho
      split at e
      · exact absurd e (by simp)
      · rename_i c t ht
        split at e
        · exact absurd e (by simp)
        · rename_i x hx
          split at e
          · exact absurd e (by simp)
          · rename_i t' cnt l hr
            split at e
            · rename_i hok
              refine .step ho ?_ ⟨t, x, t', cnt, ht, hx, hr⟩ (ih e)
              intro c' t2 ht2
              rw [ht, Option.some.injEq, Prod.mk.injEq] at ht2
              obtain ⟨_, rfl⟩ := ht2
              exact opOk_sound hok
            · exact absurd e (by simp)

theorem play_of [SetImpl] {S : Schema} {dbg : Bool} {P : Nat → Thread} {s : List Nat} {w : World} {h : Nat → Returned}
    (e : (play S dbg P s w h).isSome = true) : ∃ w' h', play S dbg P s w h = some (w', h') ∧ Runs S dbg P w h s w' h' := by
  obtain ⟨⟨w', h'⟩, e⟩ := Option.isSome_iff_exists.1 e
  exact ⟨w', h', e, play_runs s e⟩

/-- C55: two threads whose calls interleave in different ways; the hypotheses of `C55_schedule` and `C55_commit` hold, and all commits return. -/
example : ∃ w1 h1 w2 h2, Runs plain true (fun _ => weave) (run plain true World.init loom) (fun _ => []) [1, 1, 1, 2, 2, 2] w1 h1 ∧
    Runs plain true (fun _ => weave) (run plain true World.init loom) (fun _ => []) [2, 1, 2, 1, 1, 2] w2 h2 ∧ h1 1 = [[2], [3], []] ∧
    h2 1 = [[3], [5], []] ∧ hasGraph (commitAll plain true 0 [1, 2] w1) 0 = true ∧ hasGraph (commitAll plain true 0 [1, 2] w2) 0 = true ∧
    ∃ σ : Equiv.Perm NodeIndex, (∀ i : Nat, i ≤ 1 → σ i = i) ∧ (∀ k ∈ [1, 1, 1, 2, 2, 2], h2 k = (h1 k).map (List.map σ)) ∧
      Alike σ (graphAt (commitAll plain true 0 [1, 2] w1) 0).get? (graphAt (commitAll plain true 0 [1, 2] w2) 0).get? := by
  have hb : (match play plain true (fun _ => weave) [1, 1, 1, 2, 2, 2] (run plain true World.init loom) (fun _ => []),
      play plain true (fun _ => weave) [2, 1, 2, 1, 1, 2] (run plain true World.init loom) (fun _ => []) with
      | some (w1, h1), some (w2, h2) => decide (h1 1 = [[2], [3], []]) && decide (h2 1 = [[3], [5], []]) &&
        hasGraph (commitAll plain true 0 [1, 2] w1) 0 && hasGraph (commitAll plain true 0 [1, 2] w2) 0
      | _, _ => false) = true := by decide +kernel
  split at hb
  · rename_i w1 h1 w2 h2 e1 e2
    simp only [Bool.and_eq_true, decide_eq_true_eq] at hb
    obtain ⟨⟨⟨b1, b2⟩, b3⟩, b4⟩ := hb
    refine ⟨w1, h1, w2, h2, play_runs _ e1, play_runs _ e2, b1, b2, b3, b4, ?_⟩
    obtain ⟨c1, g1⟩ := graphAt_some b3
    obtain ⟨c2, g2⟩ := graphAt_some b4
    have hlook : (run plain true World.init loom).ctx 0 = some ⟨77, 1⟩ := rfl
    have hgr : (run plain true World.init loom).graph 0 = some (0, graphAt (run plain true World.init loom) 0) := by
      obtain ⟨c, e⟩ := graphAt_some (w := run plain true World.init loom) (h := 0) (by decide +kernel)
      have : ((run plain true World.init loom).graph 0).map Prod.fst = some 0 := by decide +kernel
      rw [e] at this ⊢
      simpa using this
    have hk : ((graphAt (run plain true World.init loom) 0).iter plain).all (fun e => e.2.iterSources.all fun p => decide (p.1 ≤ 1)) = true := by
      decide +kernel
    obtain ⟨σ, k1, k2, _, k3⟩ := C55_commit (ks := [1, 2]) plain_named (reaches loom (by decide +kernel)) hlook
      (fun k hk => by
        have : k = 1 ∨ k = 2 := by simpa using hk
        rcases this with rfl | rfl <;> rfl) (fun _ _ => weave_typed) (fun _ _ => weave_generic) hgr
      (fun y n p z hy hz => by
        have := List.all_eq_true.1 hk (y, n) ((Arena.mem_entries ((reachable_of (reaches loom (by decide +kernel)) 0 (by decide +kernel)).inv
          plain_named).arena).2 hy)
        exact of_decide_eq_true (List.all_eq_true.1 this (z, p) (Node.mem_iterSources.2 hz)))
      (play_runs _ e1) (play_runs _ e2) (by decide) (by simp)
      (fun _ _ _ _ => plain_noVec.steadyBidirCalls _ _) (fun _ _ _ _ => plain_noVec.steadyBidirCalls _ _) g1 g2
    exact ⟨σ, k1, k2, k3⟩
  · exact absurd hb (by simp)

/-- A thread that looks at the value of the index it gets. -/
def picky : Thread := fun h =>
  match h with
  | [] => some .allocUntyped
  | [[2]] => some .allocUntyped
  | _ => none

theorem picky_typed : Thread.Typed plain picky := by
  intro h o ho t _
  unfold picky at ho
  split at ho
  · obtain rfl := Option.some.inj ho; trivial
  · obtain rfl := Option.some.inj ho; trivial
  · exact absurd ho (by simp)

/-- C55: the condition `Generic` is needed; such threads can make calls with one schedule that they do not make with another. -/
example : (∃ w h, Runs plain true (fun _ => picky) (run plain true World.init loom) (fun _ => []) [1, 1, 2] w h) ∧
    ¬ ∃ w h, Runs plain true (fun _ => picky) (run plain true World.init loom) (fun _ => []) [2, 1, 1] w h := by
  constructor
  · obtain ⟨w, h, _, e⟩ := play_of (S := plain) (dbg := true) (P := fun _ => picky) (s := [1, 1, 2]) (w := run plain true World.init loom)
      (h := fun _ => []) (by decide +kernel)
    exact ⟨w, h, e⟩
  · rintro ⟨w, h, e⟩
    cases e with
    | step p1 _ h1 e =>
      obtain rfl := Option.some.inj p1
      obtain ⟨t, x, t', cnt, a1, a2, a3⟩ := h1
      cases e with
      | step p2 _ h2 e =>
        obtain rfl := Option.some.inj p2
        have q := handed_of h2
        rw [show handed _ 1 .allocUntyped = some [3] from by decide +kernel] at q
        obtain rfl := Option.some.inj q
        cases e with
        | step p3 _ _ _ => exact absurd p3 (by simp [World.put, picky])

end TTGraph.Demo
