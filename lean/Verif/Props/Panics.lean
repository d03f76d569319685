import Verif.Lemmas.TransLeft
import Verif.Props.Transactions

/-!
# Going on with a transaction after a panic: C51
-/

set_option autoImplicit false

namespace TTGraph
open Spec
variable [SetImpl] {S : Schema} {dbg : Bool} {R : World → Call → Prop}

/-- A call of `fill_back` or `fill_back_untyped` that panics leaves the transaction as it was, unless the index is taken.

Full statement of C51: every call that panics leaves the transaction as it was.  That is false, see `C51_fill_fails`, `C51_mutate_fails` and
`C51_update_fails`. -/
theorem C51_unchanged_partial (hw : WellNamed S) (part : Node → Node) {t : Trans} {cnt : Nat} {o : TOp} {e : Panic}
    (h : Building S dbg R t cnt) (hr : o.run t cnt = .error e) (hfree : ∀ i, target o = some i → t.pending.new i = none) :
    o.left part t = t := by
  rcases TOp.left_cases hw part h hr with h1 | ⟨i, n, m, h1, h2, _⟩ | ⟨i, f, n, rfl, h2, _⟩
  · exact h1
  · have ht : target o = some i := by
      rcases h1 with (rfl | rfl) | ⟨⟨f, rfl⟩, _⟩ <;> rfl
    rw [hfree i ht] at h2
    exact absurd h2 (by simp)
  · rw [hfree i rfl] at h2
    exact absurd h2 (by simp)

/-- What a panic can change at most: the one pending node that the call names.  An index that is taken gets the new node, a node whose
`mutate` closure panicked is left as the closure left it, one whose `update` closure panicked is gone. -/
theorem C51_extent (hw : WellNamed S) (part : Node → Node) {t : Trans} {cnt : Nat} {o : TOp} {e : Panic}
    (h : Building S dbg R t cnt) (hr : o.run t cnt = .error e) :
    (o.left part t).pending = t.pending ∨
    ∃ i n r, target o = some i ∧ t.pending.new i = some n ∧ (o.left part t).pending = { t.pending with new := upd t.pending.new i r } ∧
      ((∃ m, (o = .fillBack i m ∨ o = .fillBackUntyped i m) ∧ r = some m) ∨ ((∃ f, o = .mutate i f) ∧ r = some (part n)) ∨
        ((∃ f, o = .update i f) ∧ r = none)) := by
  rcases TOp.left_cases hw part h hr with h1 | ⟨i, n, m, h1, h2, h3⟩ | ⟨i, f, n, rfl, h2, h3⟩
  · exact .inl (congrArg Trans.pending h1)
  · refine .inr ⟨i, n, some m, ?_, h2, ?_, ?_⟩
    · rcases h1 with (rfl | rfl) | ⟨⟨f, rfl⟩, _⟩ <;> rfl
    · rcases Trans.mutate_cases t i (fun _ => .ok m) with ⟨hn, _⟩ | ⟨_, _, _, hf, _⟩ | ⟨n0, n', a, _, hf, x, hg, _⟩
      · have h2 : t.inc.get? i = some n := h2
        rw [hn] at h2; exact absurd h2 (by simp)
      · exact absurd hf (by simp)
      · rw [x, Except.ok.injEq] at h3
        rw [← h3]
        simp only [Except.ok.injEq] at hf
        subst hf
        simp only [Trans.pending, Pending.mk.injEq, and_true]
        funext j
        rw [hg j]
        simp only [upd]
        by_cases hj : i = j
        · rw [if_pos hj, if_pos hj.symm]
        · rw [if_neg hj, if_neg (fun e => hj e.symm)]
    · rcases h1 with h1 | ⟨h1, rfl⟩
      · exact .inl ⟨m, h1, rfl⟩
      · exact .inr (.inl ⟨h1, rfl⟩)
  · exact .inr ⟨i, n, none, rfl, h2, h3, .inr (.inr ⟨⟨f, rfl⟩, rfl⟩)⟩

/-- Unless the panic was in an `update` closure, the program can go on: the transaction is one that it could have built without the panic, so
everything that holds for the transactions of programs holds for it too. -/
theorem C51_goes_on (hw : WellNamed S) (part : Node → Node) (hpart : ∀ n, S.WT n → S.WT (part n)) {t : Trans} {cnt : Nat}
    {o : TOp} {e : Panic} (h : Building S dbg AnyCall t cnt) (ho : (∃ i n, o = .fillBackUntyped i n ∧ S.WT n) ∨ o.Allowed S t)
    (hu : ∀ i f, o ≠ .update i f) (hr : o.run t cnt = .error e) : Building S dbg AnyCall (o.left part t) cnt := by
  rcases TOp.left_cases hw part h hr with h1 | ⟨i, n, m, h1, h2, h3⟩ | ⟨i, f, n, rfl, h2, h3⟩
  · rw [h1]; exact h
  · have hm : S.WT m := by
      rcases h1 with (rfl | rfl) | ⟨⟨f, rfl⟩, rfl⟩
      · rcases ho with ⟨_, _, e, _⟩ | ho
        · exact absurd e (by simp)
        · exact ho
      · rcases ho with ⟨_, _, e, ho⟩ | ho
        · simp only [TOp.fillBackUntyped.injEq] at e
          exact e.2 ▸ ho
        · exact ho.1
      · exact hpart _ ((h.ready hw).1.good.wt i n h2)
    obtain ⟨w, k, c, x, hreach, ht, hx, rfl⟩ := h
    have hstep := hreach.step (c := .op k (.mutate i (fun _ => .ok m))) (fun c t _ => (fun n0 n' _ e => by
      simp only [Except.ok.injEq] at e
      exact e ▸ hm)) trivial
    refine ⟨_, k, c, x, hstep, ?_, ?_, rfl⟩
    · simp only [World.exec, ht, hx, TOp.run, h3, Except.map]
      simp [World.setTrans, World.put]
    · simp only [World.exec, ht, hx, TOp.run, h3, Except.map]
      simp [World.setTrans, World.issue, World.put]
  · exact absurd rfl (hu i f)

omit [SetImpl] in
/-- A panic in an `update` closure has the effect of `remove`: what is pending afterwards is what is pending after withdrawing the node. -/
theorem C51_update_removes (part : Node → Node) {t : Trans} {cnt : Nat} {i : NodeIndex} {f : Closure} {e : Panic} (hr : (TOp.update i f).run t cnt = .error e) :
    (TOp.left part t (.update i f)).pending = (t.remove i).pending := by
  rcases Trans.update_cases t i f with ⟨_, x⟩ | ⟨n, e', hi, hf, x⟩ | ⟨_, _, _, _, _, x, _⟩
  · simp only [TOp.run, x, Except.map] at hr; exact absurd hr (by simp)
  · rw [TOp.left_update part hi]
    rcases Trans.remove_cases t i with ⟨_, h2⟩ | ⟨h2, _⟩ | ⟨h2, _⟩
    · rw [h2]
      simp only [Trans.pending, Pending.mk.injEq, and_true]
      funext j
      simp only [upd, Arena.remove_get?, eq_comm]
    · rw [hi] at h2; exact absurd h2 (by simp)
    · rw [hi] at h2; exact absurd h2 (by simp)
  · simp only [TOp.run, x, Except.map] at hr; exact absurd hr (by simp)

end TTGraph

namespace TTGraph.Demo
open Spec

/-- The value that a panicking `mutate` closure has left: the data is changed already. -/
def touched (n : Node) : Node := if n.disc = 1 then ⟨1, n.links, [⟨100, 9⟩]⟩ else n

/-- An empty graph and a transaction with the nodes 1 and 2, and the allocated index 3. -/
def panic3 : List Step :=
  [.call (.newContext 0 77), .call (.newGraph 0 0), .call (.newTrans 0 0), .call (.op 0 (.insert (nA 2 [] [] 5))), .call (.op 0 (.insert (nB 1))),
   .call (.op 0 (.alloc 2))]

theorem panic3_building : Building plain true AnyCall (transAt (run plain true World.init panic3) 0) 3 :=
  building_of (reaches panic3 (by decide +kernel)) 0 (by decide +kernel)

/-- C51: filling the unknown index 7, or the index 3 with a node of the wrong variant, panics and leaves the transaction as it was. -/
example : let t := transAt (run plain true World.init panic3) 0
    (TOp.fillBack 7 (nB 0)).run t 3 = .error .fillNonexisting ∧ (TOp.fillBack 3 (nA 0 [] [] 0)).run t 3 = .error .fillType ∧
    (∀ i, target (TOp.fillBack 7 (nB 0)) = some i → t.pending.new i = none) ∧
    ∀ i, target (TOp.fillBack 3 (nA 0 [] [] 0)) = some i → t.pending.new i = none := by
  refine ⟨rfl, rfl, ?_, ?_⟩ <;> intro i hi <;> simp only [target, Option.some.injEq] at hi <;> subst hi <;> decide +kernel

/-- C51: for `C51_extent` and `C51_goes_on`, a panicking `mutate` of a pending node. -/
example : let t := transAt (run plain true World.init panic3) 0
    let o : TOp := .mutate 1 (fun _ => .error .user)
    (∀ n, plain.WT n → plain.WT (touched n)) ∧ o.Allowed plain t ∧ (∀ i f, o ≠ .update i f) ∧ o.run t 3 = .error .user := by
  refine ⟨?_, fun _ _ _ e => absurd e (by simp), fun _ _ e => absurd e (by simp), rfl⟩
  rintro n ⟨sd, h1, h2, h3⟩
  unfold touched
  by_cases hd : n.disc = 1
  · rw [if_pos hd]
    rw [hd] at h1
    have h4 : sd = ⟨[lnk 10 .direct, lnk 11 .set, lnk 12 .vec, dat 13 100], []⟩ := by
      rw [show plain.struct? 1 = some ⟨[lnk 10 .direct, lnk 11 .set, lnk 12 .vec, dat 13 100], []⟩ from by decide +kernel, Option.some.injEq] at h1
      exact h1.symm
    exact ⟨sd, h1, h2, by rw [h4]; rfl⟩
  · rw [if_neg hd]
    exact ⟨sd, h1, h2, h3⟩

/-- C51 fails: `fill_back` on an index that is taken panics, and the node has been replaced. -/
theorem C51_fill_fails : let t := transAt (run plain true World.init panic3) 0
    (TOp.fillBack 2 (nB 3)).Allowed plain t ∧ (TOp.fillBack 2 (nB 3)).run t 3 = .error .fillOccupied ∧ t.pending.new 2 = some (nB 1) ∧
    (TOp.left touched t (.fillBack 2 (nB 3))).pending.new 2 = some (nB 3) :=
  ⟨wt_sound (by decide +kernel), rfl, by decide +kernel, by decide +kernel⟩

/-- C51 fails: a `mutate` closure that panics half way leaves the pending node half changed. -/
theorem C51_mutate_fails : let t := transAt (run plain true World.init panic3) 0
    (TOp.mutate 1 (fun _ => .error .user)).run t 3 = .error .user ∧ t.pending.new 1 = some (nA 2 [] [] 5) ∧
    (TOp.left touched t (.mutate 1 (fun _ => .error .user))).pending.new 1 = some (nA 2 [] [] 9) :=
  ⟨rfl, by decide +kernel, by decide +kernel⟩

/-- C51 fails: a pending node whose `update` closure panics is lost.  It is not waiting to be filled either, so that a commit, even in a debug
build, returns, and the graph has a link to a node that does not exist. -/
theorem C51_update_fails : let w := run plain true World.init (panic3 ++ [.call (.op 0 (.remove 3))])
    let t := transAt w 0
    let t' := TOp.left touched t (.update 2 (fun _ => .error .user))
    Meets plain true AnyCall (graphAt w 0) t ∧ (TOp.update 2 (fun _ => .error .user)).run t 3 = .error .user ∧ t.pending.new 2 = some (nB 1) ∧
    t'.pending.new 2 = none ∧ (¬ t'.pending.unfilled 2) ∧
    ∃ g', (graphAt w 0).commit plain true t' = .ok g' ∧ g'.get? 1 = some (nA 2 [] [] 5) ∧ g'.get? 2 = none :=
  ⟨meets_of (reaches _ (by decide +kernel)) 0 0 (by decide +kernel), rfl, by decide +kernel, by decide +kernel, (by decide +kernel : (2 : Nat) ∉ _),
    _, got_ok (d := Graph.new 0) (by decide +kernel), by decide +kernel⟩

end TTGraph.Demo
