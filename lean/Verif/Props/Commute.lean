import Verif.Demo.Traced
import Verif.Demo.Decls
import Verif.Lemmas.Many

/-!
# Committing in another order: C59
-/

set_option autoImplicit false

namespace TTGraph
open Spec
variable [SetImpl] {S : Schema} {dbg : Bool} {R : World → Call → Prop}

theorem Reaches.any {w : World} (h : Reaches S dbg R w) : Reaches S dbg AnyCall w := by
  induction h with
  | init => exact .init
  | step _ ha _ ih => exact .step ih ha trivial

omit [SetImpl] in
theorem Spec.Independent.symm {v v1 v2 : View} {t1 t2 : Trans} (h : Independent S v t1 t2 v1 v2) : Independent S v t2 t1 v2 v1 := by
  obtain ⟨F1, F2, f1, f2, hd, k1, k2⟩ := h
  exact ⟨F2, F1, f2, f1, fun x h2 h1 => hd x h1 h2, k2, k1⟩

/-- After the commit of one transaction of a program the other one can be committed to the result. -/
theorem Reaches.second {w : World} (hr : Reaches S dbg R w) {h k1 k2 c : Nat} {g g1 : Graph} {t1 t2 : Trans} (hg : w.graph h = some (c, g))
    (ht1 : w.trans k1 = some (c, t1)) (ht2 : w.trans k2 = some (c, t2)) (hne : k1 ≠ k2) (hR : R w (.commit h k1)) (hc : g.commit S dbg t1 = .ok g1) :
    Meets S dbg R g1 t2 := by
  refine ⟨w.exec S dbg (.commit h k1), h, k2, c, .step hr ?_ hR, ?_, ?_⟩
  · intro c1 u1 c2 g2 e1 e2
    rw [ht1, Option.some.injEq, Prod.mk.injEq] at e1
    rw [hg, Option.some.injEq, Prod.mk.injEq] at e2
    rw [← e1.1, ← e2.1]
  · simp [World.exec, ht1, hg, hc, World.setGraph, World.setTrans, World.put]
  · simp [World.exec, ht1, hg, hc, World.setGraph, World.setTrans, World.put, ht2, hne.symm]

/-- Two transactions that concern different nodes can be committed in either order: the nodes afterwards are the same. -/
theorem C59_commute (hw : WellNamed S) {w : World} (hr : Reaches S dbg R w) {h k1 k2 c : Nat} {g g1 g2 g12 g21 : Graph}
    {t1 t2 : Trans} (hg : w.graph h = some (c, g)) (ht1 : w.trans k1 = some (c, t1)) (ht2 : w.trans k2 = some (c, t2)) (hne : k1 ≠ k2)
    (hr1 : Regular t1.pending) (hr2 : Regular t2.pending) (hst1 : SteadyBidir S t1 g.get?) (hst2 : SteadyBidir S t2 g.get?)
    (hi : Independent S g.get? t1 t2 g1.get? g2.get?)
    (hc1 : g.commit S dbg t1 = .ok g1) (hc12 : g1.commit S dbg t2 = .ok g12)
    (hc2 : g.commit S dbg t2 = .ok g2) (hc21 : g2.commit S dbg t1 = .ok g21) : View.Same g12.get? g21.get? := by
  have m1 : Meets S dbg AnyCall g t1 := ⟨w, h, k1, c, hr.any, hg, ht1⟩
  have m2 : Meets S dbg AnyCall g t2 := ⟨w, h, k2, c, hr.any, hg, ht2⟩
  have m12 := hr.any.second hg ht1 ht2 hne trivial hc1
  have m21 := hr.any.second hg ht2 ht1 hne.symm trivial hc2
  have C1 := C03_order hw hst1 m1 hc1
  have C2 := C03_order hw hst2 m2 hc2
  exact hi.commute hr1 hr2 C1 C2 (C03_order hw (hi.steady hr2 C1 C2 hst1 hst2).1 m12 hc12)
    (C03_order hw (hi.symm.steady hr1 C2 C1 hst2 hst1).1 m21 hc21)

/-- In a program without dangling links the second commit returns if both transactions could be committed first, and the first one spares
what the second one relies on. -/
theorem C59_second_returns (hw : WellNamed S) (ho : OneOpposite S) (hd : DeclaredOnce S)
    {w : World} (hr : Reaches S dbg SoundCalls w) {h k1 k2 c : Nat} {g g1 g2 : Graph} {t1 t2 : Trans} (hg : w.graph h = some (c, g))
    (ht1 : w.trans k1 = some (c, t1)) (ht2 : w.trans k2 = some (c, t2)) (hne : k1 ≠ k2) (hs1 : Sound g.get? t1.pending) (hs2 : Sound g.get? t2.pending)
    (hst1 : SteadyBidir S t1 g.get?) (hst2 : SteadyBidir S t2 g.get?) (hva1 : SteadyAnnos S t1 g.get?) (hva2 : SteadyAnnos S t2 g.get?)
    (hr2 : Regular t2.pending) (he2 : NoEmptyLinks t2.pending)
    (hi : Independent S g.get? t1 t2 g1.get? g2.get?) (hsp : Spares t1.pending t2.pending)
    (hc1 : g.commit S dbg t1 = .ok g1) (hc2 : g.commit S dbg t2 = .ok g2) : ∃ g12, g1.commit S dbg t2 = .ok g12 := by
  have m1 : Meets S dbg SoundCalls g t1 := ⟨w, h, k1, c, hr, hg, ht1⟩
  have m2 : Meets S dbg SoundCalls g t2 := ⟨w, h, k2, c, hr, hg, ht2⟩
  have m12 : Meets S dbg SoundCalls g1 t2 := hr.second hg ht1 ht2 hne (by
    intro c1 g' c2 t' e1 e2
    rw [hg, Option.some.injEq, Prod.mk.injEq] at e1
    rw [ht1, Option.some.injEq, Prod.mk.injEq] at e2
    rw [← e1.2, ← e2.2]
    exact hs1) hc1
  have C1 := C03_order hw hst1 m1 hc1
  obtain ⟨hst12, hva12⟩ := hi.steady hr2 C1 (C03_order hw hst2 m2 hc2) hst1 hst2
  obtain ⟨F1, F2, f1, f2, hdis, k1', k2'⟩ := hi
  obtain ⟨v6, out1⟩ := m1.commit hw hc1
  have o1 := (f1.committed C1).2
  have hnone : ∀ y, g1.get? y = none → g.get? y = none ∨ t1.pending.removed y := by
    intro y hy
    rcases (CommitOut.none_iff out1 y).1 hy with ⟨h1, _⟩ | h1
    · exact .inl h1
    · exact .inr h1
  have hkeep : ∀ y, g.get? y ≠ none → ¬ t1.pending.removed y → g1.get? y ≠ none := fun y h1 h2 hn => (hnone y hn).elim h1 h2
  refine (commit_moved hw ho hd hst2 hst12 hva2 (hva12 hva1 hva2) m2 m12 hs2 hr2 he2 f2 (o1.within fun x hx hc => hdis x hc hx) ?_ hkeep hsp.1
    (fun x s y hx hs hc => hdis x (f1.holders x s y hs (.inr hc)) hx) ?_ hc2).2
  · intro x s y hx hs hdisp
    by_cases hx1 : F1 x
    · exact k1' x s y hx1 hs hdisp
    · exact hx (f2.holders x s y ((o1.holds_on (x := x) hx1 s y).1 hs) hdisp)
  · intro y n0 n hn0 hn
    have hnr : ¬ t1.pending.removed y := fun hc => by
      rw [(CommitOut.none_iff out1 y).2 (.inr hc)] at hn
      exact absurd hn (by simp)
    obtain ⟨n1, hn1, hd1⟩ := committed_disc hsp.2 C1 hn0 hnr
    rw [hn, Option.some.injEq] at hn1
    rw [hn1, hd1]

/-- In a program without dangling links, two transactions that concern different nodes, spare each other and can both be committed: either
order of the commits returns, and the nodes afterwards are the same. -/
theorem C59_any_order (hw : WellNamed S) (ho : OneOpposite S) (hd : DeclaredOnce S)
    {w : World} (hr : Reaches S dbg SoundCalls w) {h k1 k2 c : Nat} {g g1 g2 : Graph} {t1 t2 : Trans} (hg : w.graph h = some (c, g))
    (ht1 : w.trans k1 = some (c, t1)) (ht2 : w.trans k2 = some (c, t2)) (hne : k1 ≠ k2) (hs1 : Sound g.get? t1.pending) (hs2 : Sound g.get? t2.pending)
    (hst1 : SteadyBidir S t1 g.get?) (hst2 : SteadyBidir S t2 g.get?) (hva1 : SteadyAnnos S t1 g.get?) (hva2 : SteadyAnnos S t2 g.get?)
    (hr1 : Regular t1.pending) (hr2 : Regular t2.pending) (he1 : NoEmptyLinks t1.pending) (he2 : NoEmptyLinks t2.pending)
    (hi : Independent S g.get? t1 t2 g1.get? g2.get?) (hsp1 : Spares t1.pending t2.pending) (hsp2 : Spares t2.pending t1.pending)
    (hc1 : g.commit S dbg t1 = .ok g1) (hc2 : g.commit S dbg t2 = .ok g2) :
    ∃ g12 g21, g1.commit S dbg t2 = .ok g12 ∧ g2.commit S dbg t1 = .ok g21 ∧ View.Same g12.get? g21.get? := by
  obtain ⟨g12, h12⟩ := C59_second_returns hw ho hd hr hg ht1 ht2 hne hs1 hs2 hst1 hst2 hva1 hva2 hr2 he2 hi hsp1 hc1 hc2
  obtain ⟨g21, h21⟩ := C59_second_returns hw ho hd hr hg ht2 ht1 hne.symm hs2 hs1 hst2 hst1 hva2 hva1 hr1 he1 hi.symm hsp2 hc2 hc1
  exact ⟨g12, g21, h12, h21, C59_commute hw hr hg ht1 ht2 hne hr1 hr2 hst1 hst2 hi hc1 h12 hc2 h21⟩

end TTGraph

namespace TTGraph
namespace Demo
open Spec

/-- `Footprint` by evaluation (all ends of changed links are required to be in `F`). -/
def footprint [SetImpl] (S : Schema) (g : Graph) (t : Trans) (F : List NodeIndex) : Bool :=
  (t.inc.entries S).all (fun e => decide (e.1 ∈ F)) && (t.muts ++ t.upds).all (fun p => decide (p.1 ∈ F)) && t.dec.elems.all (fun i => decide (i ∈ F)) &&
  (g.nodes.entries S).all (fun e => e.2.iterSources.all fun p => decide (e.1 ∈ F) ||
    !(((t.redir ++ t.redirAll).any fun q => decide (q.1 = p.1)) || decide (p.1 ∈ t.dec.elems))) &&
  match Graph.perform S g t with
  | .error _ => false
  | .ok (g6, _) => (g6.nodes.entries S).all (fun e => e.2.iterSources.all fun p => decide (p.1 ∈ F) ||
        ((g.get? e.1).map fun n => n.iterSources.any fun q => decide (q.1 = p.1 ∧ q.2.mirror = p.2.mirror)).getD false) &&
      (g.nodes.entries S).all (fun e => e.2.iterSources.all fun p => decide (p.1 ∈ F) ||
        ((g6.get? e.1).map fun n => n.iterSources.any fun q => decide (q.1 = p.1 ∧ q.2.mirror = p.2.mirror)).getD false)

theorem link_of_any {a b : Graph} {S : Schema} {F : List NodeIndex} (ha : a.nodes.Inv S)
    (h : ((a.nodes.entries S).all (fun e => e.2.iterSources.all fun p => decide (p.1 ∈ F) ||
      ((b.get? e.1).map fun n => n.iterSources.any fun q => decide (q.1 = p.1 ∧ q.2.mirror = p.2.mirror)).getD false)) = true)
    {x : NodeIndex} {m : Mirror} {y : NodeIndex} (hl : View.Link a.get? x m y) (hn : ¬ View.Link b.get? x m y) : y ∈ F := by
  obtain ⟨n, hn1, sl, hh⟩ := hl
  simp only [List.all_eq_true, Bool.or_eq_true, decide_eq_true_eq] at h
  rcases h _ ((Arena.mem_entries ha).2 hn1) _ (Node.mem_iterSources.2 hh) with h | h
  · exact h
  · exfalso
    cases e : b.get? x with
    | none => simp [e] at h
    | some n' =>
      simp only [e, Option.map_some, Option.getD_some, List.any_eq_true, decide_eq_true_eq] at h
      obtain ⟨⟨y', s'⟩, hq, rfl, hm⟩ := h
      have hq' := Node.mem_iterSources.1 hq
      refine hn ⟨n', e, s'.slot, ?_⟩
      obtain ⟨d, i, k⟩ := s'
      simp only [Source.mirror, Mirror.mk.injEq] at hm
      rw [← hm.1, ← hm.2]
      exact hq'

theorem footprint_sound [SetImpl] {S : Schema} {g : Graph} {t : Trans} {F : List NodeIndex} (hS : S.discs.Nodup) {e0 : Prop} (hg : g.Inv S e0) (ht : t.Good S)
    (hd : g.nodes.Disjoint t.inc) (hz : t.NoFromEmpty) (hreg : Regular t.pending) (h : footprint S g t F = true) :
    Footprint S t g.get? (· ∈ F) := by
  simp only [footprint, Bool.and_eq_true] at h
  obtain ⟨⟨⟨⟨h1, h2⟩, h3⟩, h4⟩, h5⟩ := h
  simp only [List.all_eq_true, decide_eq_true_eq] at h1 h2 h3
  refine ⟨fun i hi => ?_, fun i f hf => h2 (i, f) hf, fun i hi => h3 i hi, fun x s y hh hdis => ?_, fun v6 hp x m y m' hl _ => ?_⟩
  · obtain ⟨n, hn⟩ := Option.ne_none_iff_exists'.1 hi
    exact h1 (i, n) ((Arena.mem_entries ht.inv).2 hn)
  · obtain ⟨n, hn, hh⟩ := hh
    simp only [List.all_eq_true, Bool.or_eq_true, decide_eq_true_eq] at h4
    rcases h4 _ ((Arena.mem_entries hg.arena).2 hn) _ (Node.mem_iterSources.2 hh) with h | h
    · exact h
    · exfalso
      simp only [Bool.not_eq_true', Bool.or_eq_false_iff, decide_eq_false_iff_not, List.any_eq_false, decide_eq_true_eq] at h
      rcases hdis with ⟨new, hr⟩ | hr
      · exact h.1 (y, new) (List.mem_append.2 hr) rfl
      · exact h.2 hr
  · cases e : Graph.perform S g t with
    | error _ => rw [e] at h5; exact absurd h5 (by simp)
    | ok st =>
      obtain ⟨g6, r6⟩ := st
      rw [e] at h5
      simp only [Bool.and_eq_true] at h5
      have out := Graph.perform_out hS hg ht hd hz e
      have hsame := performed_same rfl hreg.redir hreg.redirAll (fun p hp => hreg.closures p.1 p.2 hp) (.refl _) hp out.performed
      rcases hl with ⟨_, k1, k2⟩ | ⟨_, k1, k2⟩
      · exact link_of_any out.inv.arena h5.1 ((hsame.link x m y).2 k1) k2
      · exact link_of_any hg.arena h5.2 k1 fun hc => k2 ((hsame.link x m y).1 hc)

/-- No node with index in `F` links to a node that the transaction redirects or removes, by evaluation. -/
def clear (S : Schema) (g : Graph) (t : Trans) (F : List NodeIndex) : Bool :=
  (g.nodes.entries S).all fun e => e.2.iterSources.all fun p => !decide (e.1 ∈ F) ||
    !(((t.redir ++ t.redirAll).any fun q => decide (q.1 = p.1)) || decide (p.1 ∈ t.dec.elems))

theorem clear_sound {S : Schema} {g : Graph} {t : Trans} {F : List NodeIndex} (hg : g.nodes.Inv S) (h : clear S g t F = true) :
    ∀ x s y, x ∈ F → View.Holds g.get? x s y → ¬ Displaces t.pending y := by
  rintro x s y hx ⟨n, hn, hh⟩ hdis
  simp only [clear, List.all_eq_true, Bool.or_eq_true] at h
  rcases h _ ((Arena.mem_entries hg).2 hn) _ (Node.mem_iterSources.2 hh) with h | h
  · simp [hx] at h
  · simp only [Bool.not_eq_true', Bool.or_eq_false_iff, decide_eq_false_iff_not, List.any_eq_false, decide_eq_true_eq] at h
    rcases hdis with ⟨new, hr⟩ | hr
    · exact h.1 (y, new) (List.mem_append.2 hr) rfl
    · exact h.2 hr

/-- The hypotheses about closures that replace a node by another one of the same variant. -/
theorem keep_regular {p : Pending} {l : List (NodeIndex × Node)} (hm : p.muts ++ p.upds = l.map fun e => (e.1, keep e.2))
    (hl : (l.all fun e => e.2.iterSources.all fun q => decide (q.1 ≠ emptyIdx)) = true) (hr : (p.redir.map Prod.fst).Nodup)
    (hra : (p.redirAll.map Prod.fst).Nodup) : Regular p ∧ NoEmptyLinks p := by
  refine ⟨⟨hr, hra, fun i f hf => ?_⟩, fun i f hf n n' hn s hh => ?_⟩
  · rw [hm] at hf
    obtain ⟨e, _, he⟩ := List.mem_map.1 hf
    simp only [Prod.mk.injEq] at he
    rw [← he.2]
    intro a b hab
    have hd : b.disc = a.disc := hab.1
    by_cases hc : a.disc = e.2.disc
    · exact .inr ⟨e.2, e.2, by simp [keep, hc], by simp [keep, hd, hc], Node.Same.refl _⟩
    · exact .inl ⟨.user, by simp [keep, hc], by simp [keep, hd, hc]⟩
  · rw [hm] at hf
    obtain ⟨e, h1, he⟩ := List.mem_map.1 hf
    simp only [Prod.mk.injEq] at he
    rw [← he.2] at hn
    obtain rfl : e.2 = n' := by
      by_cases hc : n.disc = e.2.disc
      · simpa [keep, hc] using hn
      · simp [keep, hc] at hn
    simp only [List.all_eq_true, decide_eq_true_eq] at hl
    exact hl e h1 _ (Node.mem_iterSources.2 hh) rfl

/-- `Spares` by evaluation, where the closures of `t` and `t'` replace nodes by those in `l` and `l'`. -/
def spares (S : Schema) (t t' : Trans) (l' : List (NodeIndex × Node)) : Bool :=
  t.dec.elems.all fun y => !decide (y ∈ targets S t'.inc) && (t'.redir ++ t'.redirAll).all (fun q => decide (q.1 ≠ y ∧ q.2 ≠ y)) &&
    l'.all fun e => e.2.iterSources.all fun q => decide (q.1 ≠ y)

theorem spares_sound {S : Schema} {t t' : Trans} {l l' : List (NodeIndex × Node)} (hi : t'.inc.Inv S)
    (hm : t.pending.muts ++ t.pending.upds = l.map fun e => (e.1, keep e.2)) (hm' : t'.pending.muts ++ t'.pending.upds = l'.map fun e => (e.1, keep e.2))
    (h : spares S t t' l' = true) : Spares t.pending t'.pending := by
  simp only [spares, List.all_eq_true, Bool.and_eq_true, Bool.not_eq_true', decide_eq_false_iff_not, decide_eq_true_eq] at h
  refine ⟨fun y hy hmen => ?_, fun i f hf => ?_⟩
  · obtain ⟨⟨h1, h2⟩, h3⟩ := h y hy
    rcases hmen with ⟨x, s, n, hn, hh⟩ | ⟨z, hz | hz⟩ | ⟨i, f, n, n', s, hf, hn, hh, _⟩
    · exact h1 (List.mem_flatMap.2 ⟨(x, n), (Arena.mem_entries hi).2 hn, List.mem_map.2 ⟨(y, s), Node.mem_iterSources.2 hh, rfl⟩⟩)
    · exact (h2 _ hz).1 rfl
    · exact (h2 _ hz).2 rfl
    · rw [hm'] at hf
      obtain ⟨e, h4, he⟩ := List.mem_map.1 hf
      simp only [Prod.mk.injEq] at he
      rw [← he.2] at hn
      obtain rfl : e.2 = n' := by
        by_cases hc : n.disc = e.2.disc
        · simpa [keep, hc] using hn
        · simp [keep, hc] at hn
      exact h3 e h4 _ (Node.mem_iterSources.2 hh) rfl
  · rw [hm] at hf
    obtain ⟨e, _, he⟩ := List.mem_map.1 hf
    simp only [Prod.mk.injEq] at he
    rw [← he.2]
    exact keep_keeps _

/-- Two parts, 1 (variant A, linked with 2), 2, 3 and 4 (linked with 5), 5, 6, and two transactions.  The first one redirects the link of 1 to
3, updates 3 and inserts 7 linked with 3; the second one removes 5, mutates 4 and inserts 8, both linked with 6. -/
def two6 : List Step :=
  [.call (.newContext 0 77), .call (.newGraph 0 0), .call (.newTrans 0 0), .call (.op 0 (.insert (pA 2 []))), .call (.op 0 (.insert (pB [] 0))),
   .call (.op 0 (.insert (pB [] 0))), .call (.op 0 (.insert (pA 5 []))), .call (.op 0 (.insert (pB [] 0))), .call (.op 0 (.insert (pB [] 0))),
   .call (.commit 0 0), .call (.newTrans 1 0), .call (.newTrans 2 0),
   .call (.op 1 (.redirectLinks 2 3)), .call (.op 1 (.insert (pA 3 []))), .swap 1 3 (pB [1] 7),
   .call (.op 2 (.insert (pA 6 []))), .edit 2 4 (pA 6 []), .call (.op 2 (.remove 5))]

theorem two6_sound : Reaches typed true SoundCalls (run typed true World.init two6) :=
  reaches_sound (us := []) typed_named two6 .init (fun _ _ h => absurd h (by simp [World.init])) (by decide +kernel)

/-- The world at the end of `two6`, its graph and transactions, and the graphs after each commit. -/
def two6w : World := run typed true World.init two6
def two6g : Graph := graphAt two6w 0
def two6a : Trans := transAt two6w 1
def two6b : Trans := transAt two6w 2
def two6ga : Graph := ((two6g.commit typed true two6a).toOption).getD (Graph.new 0)
def two6gb : Graph := ((two6g.commit typed true two6b).toOption).getD (Graph.new 0)

theorem two6_a : two6g.commit typed true two6a = .ok two6ga := got_ok (d := Graph.new 0) (by decide +kernel)
theorem two6_b : two6g.commit typed true two6b = .ok two6gb := got_ok (d := Graph.new 0) (by decide +kernel)

theorem two6_at : ∃ c, two6w.graph 0 = some (c, two6g) ∧ two6w.trans 1 = some (c, two6a) ∧ two6w.trans 2 = some (c, two6b) :=
  ⟨0, rfl, rfl, rfl⟩

theorem two6_regular : (Regular two6a.pending ∧ NoEmptyLinks two6a.pending) ∧ Regular two6b.pending ∧ NoEmptyLinks two6b.pending :=
  ⟨keep_regular (l := [(3, pB [1] 7)]) rfl (by decide +kernel) (by decide +kernel) (by decide +kernel),
   keep_regular (l := [(4, pA 6 [])]) rfl (by decide +kernel) (by decide +kernel) (by decide +kernel)⟩

theorem two6_meets : Meets typed true SoundCalls two6g two6a ∧ Meets typed true SoundCalls two6g two6b :=
  ⟨meets_of two6_sound 0 1 (by decide +kernel), meets_of two6_sound 0 2 (by decide +kernel)⟩

theorem two6_independent : Independent typed two6g.get? two6a two6b two6ga.get? two6gb.get? := by
  obtain ⟨ma, mb⟩ := two6_meets
  have ra := ma.ready typed_named
  have rb := mb.ready typed_named
  have ia := (ma.commit typed_named two6_a).choose_spec.inv
  have ib := (mb.commit typed_named two6_b).choose_spec.inv
  refine ⟨(· ∈ [1, 2, 3, 7]), (· ∈ [4, 5, 6, 8]),
    footprint_sound typed_named.variants (ma.inv typed_named) ra.good (ma.disjoint typed_named).1 ra.noFrom two6_regular.1.1
      (by decide +kernel),
    footprint_sound typed_named.variants (mb.inv typed_named) rb.good (mb.disjoint typed_named).1 rb.noFrom two6_regular.2.1
      (by decide +kernel), ?_, clear_sound ia.arena (by decide +kernel), clear_sound ib.arena (by decide +kernel)⟩
  intro x hx hx'
  simp only [List.mem_cons, List.not_mem_nil, or_false] at hx hx'
  rcases hx with rfl | rfl | rfl | rfl <;> exact absurd hx' (by decide)

/-- C59: all hypotheses hold for the two transactions. -/
example : ∃ g12 g21, two6ga.commit typed true two6b = .ok g12 ∧ two6gb.commit typed true two6a = .ok g21 ∧ View.Same g12.get? g21.get? := by
  obtain ⟨c, hg, h1, h2⟩ := two6_at
  obtain ⟨ma, mb⟩ := two6_meets
  have ga := (ma.ready typed_named).good.inv
  have gb := (mb.ready typed_named).good.inv
  obtain ⟨⟨ra, ea⟩, rb, eb⟩ := two6_regular
  exact C59_any_order typed_named typed_one typed_once two6_sound hg h1 h2 (by decide)
    (sound_sound ga (by decide +kernel)) (sound_sound gb (by decide +kernel)) (typed_noVec.steadyBidir _ _) (typed_noVec.steadyBidir _ _)
    (typed_noVecAnnos.steady _ _) (typed_noVecAnnos.steady _ _) ra rb ea eb two6_independent
    (spares_sound (l := [(3, pB [1] 7)]) (l' := [(4, pA 6 [])]) gb rfl rfl (by decide +kernel))
    (spares_sound (l := [(4, pA 6 [])]) (l' := [(3, pB [1] 7)]) ga rfl rfl (by decide +kernel)) two6_a two6_b

/-- What the two commits make of nodes of both parts, for comparison. -/
example : (two6ga.commit typed true two6b).map (fun g => (g.get? 1, g.get? 3, g.get? 4, g.get? 6, g.get? 5)) =
    .ok (some (pA 3 []), some (pB [1, 7] 7), some (pA 6 []), some (pB [8, 4] 0), none) := by decide +kernel

/-- Nodes 1 and 2, and two transactions: one inserts node 3 with a link to 1, the other redirects links from 1 to 2. -/
def cross2 : List Step :=
  [.call (.newContext 0 77), .call (.newGraph 0 0), .call (.newTrans 0 0), .call (.op 0 (.insert (nB 0))), .call (.op 0 (.insert (nB 0))),
   .call (.commit 0 0), .call (.newTrans 1 0), .call (.newTrans 2 0), .call (.op 1 (.insert (nB 1))), .call (.op 2 (.redirectLinks 1 2))]

/-- C59 needs that neither transaction leaves links to what the other one redirects: here both orders return, the nodes that the two
transactions insert, change or find linked are different ones, and the results differ. -/
theorem C59_cross_differ : let w := run plain true World.init cross2
    let g := graphAt w 0
    ∃ g1 g2 g12 g21, Reaches plain true SoundCalls w ∧ g.commit plain true (transAt w 1) = .ok g1 ∧ g1.commit plain true (transAt w 2) = .ok g12 ∧
      g.commit plain true (transAt w 2) = .ok g2 ∧ g2.commit plain true (transAt w 1) = .ok g21 ∧
      g12.get? 3 = some (nB 2) ∧ g21.get? 3 = some (nB 1) :=
  ⟨_, _, _, _, reaches_sound (us := []) plain_named cross2 .init (fun _ _ h => absurd h (by simp [World.init])) (by decide +kernel),
    got_ok (d := Graph.new 0) (by decide +kernel), got_ok (d := Graph.new 0) (by decide +kernel), got_ok (d := Graph.new 0) (by decide +kernel),
    got_ok (d := Graph.new 0) (by decide +kernel), by decide +kernel, by decide +kernel⟩

end Demo
end TTGraph
