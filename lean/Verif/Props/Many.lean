import Verif.Lemmas.Many
import Verif.Props.Commute

/-!
# Committing many transactions in any order: C59
-/

set_option autoImplicit false

namespace TTGraph
open Spec
variable [SetImpl] {S : Schema} {dbg : Bool} {R : World → Call → Prop}

/-- Any number of transactions, each of which could be committed to the graph and which concern different nodes, are committed one after the
other.  If all commits return, every node of the part of a transaction is as this transaction alone would have left it, and the other nodes
are as they were: the order of the commits does not matter. -/
theorem C59_parts (hw : WellNamed S) {w : World} (hr : Reaches S dbg R w) {h c c1 : Nat} {g g1 : Graph} {ks : List Nat}
    {t : Nat → Trans} {g' : Nat → Graph} {F : Nat → NodeIndex → Prop} (hg : w.graph h = some (c, g)) (hn : ks.Nodup)
    (ht : ∀ k ∈ ks, w.trans k = some (c, t k)) (hreg : ∀ k ∈ ks, Regular (t k).pending) (hst : ∀ k ∈ ks, SteadyBidir S (t k) g.get?)
    (hc : ∀ k ∈ ks, g.commit S dbg (t k) = .ok (g' k))
    (hs : Separate S g.get? ks t (fun k => (g' k).get?) F) (hall : (runCalls S dbg w (ks.map (.commit h))).graph h = some (c1, g1)) :
    (∀ k ∈ ks, ∀ x, F k x → SameAt (g' k).get? g1.get? x) ∧ ∀ x, (∀ k ∈ ks, ¬ F k x) → SameAt g.get? g1.get? x := by
  have hco : ∀ k ∈ ks, Committed S (t k) g.get? (g' k).get? := fun k hk =>
    C03_order hw (hst k hk) (R := AnyCall) ⟨w, h, k, c, hr.any, hg, ht k hk⟩ (hc k hk)
  have := parts_aux hw (g := g) ks [] w g hr.any hg ht (fun k hk => ⟨hreg k hk, hst k hk, hco k hk⟩) hs hn
    ⟨fun k hk => absurd hk (by simp), fun x _ => .refl _ x⟩ c1 g1 hall
  exact ⟨this.past, this.rest⟩

/-- In a program without dangling links, any number of transactions that concern different nodes, spare each other and could each be committed
to the graph can be committed one after the other: all commits return. -/
theorem C59_all_return (hw : WellNamed S) (ho : OneOpposite S) (hd : DeclaredOnce S)
    {w : World} (hr : Reaches S dbg SoundCalls w) {h c : Nat} {g : Graph} {ks : List Nat} {t : Nat → Trans} {g' : Nat → Graph}
    {F : Nat → NodeIndex → Prop} (hg : w.graph h = some (c, g)) (hn : ks.Nodup) (ht : ∀ k ∈ ks, w.trans k = some (c, t k))
    (hst : ∀ k ∈ ks, SteadyBidir S (t k) g.get?) (hva : ∀ k ∈ ks, SteadyAnnos S (t k) g.get?)
    (hsd : ∀ k ∈ ks, Sound g.get? (t k).pending) (hreg : ∀ k ∈ ks, Regular (t k).pending) (hne : ∀ k ∈ ks, NoEmptyLinks (t k).pending)
    (hc : ∀ k ∈ ks, g.commit S dbg (t k) = .ok (g' k)) (hs : Separate S g.get? ks t (fun k => (g' k).get?) F)
    (hsp : ∀ k ∈ ks, ∀ l ∈ ks, k ≠ l → Spares (t k).pending (t l).pending) :
    ∃ g1, (runCalls S dbg w (ks.map (.commit h))).graph h = some (c, g1) ∧ Reaches S dbg SoundCalls (runCalls S dbg w (ks.map (.commit h))) :=
  all_aux hw ho hd hst hva (fun k hk => ⟨w, h, k, c, hr, hg, ht k hk⟩) hreg hsd hne hc hsp hs hn ks [] w g rfl hr hg ht
    ⟨fun k hk => absurd hk (by simp), fun x _ => .refl _ x⟩ (fun _ hy _ => hy)
    (fun _ y n0 n1 h0 h1 => by rw [h0, Option.some.injEq] at h1; rw [h1])

/-- So they can be committed in any order: all commits return, and the nodes afterwards are the same. -/
theorem C59_any_permutation (hw : WellNamed S) (ho : OneOpposite S) (hd : DeclaredOnce S)
    {w : World} (hr : Reaches S dbg SoundCalls w) {h c : Nat} {g : Graph} {ks ks' : List Nat} {t : Nat → Trans}
    {g' : Nat → Graph} {F : Nat → NodeIndex → Prop} (hg : w.graph h = some (c, g)) (hn : ks.Nodup) (ht : ∀ k ∈ ks, w.trans k = some (c, t k))
    (hst : ∀ k ∈ ks, SteadyBidir S (t k) g.get?) (hva : ∀ k ∈ ks, SteadyAnnos S (t k) g.get?)
    (hsd : ∀ k ∈ ks, Sound g.get? (t k).pending) (hreg : ∀ k ∈ ks, Regular (t k).pending) (hne : ∀ k ∈ ks, NoEmptyLinks (t k).pending)
    (hc : ∀ k ∈ ks, g.commit S dbg (t k) = .ok (g' k)) (hs : Separate S g.get? ks t (fun k => (g' k).get?) F)
    (hsp : ∀ k ∈ ks, ∀ l ∈ ks, k ≠ l → Spares (t k).pending (t l).pending) (hp : ks.Perm ks') :
    ∃ g1 g2, (runCalls S dbg w (ks.map (.commit h))).graph h = some (c, g1) ∧
      (runCalls S dbg w (ks'.map (.commit h))).graph h = some (c, g2) ∧ View.Same g1.get? g2.get? := by
  have hi : ∀ {k}, k ∈ ks' → k ∈ ks := fun hk => hp.mem_iff.2 hk
  have hs' : Separate S g.get? ks' t (fun k => (g' k).get?) F :=
    ⟨fun k hk => hs.own k (hi hk), fun k hk l hl => hs.apart k (hi hk) l (hi hl), fun k hk l hl => hs.clear k (hi hk) l (hi hl)⟩
  obtain ⟨g1, h1, _⟩ := C59_all_return hw ho hd hr hg hn ht hst hva hsd hreg hne hc hs hsp
  obtain ⟨g2, h2, _⟩ := C59_all_return hw ho hd hr hg (hp.nodup_iff.1 hn) (fun k hk => ht k (hi hk)) (fun k hk => hst k (hi hk)) (fun k hk => hva k (hi hk)) (fun k hk => hsd k (hi hk))
    (fun k hk => hreg k (hi hk)) (fun k hk => hne k (hi hk)) (fun k hk => hc k (hi hk)) hs' fun k hk l hl => hsp k (hi hk) l (hi hl)
  obtain ⟨a1, b1⟩ := C59_parts hw hr hg hn ht hreg hst hc hs h1
  obtain ⟨a2, b2⟩ := C59_parts hw hr hg (hp.nodup_iff.1 hn) (fun k hk => ht k (hi hk)) (fun k hk => hreg k (hi hk)) (fun k hk => hst k (hi hk)) (fun k hk => hc k (hi hk)) hs' h2
  refine ⟨g1, g2, h1, h2, fun x => ?_⟩
  by_cases hx : ∃ k ∈ ks, F k x
  · obtain ⟨k, hk, hx⟩ := hx
    exact (a1 k hk x hx).symm.trans (a2 k (hp.mem_iff.1 hk) x hx)
  · exact (b1 x fun k hk hc => hx ⟨k, hk, hc⟩).symm.trans (b2 x fun k hk hc => hx ⟨k, hi hk, hc⟩)

end TTGraph

namespace TTGraph
namespace Demo
open Spec

/-- The parts of `two6`, a third part, 7 (linked with 8), 8, 9, and three transactions.  The third one mutates 7, inserts 12 and removes 8. -/
def three9 : List Step :=
  [.call (.newContext 0 77), .call (.newGraph 0 0), .call (.newTrans 0 0), .call (.op 0 (.insert (pA 2 []))), .call (.op 0 (.insert (pB [] 0))),
   .call (.op 0 (.insert (pB [] 0))), .call (.op 0 (.insert (pA 5 []))), .call (.op 0 (.insert (pB [] 0))), .call (.op 0 (.insert (pB [] 0))),
   .call (.op 0 (.insert (pA 8 []))), .call (.op 0 (.insert (pB [] 0))), .call (.op 0 (.insert (pB [] 0))),
   .call (.commit 0 0), .call (.newTrans 1 0), .call (.newTrans 2 0), .call (.newTrans 3 0),
   .call (.op 1 (.redirectLinks 2 3)), .call (.op 1 (.insert (pA 3 []))), .swap 1 3 (pB [1] 10),
   .call (.op 2 (.insert (pA 6 []))), .edit 2 4 (pA 6 []), .call (.op 2 (.remove 5)),
   .call (.op 3 (.insert (pB [] 7))), .edit 3 7 (pA 9 [12]), .call (.op 3 (.remove 8))]

theorem three9_sound : Reaches typed true SoundCalls (run typed true World.init three9) :=
  reaches_sound (us := []) typed_named three9 .init (fun _ _ h => absurd h (by simp [World.init])) (by decide +kernel)

def three9w : World := run typed true World.init three9
def three9g : Graph := graphAt three9w 0
def three9t (k : Nat) : Trans := transAt three9w k
def three9g' (k : Nat) : Graph := ((three9g.commit typed true (three9t k)).toOption).getD (Graph.new 0)

/-- The nodes that each transaction concerns, and what its closures do. -/
def three9F : Nat → List NodeIndex
  | 1 => [1, 2, 3, 10]
  | 2 => [4, 5, 6, 11]
  | _ => [7, 8, 9, 12]
def three9l : Nat → List (NodeIndex × Node)
  | 1 => [(3, pB [1] 10)]
  | 2 => [(4, pA 6 [])]
  | _ => [(7, pA 9 [12])]

theorem three9_all {P : Nat → Prop} (h1 : P 1) (h2 : P 2) (h3 : P 3) : ∀ k ∈ [1, 2, 3], P k := by
  intro k hk
  simp only [List.mem_cons, List.not_mem_nil, or_false] at hk
  rcases hk with rfl | rfl | rfl
  · exact h1
  · exact h2
  · exact h3

theorem three9_pairs {P : Nat → Nat → Prop} (h12 : P 1 2) (h13 : P 1 3) (h21 : P 2 1) (h23 : P 2 3) (h31 : P 3 1) (h32 : P 3 2) :
    ∀ k ∈ [1, 2, 3], ∀ l ∈ [1, 2, 3], k ≠ l → P k l :=
  three9_all (P := fun k => ∀ l ∈ [1, 2, 3], k ≠ l → P k l)
    (three9_all (fun h => absurd rfl h) (fun _ => h12) (fun _ => h13))
    (three9_all (fun _ => h21) (fun h => absurd rfl h) (fun _ => h23))
    (three9_all (fun _ => h31) (fun _ => h32) (fun h => absurd rfl h))

theorem three9_at : ∀ k ∈ [1, 2, 3], three9w.trans k = some (0, three9t k) := three9_all rfl rfl rfl
theorem three9_commit : ∀ k ∈ [1, 2, 3], three9g.commit typed true (three9t k) = .ok (three9g' k) :=
  three9_all (got_ok (d := Graph.new 0) (by decide +kernel)) (got_ok (d := Graph.new 0) (by decide +kernel))
    (got_ok (d := Graph.new 0) (by decide +kernel))
theorem three9_closures : ∀ k ∈ [1, 2, 3], (three9t k).pending.muts ++ (three9t k).pending.upds = (three9l k).map fun e => (e.1, keep e.2) :=
  three9_all rfl rfl rfl
theorem three9_regular : ∀ k ∈ [1, 2, 3], Regular (three9t k).pending ∧ NoEmptyLinks (three9t k).pending := fun k hk =>
  keep_regular (three9_closures k hk)
    (three9_all (P := fun k => ((three9l k).all fun e => e.2.iterSources.all fun q => decide (q.1 ≠ emptyIdx)) = true)
      (by decide +kernel) (by decide +kernel) (by decide +kernel) k hk)
    (three9_all (P := fun k => ((three9t k).pending.redir.map Prod.fst).Nodup) (by decide +kernel) (by decide +kernel) (by decide +kernel) k hk)
    (three9_all (P := fun k => ((three9t k).pending.redirAll.map Prod.fst).Nodup) (by decide +kernel) (by decide +kernel) (by decide +kernel) k hk)
theorem three9_meets : ∀ k ∈ [1, 2, 3], Meets typed true SoundCalls three9g (three9t k) := fun k hk =>
  ⟨three9w, 0, k, 0, three9_sound, rfl, three9_at k hk⟩

theorem three9_separate : Separate typed three9g.get? [1, 2, 3] three9t (fun k => (three9g' k).get?) fun k x => x ∈ three9F k := by
  refine ⟨fun k hk => ?_, ?_, fun k hk l hl hne => ?_⟩
  · have m := three9_meets k hk
    have r := m.ready typed_named
    exact footprint_sound typed_named.variants (m.inv typed_named) r.good (m.disjoint typed_named).1 r.noFrom (three9_regular k hk).1
      (three9_all (P := fun k => footprint typed three9g (three9t k) (three9F k) = true) (by decide +kernel) (by decide +kernel) (by decide +kernel) k hk)
  · have hl : ∀ {a b : List NodeIndex}, (a.all fun x => !b.contains x) = true → ∀ x, x ∈ a → x ∉ b := by
      intro a b h x hx hb
      rw [List.all_eq_true] at h
      simpa [hb] using h x hx
    exact three9_pairs (P := fun k l => ∀ x, x ∈ three9F k → x ∉ three9F l) (hl (by decide)) (hl (by decide)) (hl (by decide)) (hl (by decide))
      (hl (by decide)) (hl (by decide))
  · have m := three9_meets k hk
    have i := (m.commit typed_named (three9_commit k hk)).choose_spec.inv
    exact clear_sound i.arena (three9_pairs (P := fun k l => clear typed (three9g' k) (three9t l) (three9F k) = true) (by decide +kernel)
      (by decide +kernel) (by decide +kernel) (by decide +kernel) (by decide +kernel) (by decide +kernel) k hk l hl hne)

/-- C59: all hypotheses hold for the three transactions, committed in the orders 1, 2, 3 and 3, 1, 2. -/
example : ∃ g1 g2, (runCalls typed true three9w ([1, 2, 3].map (.commit 0))).graph 0 = some (0, g1) ∧
    (runCalls typed true three9w ([3, 1, 2].map (.commit 0))).graph 0 = some (0, g2) ∧ View.Same g1.get? g2.get? := by
  have hi : ∀ k ∈ [1, 2, 3], (three9t k).inc.Inv typed := fun k hk => ((three9_meets k hk).ready typed_named).good.inv
  refine C59_any_permutation typed_named typed_one typed_once three9_sound rfl (by decide) three9_at
    (fun _ _ => typed_noVec.steadyBidir _ _) (fun _ _ => typed_noVecAnnos.steady _ _)
    (fun k hk => sound_sound (hi k hk) (three9_all (P := fun k => sound typed three9g (three9t k) = true) (by decide +kernel) (by decide +kernel) (by decide +kernel) k hk))
    (fun k hk => (three9_regular k hk).1) (fun k hk => (three9_regular k hk).2) three9_commit three9_separate (fun k hk l hl hne => ?_)
    (by decide)
  exact spares_sound (hi l hl) (three9_closures k hk) (three9_closures l hl)
    (three9_pairs (P := fun k l => spares typed (three9t k) (three9t l) (three9l l) = true) (by decide +kernel) (by decide +kernel) (by decide +kernel)
      (by decide +kernel) (by decide +kernel) (by decide +kernel) k hk l hl hne)

end Demo
end TTGraph
