import Verif.Props.RenameOrder
import Verif.Props.Order
import Verif.Props.Files

/-!
# C89: a graph is saved, and another program goes on with it
-/

set_option autoImplicit false

namespace TTGraph

open Spec

section
variable [SetImpl] {S : Schema} {dbg : Bool} {R R0 R2 : World → Call → Prop} {σ : Nat → Equiv.Perm NodeIndex} {G T : Nat → Prop}

omit [SetImpl] in
theorem View.Same.alike {τ : Equiv.Perm NodeIndex} (h0 : τ emptyIdx = emptyIdx) {v w : View} (h : View.Same v w) (hI : Internal v)
    (hf : ∀ x, v x ≠ none → τ x = x) : Alike τ v w := by
  obtain ⟨h1, h2⟩ := View.same_iff.1 h
  have hn : ∀ x, w x = none ↔ v x = none := fun x => by
    have := h1 x
    cases hv : v x <;> cases hw : w x <;> simp [hv, hw] at this ⊢
  have hfix : ∀ y, τ y = y ∨ v y = none ∧ v (τ y) = none := by
    intro y
    by_cases hy : v y = none
    · by_cases hy' : v (τ y) = none
      · exact .inr ⟨hy, hy'⟩
      · exact .inl (τ.injective (hf _ hy'))
    · exact .inl (hf y hy)
  refine (View.alike_iff h0).2 ⟨fun x => ?_, fun x s y => ?_⟩
  · rcases hfix x with e | ⟨e1, e2⟩
    · rw [e]; exact h1 x
    · rw [e1, (hn _).2 e2]
  · rcases hfix x with e | ⟨e1, e2⟩
    · rw [e, h2]
      constructor
      · intro hh
        rcases hI x s _ hh with e' | e'
        · have e5 : y = emptyIdx := τ.injective (e'.trans h0.symm)
          rwa [e', ← e5] at hh
        · rcases hfix y with e3 | ⟨_, e4⟩
          · rwa [e3] at hh
          · exact absurd e4 e'
      · intro hh
        rcases hI x s _ hh with e' | e'
        · subst e'; rwa [h0]
        · rwa [hf y e']
    · constructor
      · rintro ⟨n, hx, _⟩
        rw [(hn _).2 e2] at hx
        exact absurd hx (by simp)
      · rintro ⟨n, hx, _⟩
        rw [e1] at hx
        exact absurd hx (by simp)

/-- A program has a graph whose links are internal and have their opposites, and saves it.  Another program loads it: it gets a graph with the same
nodes. -/
theorem C89_loaded (hw : WellNamed S) {u u2 : World} (h : Reaches S dbg R0 u) {k c : Nat} {g : Graph} (hg : u.graph k = some (c, g))
    (hI : Internal g.get?) (ha : Answered S g.get?) :
    ∃ g', (u2.exec S dbg (.deserialize k c (g.serialize S))).graph k = some (c, g') ∧ View.Same g.get? g'.get? ∧
      Graph.deserializeGraph S (g.serialize S) = .ok (Graph.maxIndex (g.serialize S).nodes, g') := by
  obtain ⟨cnt, g', h1, _, h3, _⟩ := C33_roundtrip_partial hw ⟨u, k, c, h, hg⟩ hI ha
  refine ⟨g', by simp [World.exec, h1, World.setGraph, World.put], h3, ?_⟩
  rw [h1]
  unfold Graph.deserializeGraph at h1
  split at h1
  · exact absurd h1 (by simp)
  · simp only [Except.ok.injEq, Prod.mk.injEq] at h1
    rw [← h1.1]

/-- What the two programs have in common when the file has been loaded. -/
theorem resumed (hσ : ∀ c, σ c emptyIdx = emptyIdx) (hw : WellNamed S) {u u2 : World} (h : Reaches S dbg R0 u) (h2 : Reaches S dbg R2 u2) {k c : Nat}
    {g : Graph} (hg : u.graph k = some (c, g)) (hI : Internal g.get?) (ha : Answered S g.get?) (hk : u2.graph k = none) (hc : u2.ctx c = none)
    (hG : ∀ j, G j → j ≠ k → u.graph j = none ∨ u2.graph j = none) (hT : ∀ j, T j → u.trans j = none ∨ u2.trans j = none)
    (hf : ∀ x, g.get? x ≠ none → σ c x = x) : TwinInv S S σ G T u (u2.exec S dbg (.deserialize k c (g.serialize S))) := by
  have inv := (Reachable.inv hw (⟨u, k, c, h, hg⟩ : Reachable S dbg R0 g))
  obtain ⟨g', e1, e2, e3⟩ := C89_loaded (u2 := u2) hw h hg hI ha
  have hw2 : World.WInv S (u2.exec S dbg (.deserialize k c (g.serialize S))) := (h2.inv hw).exec hw dbg _ ⟨hk, hc, plausible_serialize inv⟩
  refine ⟨h.inv hw, hw2, ?_, ?_⟩
  · intro j c1 c2 g1 g2 hj hg1 hg2
    by_cases e : j = k
    · subst e
      rw [hg] at hg1
      rw [e1] at hg2
      simp only [Option.some.injEq, Prod.mk.injEq] at hg1 hg2
      obtain ⟨rfl, rfl⟩ := hg1
      obtain ⟨rfl, rfl⟩ := hg2
      exact ⟨rfl, e2.alike (hσ _) hI hf⟩
    · simp only [World.exec, e3, World.setGraph, World.addCtx, World.put, if_neg e] at hg2
      rcases hG j hj e with e' | e'
      · rw [e'] at hg1; exact absurd hg1 (by simp)
      · rw [e'] at hg2; exact absurd hg2 (by simp)
  · intro j c1 c2 t1 t2 hj ht1 ht2
    simp only [World.exec, e3, World.setGraph, World.addCtx] at ht2
    rcases hT j hj with e' | e'
    · rw [e'] at ht1; exact absurd ht1 (by simp)
    · rw [e'] at ht2; exact absurd ht2 (by simp)

/-- A program saves a graph, and another one loads it.  From then on the second program makes the calls that the first one makes.  At every
moment, whatever else the two programs do in between, corresponding graphs hold corresponding nodes and corresponding transactions have
corresponding pending operations: those that were saved have the same indices, and later ones those that corresponding calls have returned. -/
theorem C89_program (hσ : ∀ c, σ c emptyIdx = emptyIdx) (hw : WellNamed S) (hst : ∀ w c, R w c → SteadyBidirCalls S w c) {u u2 : World}
    (h : Reaches S dbg R0 u) (h2 : Reaches S dbg R2 u2) {k c : Nat} {g : Graph} (hg : u.graph k = some (c, g)) (hI : Internal g.get?)
    (ha : Answered S g.get?) (hk : u2.graph k = none) (hc : u2.ctx c = none) (hG : ∀ j, G j → j ≠ k → u.graph j = none ∨ u2.graph j = none)
    (hT : ∀ j, T j → u.trans j = none ∨ u2.trans j = none) (hf : ∀ x, g.get? x ≠ none → σ c x = x) {w w2 : World}
    (ht : TwinsFrom S S dbg R σ G T u (u2.exec S dbg (.deserialize k c (g.serialize S))) w w2) :
    (∀ j c c2 g g2, G j → w.graph j = some (c, g) → w2.graph j = some (c2, g2) → c2 = c ∧ Alike (σ c) g.get? g2.get?) ∧
    ∀ j c c2 t t2, T j → w.trans j = some (c, t) → w2.trans j = some (c2, t2) → c2 = c ∧ AlikePending (σ c) t.pending t2.pending :=
  have := ht.invFrom (resumed hσ hw h h2 hg hI ha hk hc hG hT hf) hσ hw hw (.refl S) hst
  ⟨this.graph, this.trans⟩

/-- If closures kept variants before the graph was saved, the two programs also iterate over corresponding nodes in the same order. -/
theorem C89_order (hσ : ∀ c, σ c emptyIdx = emptyIdx) (hw : WellNamed S) (hst : ∀ w c, R w c → SteadyBidirCalls S w c)
    (hK : ∀ w c, R0 w c → KeepVariants w c) {u u2 : World}
    (h : Reaches S dbg R0 u) (h2 : Reaches S dbg R2 u2) {k c : Nat} {g : Graph} (hg : u.graph k = some (c, g)) (hI : Internal g.get?)
    (ha : Answered S g.get?) (hk : u2.graph k = none) (hc : u2.ctx c = none) (hG : ∀ j, G j → j ≠ k → u.graph j = none ∨ u2.graph j = none)
    (hT : ∀ j, T j → u.trans j = none ∨ u2.trans j = none) (hf : ∀ x, g.get? x ≠ none → σ c x = x) {w w2 : World}
    (ht : TwinsFrom S S dbg R σ G T u (u2.exec S dbg (.deserialize k c (g.serialize S))) w w2) :
    ∀ j c c2 g g2, G j → w.graph j = some (c, g) → w2.graph j = some (c2, g2) →
      (∀ d, List.Forall₂ (AlikeEntry (σ c)) (g.iterType d) (g2.iterType d)) ∧ List.Forall₂ (AlikeEntry (σ c)) (g.iter S) (g2.iter S) := by
  have h0 := resumed hσ hw h h2 hg hI ha hk hc hG hT hf
  obtain ⟨g', e1, e2, e3⟩ := C89_loaded (u2 := u2) hw h hg hI ha
  have hr : Reachable S dbg R0 g := ⟨u, k, c, h, hg⟩
  have hi := ht.invFrom h0 hσ hw hw (.refl S) hst
  have ho : OrdInv σ G T u (u2.exec S dbg (.deserialize k c (g.serialize S))) := by
    refine ⟨?_, ?_⟩
    · intro j c1 c2 g1 g2 hj hg1 hg2 d
      by_cases e : j = k
      · subst e
        rw [hg] at hg1
        rw [e1] at hg2
        simp only [Option.some.injEq, Prod.mk.injEq] at hg1 hg2
        obtain ⟨rfl, rfl⟩ := hg1
        obtain ⟨rfl, rfl⟩ := hg2
        rw [(C52_reload hw hK hr e3).1 d]
        refine (List.map_id _).symm.trans (List.map_congr_left fun x hx => ?_)
        obtain ⟨⟨i, n⟩, he, rfl⟩ := List.mem_map.1 hx
        exact (hf i (by rw [show g.get? i = some n from (hr.inv hw).arena.get? (OrderMap.get?_eq_some.2 he)]; simp)).symm
      · simp only [World.exec, e3, World.setGraph, World.addCtx, World.put, if_neg e] at hg2
        rcases hG j hj e with e' | e'
        · rw [e'] at hg1; exact absurd hg1 (by simp)
        · rw [e'] at hg2; exact absurd hg2 (by simp)
    · intro j c1 c2 t1 t2 hj ht1 ht2
      simp only [World.exec, e3, World.setGraph, World.addCtx] at ht2
      rcases hT j hj with e' | e'
      · rw [e'] at ht1; exact absurd ht1 (by simp)
      · rw [e'] at ht2; exact absurd ht2 (by simp)
  have hq := ht.ordersFrom h0 ho hσ hw hst
  intro j c c2 g g2 hj hg1 hg2
  obtain ⟨_, _, _, i1⟩ := hi.left.graph _ _ _ hg1
  obtain ⟨_, _, _, i2⟩ := hi.right.graph _ _ _ hg2
  exact iters_alike i1 i2 (hi.graph _ _ _ _ _ hj hg1 hg2).2 (hq.graph _ _ _ _ _ hj hg1 hg2)

end
end TTGraph

namespace TTGraph.Demo
open Spec

/-- The first program has a graph with the nodes 2 and 3.  Its context has issued the indices 1 to 5. -/
def saving : List Step := built2 ++ [.call (.op 9 .allocUntyped), .call (.op 9 .allocUntyped)]

/-- It goes on: a new node gets the index 6. -/
def stays : List Step := saving ++ [.call (.newTrans 1 0), .call (.op 1 (.insert (nA 3 [2, 6] [3] 7))), .call (.commit 0 1)]

/-- The second program loads the graph. -/
def loading : List Step := [.call (.deserialize 0 0 ((graphAt (run plain true World.init saving) 0).serialize plain))]

/-- It goes on: the new node gets the index 4. -/
def resumes : List Step := loading ++ [.call (.newTrans 1 0), .call (.op 1 (.insert (nA 3 [2, 4] [3] 7))), .call (.commit 0 1)]

def swap46 : Equiv.Perm NodeIndex := Equiv.swap 4 6

theorem nA_alike46 : Node.Renamed swap46 (nA 3 [2, 6] [3] 7) (nA 3 [2, 4] [3] 7) := by
  refine ⟨rfl, rfl, .cons (by decide +kernel : (3 : Nat) = _) (.cons (fun w => ?_) (.cons (by decide +kernel : [3] = List.map _ _) .nil))⟩
  have e1 : swap46 2 = 2 := by decide +kernel
  have e2 : swap46 6 = 4 := by decide +kernel
  constructor
  · intro h
    have h : w ∈ [2, 4] := h
    simp only [List.mem_cons, List.not_mem_nil, or_false] at h
    rcases h with rfl | rfl
    · exact ⟨2, by decide, e1, .inl (by decide)⟩
    · exact ⟨6, by decide, e2, .inl (by decide)⟩
  · rintro ⟨u, hu, rfl, -⟩
    have hu : u ∈ [2, 6] := hu
    simp only [List.mem_cons, List.not_mem_nil, or_false] at hu
    rcases hu with rfl | rfl
    · rw [e1]; decide
    · rw [e2]; decide

theorem resumedTwins : TwinsFrom plain plain true AnyCall (fun _ => swap46) (fun g => g = 0) (fun k => k = 1) (run plain true World.init saving)
    (World.init.exec plain true (.deserialize 0 0 ((graphAt (run plain true World.init saving) 0).serialize plain)))
    (run plain true World.init stays) (run plain true World.init resumes) := by
  have s1 := (TwinsFrom.start (S := plain) (S2 := plain) (dbg := true) (R := AnyCall) (σ := fun _ => swap46) (G := fun g => g = 0) (T := fun k => k = 1)
    (u := run plain true World.init saving) (u2 := run plain true World.init loading)).both (a := .newTrans 1 0) (b := .newTrans 1 0)
    (Option.isNone_iff_eq_none.1 (by decide +kernel)) (Option.isNone_iff_eq_none.1 (by decide +kernel)) trivial trivial rfl ⟨rfl, rfl⟩
  have s2 := s1.both (a := .op 1 (.insert (nA 3 [2, 6] [3] 7))) (b := .op 1 (.insert (nA 3 [2, 4] [3] 7))) (op_allowed (by decide +kernel))
    (op_allowed (by decide +kernel)) trivial trivial rfl (alikeCall_op (by decide +kernel) (by decide +kernel) nA_alike46 (by decide +kernel))
  exact s2.both (a := .commit 0 1) (b := .commit 0 1) (sameCtx_sound (by decide +kernel)) (sameCtx_sound (by decide +kernel)) trivial trivial ⟨rfl, rfl⟩
    ⟨rfl, rfl, Option.isSome_iff_ne_none.1 (by decide +kernel), Option.isSome_iff_ne_none.1 (by decide +kernel),
     Option.isSome_iff_ne_none.1 (by decide +kernel), Option.isSome_iff_ne_none.1 (by decide +kernel)⟩

/-- C89: the hypotheses of `C89_program` and `C89_order` are met.  The node that is inserted after the graph was saved has the index 6 in the
first program and 4 in the second one. -/
example : let u := run plain true World.init saving
    let g := graphAt u 0
    Reaches plain true SoundKeep u ∧ Reaches plain true SoundKeep World.init ∧ u.graph 0 = some (0, g) ∧ Internal g.get? ∧ Answered plain g.get? ∧
    (∀ j, j = 1 → u.trans j = none ∨ World.init.trans j = none) ∧ (∀ x, g.get? x ≠ none → swap46 x = x) ∧
    TwinsFrom plain plain true AnyCall (fun _ => swap46) (fun g => g = 0) (fun k => k = 1) u (World.init.exec plain true (.deserialize 0 0 (g.serialize plain)))
      (run plain true World.init stays) (run plain true World.init resumes) ∧
    (graphAt (run plain true World.init stays) 0).get? 6 = some (nA 3 [2, 6] [3] 7) ∧
    (graphAt (run plain true World.init resumes) 0).get? 4 = some (nA 3 [2, 4] [3] 7) := by
  intro u g
  have hu : Reaches plain true SoundKeep u := reaches_soundKeep plain_named saving (by decide +kernel)
  obtain ⟨c, e⟩ := graphAt_some (w := u) (h := 0) (by decide +kernel)
  have hc : c = 0 := by
    have : (u.graph 0).map Prod.fst = some 0 := by decide +kernel
    rw [e] at this
    simpa using this
  subst hc
  have hr : Reachable plain true SoundKeep g := ⟨_, _, _, hu, e⟩
  refine ⟨hu, .init, e, C12_internal_partial plain_named (fun _ _ h => h.1) hr, fun _ _ _ _ _ _ ⟨_, ⟨l, hl, _⟩, _⟩ => absurd hl (by simp [plain]),
    fun _ _ => .inr rfl, fun x hx => ?_, resumedTwins, by decide +kernel, by decide +kernel⟩
  obtain ⟨n, hn⟩ := Option.ne_none_iff_exists'.1 hx
  have hm : x ∈ (g.iter plain).map Prod.fst := List.mem_map_of_mem (f := Prod.fst) ((Arena.mem_entries (hr.inv plain_named).arena).2 hn)
  rw [show (g.iter plain).map Prod.fst = [3, 2] by decide +kernel] at hm
  exact (by decide +kernel : ∀ x ∈ [3, 2], swap46 x = x) x hm

end TTGraph.Demo
