import Verif.Lemmas.SwitchDraws
import Verif.Props.Switch
import Verif.Props.Ids

/-!
# C62: `switch_context` while other threads use the new context
-/

set_option autoImplicit false

namespace TTGraph

open Spec

section
variable [SetImpl] {S : Schema} {dbg : Bool} {R : World → Call → Prop}

/-- If no other thread interferes, this is the `switch_context` of the program model. -/
theorem C62_alone (g : Graph) (u cnt : Nat) :
    (g.switchContext S u cnt).map Prod.fst = g.switchContextDraws S u (List.range' cnt (g.iter S).length) := by
  have key : ∀ (E : List (NodeIndex × Node)) (a : Arena) (m : OrderMap NodeIndex NodeIndex) (c : Nat),
      (foldE (fun (st : Arena × OrderMap NodeIndex NodeIndex × Nat) (e : NodeIndex × Node) =>
        match st.1.insert st.2.2 e.2 with
        | .error p => .error p
        | .ok (new, a, cnt') => .ok (a, st.2.1.insert e.1 new, cnt')) (a, m, c) E).map (fun r => (r.1, r.2.1)) =
      foldE (fun (st : Arena × OrderMap NodeIndex NodeIndex) (e : (NodeIndex × Node) × Nat) =>
        match st.1.insert e.2 e.1.2 with
        | .error p => .error p
        | .ok (new, a, _) => .ok (a, st.2.insert e.1.1 new)) (a, m) (E.zip (List.range' c E.length)) := by
    intro E
    induction E with
    | nil => intro a m c; rfl
    | cons e E ih =>
      intro a m c
      simp only [List.length_cons, List.range'_succ, List.zip_cons_cons, foldE]
      cases hi : a.insert c e.2 with
      | error p => rfl
      | ok r =>
        obtain ⟨new, a', c'⟩ := r
        have hc : c' = c + 1 := by
          simp only [Arena.insert] at hi
          cases ha : a.alloc c e.2.disc with
          | error p => rw [ha] at hi; exact absurd hi (by simp)
          | ok r =>
            obtain ⟨idx, a1, c1⟩ := r
            have h1 : c1 = c + 1 := by
              unfold Arena.alloc at ha
              cases hc : a.disp.contains (c + 1) <;> simp [idAlloc, hc] at ha
              exact ha.2.2.symm
            rw [ha] at hi
            simp only at hi
            split at hi
            · exact absurd hi (by simp)
            · simp only [Except.ok.injEq, Prod.mk.injEq] at hi
              rw [← hi.2.2, h1]
        subst hc
        exact ih a' (m.insert e.1 new) (c + 1)
  have h := key (g.nodes.entries S) Arena.new OrderMap.empty cnt
  have h1 : (Graph.switchInsert S g cnt).map (fun r => (r.1, r.2.1)) = Graph.switchInsertDraws S g (List.range' cnt (g.iter S).length) := h
  simp only [Graph.switchContext, Graph.switchContextDraws, Graph.switchNodes, ← h1]
  cases Graph.switchInsert S g cnt with
  | error e => rfl
  | ok r =>
    obtain ⟨a, m, c⟩ := r
    simp only [Except.map]
    cases foldE (Graph.switchNode g.back m) a m.entries with
    | error e => rfl
    | ok a' =>
      simp only
      cases Graph.applyBidirectional S (Graph.mergeNodes S (Graph.new u) a' Lcr.new).1 (Graph.mergeNodes S (Graph.new u) a' Lcr.new).2 with
      | error e => rfl
      | ok g2 =>
        simp only
        cases Graph.checkLinkType S g2 (Graph.mergeNodes S (Graph.new u) a' Lcr.new).2 <;> rfl

/-- Whatever the other threads draw: `switch_context`, if it returns, gives every node the index that it drew for it, distinct from those of
the other nodes, and keeps variants, data, kinds of links and lengths of `Vec`s. -/
theorem C62_nodes (hw : WellNamed S) {g g' : Graph} {u : Nat} {draws : List Nat} (h : Reachable S dbg R g) (hn : draws.Nodup)
    (hl : draws.length = g.len S) (hs : g.switchContextDraws S u draws = .ok g') :
    g'.ctxId = u ∧ ∃ ρ : NodeIndex → NodeIndex,
      (∀ (p : Nat) (i : NodeIndex) (c : Nat), ((g.iter S).map Prod.fst)[p]? = some i → draws[p]? = some c → ρ i = c + 1) ∧
      (∀ x y, g.get? x ≠ none → g.get? y ≠ none → ρ x = ρ y → x = y) ∧
      (∀ x', g'.get? x' ≠ none → ∃ x, g.get? x ≠ none ∧ ρ x = x') ∧
      ∀ x n, g.get? x = some n → ∃ n', g'.get? (ρ x) = some n' ∧ n'.shape = n.shape :=
  Graph.switchDraws_nodes hw (h.inv hw) hn hl hs

/-- Whatever the other threads draw: `switch_context` of a graph with internal links in which every link has its opposite and satisfies its
annotations returns an isomorphic graph, if no old index collides with a new one.  The nodes have the indices that it drew, in the order of
iteration.

Full statement of C62: the same without the last condition.  That is false, see below. -/
theorem C62_iso_partial (hw : WellNamed S) {g : Graph} (u : Nat) {draws : List Nat} (h : Reachable S dbg R g) (hn : draws.Nodup)
    (hl : draws.length = g.len S) (hI : Internal g.get?) (ha : Answered S g.get?) (ht : WellTyped S g.get?)
    (hc : ¬ CollisionWith g.get? ((g.iter S).map Prod.fst) (draws.map (· + 1))) :
    ∃ g' ρ, g.switchContextDraws S u draws = .ok g' ∧
      (∀ (p : Nat) (i : NodeIndex) (c : Nat), ((g.iter S).map Prod.fst)[p]? = some i → draws[p]? = some c → ρ i = c + 1) ∧
      Isomorphic ρ g.get? g'.get? :=
  Graph.switchDraws_iso hw u (h.inv hw) hn hl hI ha ht hc

/-- The results that thread `t` got from the distributer, in order. -/
def Spec.drawn (t : Nat) (s : Threads.State) : List Word := (s.out.filter fun p => decide (p.1 = t)).map Prod.snd

/-- The whole picture: any number of threads draw indices from a context, in any interleaving of their `fetch_add`s, with fewer than 2^64
calls.  The indices that thread `t` got were drawn by its `switch_context`, and the context has issued all indices of the graph before.  Then
`switch_context` returns an isomorphic graph, and no other thread got an index of it. -/
theorem C62_threads_partial (hw : WellNamed S) {g : Graph} (u : Nat) (h : Reachable S dbg R g) (hI : Internal g.get?)
    (ha : Answered S g.get?) (ht : WellTyped S g.get?) {cnt : Word} {n : Nat} {s : Threads.State} (he : Threads.Exec cnt n s)
    (hn : cnt.toNat + n < 2 ^ 64) (hcnt : ∀ i : Nat, g.get? i ≠ none → i ≤ cnt.toNat) (t : Nat) (hl : (drawn t s).length = g.len S) :
    ∃ g' ρ, g.switchContextDraws S u ((drawn t s).map fun w => w.toNat - 1) = .ok g' ∧
      (∀ (p : Nat) (i : NodeIndex) (w : Word), ((g.iter S).map Prod.fst)[p]? = some i → (drawn t s)[p]? = some w → ρ i = w.toNat) ∧
      Isomorphic ρ g.get? g'.get? ∧
      ∀ j : Nat, g'.get? j ≠ none → ∃ w, (t, w) ∈ s.out ∧ w.toNat = j ∧ ∀ t', (t', w) ∈ s.out → t' = t := by
  obtain ⟨c1, c2⟩ := C01_threads cnt n s he hn
  have inv := h.inv hw
  have hpos : ∀ w ∈ drawn t s, cnt.toNat < w.toNat ∧ (t, w) ∈ s.out := by
    intro w hw
    obtain ⟨p, hp, rfl⟩ := List.mem_map.1 hw
    obtain ⟨hp, e⟩ := List.mem_filter.1 hp
    have e : p.1 = t := of_decide_eq_true e
    exact ⟨(c2 p hp).2, by rw [← e]; exact hp⟩
  have hnd : (drawn t s).Nodup := c1.sublist (List.filter_sublist.map _)
  have hdn : ((drawn t s).map fun w => w.toNat - 1).Nodup := by
    refine (List.nodup_map_iff_inj_on hnd).2 ?_
    intro w hw w' hw' e
    have h1 := (hpos w hw).1
    have h2 := (hpos w' hw').1
    exact BitVec.eq_of_toNat_eq (by omega)
  have hlen : ((drawn t s).map fun w => w.toNat - 1).length = g.len S := by rw [List.length_map]; exact hl
  obtain ⟨g', ρ, k1, k0, k2⟩ := C62_iso_partial hw u h hdn hlen hI ha ht (by
    rintro ⟨p, q, a, b, h1, h2, h3, h4, _⟩
    rw [List.map_map, List.getElem?_map, Option.map_eq_some_iff] at h4
    obtain ⟨w, h5, rfl⟩ := h4
    have hb := (hpos w (List.mem_of_getElem? h5)).1
    rw [List.getElem?_map, Option.map_eq_some_iff] at h2
    obtain ⟨⟨i, n⟩, h6, h7⟩ := h2
    have hg : g.get? i = some n := (Arena.mem_entries inv.arena).1 (List.mem_of_getElem? h6)
    have := hcnt i (by rw [hg]; simp)
    have h8 : @Eq Nat i (w.toNat - 1 + 1) := h7
    omega)
  have r1 : ∀ (p : Nat) (i : NodeIndex) (w : Word), ((g.iter S).map Prod.fst)[p]? = some i → (drawn t s)[p]? = some w → ρ i = w.toNat := by
    intro p i w hp hd
    have e := k0 p i (w.toNat - 1) hp (by rw [List.getElem?_map, hd]; rfl)
    have := (hpos w (List.mem_of_getElem? hd)).1
    exact e.trans (show w.toNat - 1 + 1 = w.toNat by omega)
  refine ⟨g', ρ, k1, r1, k2, ?_⟩
  intro j hj
  obtain ⟨x, hx, rfl⟩ := k2.onto j hj
  obtain ⟨n0, hn0⟩ := Option.ne_none_iff_exists'.1 hx
  obtain ⟨p, hp⟩ := List.getElem?_of_mem ((Arena.mem_entries inv.arena).2 hn0)
  have hlt := (List.getElem?_eq_some_iff.1 hp).1
  have hlt' : p < (drawn t s).length := by rw [hl]; exact lt_of_lt_of_eq hlt (Arena.len_eq S g.nodes).symm
  have e1 := r1 p x (drawn t s)[p] (by rw [Graph.iter, List.getElem?_map, hp]; rfl) (List.getElem?_eq_getElem hlt')
  have hm := hpos _ (List.getElem_mem hlt')
  refine ⟨(drawn t s)[p], hm.2, e1.symm, fun t' ht' => ?_⟩
  have := (List.nodup_map_iff_inj_on (f := Prod.snd) (List.Nodup.of_map _ c1)).1 c1 _ ht' _ hm.2 rfl
  exact congrArg Prod.fst this

end
end TTGraph

namespace TTGraph
namespace Demo
open Spec

/-- Thread 7 draws the indices 5, 7, 8 and 10, thread 8 draws 6 and 9 in between, from a context that has issued 1 to 4. -/
theorem mixed : ∃ s, Threads.Exec 4 6 s ∧ s.out = [(8, 6), (7, 5), (7, 7), (7, 8), (7, 10), (8, 9)] :=
  ⟨_, .ret 8 8 [] [] (.ret 7 9 [] [(8, 8)] (.fetch 7 (.fetch 8 (.ret 7 7 [] [] (.fetch 7 (.ret 7 6 [] [] (.fetch 7
    (.ret 7 4 [] [] (.ret 8 5 [] [(7, 4)] (.fetch 8 (.fetch 7 .start)) rfl) rfl)) rfl)) rfl))) rfl) rfl, by decide⟩

/-- C62: the hypotheses of the theorems are met by a graph of four nodes. -/
example : let g := graphAt (run pair true World.init pair4) 0
    Reachable pair true SoundKeep g ∧ Internal g.get? ∧ Answered pair g.get? ∧ WellTyped pair g.get? ∧ (∀ i : Nat, g.get? i ≠ none → i ≤ (4 : Word).toNat) ∧
    (∃ s, Threads.Exec 4 6 s ∧ drawn 7 s = [5, 7, 8, 10] ∧ (drawn 7 s).length = g.len pair) ∧
    (g.switchContextDraws pair 78 [4, 6, 7, 9]).toOption.isSome = true ∧
    (g.iter pair).map Prod.fst = [1, 3, 2, 4] ∧ g.get? 4 = some (pB [3] 1) ∧
    ((g.switchContextDraws pair 78 [4, 6, 7, 9]).toOption.bind fun g' => g'.get? 10) = some (pB [7] 5) := by
  intro g
  have hI := fun g (hg : Reachable pair true SoundKeep g) => C12_internal_partial pair_named (fun _ _ h => h.1) hg
  have hk : (g.iter pair).map Prod.fst = [1, 3, 2, 4] := by decide +kernel
  refine ⟨pair4_reachable, hI _ pair4_reachable,
    ((symmetric_closed pair_named (fun w c _ => pair_noVec.steadyBidirCalls w c) pair_one (fun _ _ h => h.2) (fun _ _ h => h.1.noCatch) hI).reachable pair4_reachable).answered,
    fun _ _ _ _ _ _ a ha => absurd ha (by simp [pair]), ?_, ?_, by decide +kernel, hk, by decide +kernel, by decide +kernel⟩
  · intro i hi
    obtain ⟨n, hn⟩ := Option.ne_none_iff_exists'.1 hi
    have hm : i ∈ (g.iter pair).map Prod.fst :=
      List.mem_map_of_mem (f := Prod.fst) ((Arena.mem_entries (pair4_reachable.inv pair_named).arena).2 hn)
    rw [hk] at hm
    exact (by decide : ∀ i ∈ [1, 3, 2, 4], i ≤ (4 : Word).toNat) i hm
  · obtain ⟨s, h1, h2⟩ := mixed
    have h3 : drawn 7 s = [5, 7, 8, 10] := by rw [drawn, h2]; decide
    exact ⟨s, h1, h3, by rw [h3]; decide +kernel⟩

/-- Two A and one B; the second A links to itself and to B in its set. -/
def itself3 : List Step :=
  [.call (.newContext 0 77), .call (.newGraph 0 0), .call (.newTrans 0 0), .call (.op 0 (.insert (nA 0 [] [] 5))),
   .call (.op 0 (.insert (nA 0 [2, 3] [] 5))), .call (.op 0 (.insert (nB 0))), .call (.commit 0 0)]

/-- C62 fails: the schedule decides whether links are lost.  Moved to a new context by a thread that is alone, the graph is kept as it is.  If
another thread draws one index after the first node, the link of the second node to itself disappears. -/
theorem C62_schedule_fails : ∃ g g1 g2, Reachable plain true SoundCalls g ∧ Internal g.get? ∧ Answered plain g.get? ∧ WellTyped plain g.get? ∧
    g.get? 2 = some (nA 0 [2, 3] [] 5) ∧ g.get? 3 = some (nB 0) ∧
    g.switchContextDraws plain 78 [0, 1, 2] = .ok g1 ∧ g1.get? 2 = some (nA 0 [2, 3] [] 5) ∧ g1.get? 3 = some (nB 0) ∧
    g.switchContextDraws plain 78 [0, 2, 3] = .ok g2 ∧ g2.get? 3 = some (nA 0 [4] [] 5) ∧ g2.get? 4 = some (nB 0) := by
  let g := graphAt (run plain true World.init itself3) 0
  have hr : Reachable plain true SoundCalls g :=
    reachable_of (reaches_sound (us := []) plain_named itself3 .init (fun _ _ h => absurd h (by simp [World.init])) (by decide +kernel)) 0
      (by decide +kernel)
  exact ⟨g, _, _, hr, C12_internal_partial plain_named (fun _ _ h => h) hr,
    fun _ _ _ _ _ _ ⟨_, ⟨l, hl, _⟩, _⟩ => absurd hl (by simp [plain]), fun _ _ _ _ _ _ a ha => absurd ha (by simp [plain]),
    by decide +kernel, by decide +kernel, got_ok (d := Graph.new 0) (by decide +kernel), by decide +kernel, by decide +kernel,
    got_ok (d := Graph.new 0) (by decide +kernel), by decide +kernel, by decide +kernel⟩

end Demo
end TTGraph
