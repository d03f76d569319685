import Verif.Lemmas.Ids
import Verif.Lemmas.Frame
import Verif.Demo.Decls

/-!
# C01, C02: indices
-/

set_option autoImplicit false

namespace TTGraph
open Spec

/-! ## C01: indices handed out by one context are unique and never empty -/

/-- Any number of threads call `alloc` on one distributer whose counter starts at `cnt` (0 for a new context).  At every moment of every
interleaving with fewer than 2^64 calls, the ids returned so far, to whichever thread, are pairwise distinct, none is the empty index 0, and
all are larger than `cnt` (so larger than every index of a deserialized graph). -/
theorem C01_threads (cnt : Word) (n : Nat) (s : Threads.State) (h : Threads.Exec cnt n s) (hn : cnt.toNat + n < 2 ^ 64) :
    (s.out.map Prod.snd).Nodup ∧ ∀ p ∈ s.out, p.2 ≠ 0 ∧ cnt.toNat < p.2.toNat := by
  obtain ⟨_, h2, h3⟩ := Threads.exec_inv h hn
  have hsub : (s.out.map Prod.snd).Sublist (Threads.ids s) := List.sublist_append_right _ _
  refine ⟨h2.sublist hsub, fun p hp => ?_⟩
  have := h3 p.2 (hsub.mem (List.mem_map_of_mem hp))
  refine ⟨?_, this.1⟩
  intro e
  rw [e] at this
  simp at this

/-- Two threads that are both inside the call return in the opposite order. -/
example : ∃ s, Threads.Exec 0 2 s ∧ s.out = [(8, 2), (7, 1)] :=
  ⟨_, .ret 7 0 [] [] (.ret 8 1 [] [(7, 0)] (.fetch 8 (.fetch 7 .start)) rfl) rfl, by decide⟩

/-- The counter of the graph model is the machine counter as long as it does not overflow. -/
theorem C01_counter (cnt : Word) (h : cnt.toNat + 1 < 2 ^ 64) :
    (plusOne (fetchAdd cnt).1).toNat = (idAlloc cnt.toNat).1 ∧ (fetchAdd cnt).2.toNat = (idAlloc cnt.toNat).2 :=
  ⟨Threads.toNat_plusOne h, Threads.toNat_plusOne h⟩

example : (5 : Word).toNat + 1 < 2 ^ 64 := by decide

variable [SetImpl] {S : Schema} {dbg : Bool} {R : World → Call → Prop}

/-- In every program, the indices that a context has handed out so far (through `insert`, `extend`, `alloc`, `alloc_untyped` of any of its
transactions, and `switch_context` of graphs into it) are pairwise distinct and none is empty. -/
theorem C01_issued (hw : WellNamed S) {w : World} (h : Reaches S dbg R w) (c : Nat) :
    (w.issued c).Nodup ∧ emptyIdx ∉ w.issued c := by
  have hi := h.inv hw
  refine ⟨hi.issuedNodup c, fun hm => ?_⟩
  obtain ⟨_, _, h1, _⟩ := hi.issued c _ hm
  exact h1 rfl

/-- An index that is handed out names no node of any graph of the context and no node of any of its transactions at that moment, also when
the context comes from `deserialize_graph`. -/
theorem C01_fresh (hw : WellNamed S) {w : World} (h : Reaches S dbg R w) {k c : Nat} {t t' : Trans} {x : Ctx} {o : TOp}
    {cnt : Nat} {l : List NodeIndex} (ht : w.trans k = some (c, t)) (hx : w.ctx c = some x) (ho : o.Allowed S t)
    (hr : o.run t x.cnt = .ok (t', cnt, l)) :
    ∀ i ∈ l, (∀ h g, w.graph h = some (c, g) → g.get? i = none) ∧ (∀ k' t0, w.trans k' = some (c, t0) → t0.inc.get? i = none ∧ i ∉ t0.allocs) := by
  have hi := h.inv hw
  obtain ⟨x', hx', _, hready⟩ := hi.trans k c t ht
  have hgr := Trans.run_grown hready (fun i hi' => by
    obtain ⟨x2, hx2, h2⟩ := hi.bound (.inr k) c i ⟨t, ht, hi'⟩
    rw [hx] at hx2
    exact (Option.some.inj hx2) ▸ h2) ho hr
  intro i hil
  have hlt : x.cnt < i := by
    rw [hgr.list, List.mem_range'_1] at hil
    omega
  have hno : ∀ ob, ¬ w.Owns ob c i := by
    intro ob hob
    obtain ⟨x2, hx2, _, h2⟩ := hi.bound ob c i hob
    rw [hx] at hx2
    rw [← Option.some.inj hx2] at h2
    exact absurd h2 (Nat.not_le.2 hlt)
  constructor
  · intro hh g hg
    by_contra hne
    obtain ⟨n, hn⟩ := Option.ne_none_iff_exists'.1 hne
    obtain ⟨d, hd, _⟩ := Arena.get?_eq_some.1 hn
    exact hno (.inl hh) ⟨g, hg, by simp [Graph.Owns, hd]⟩
  · intro k' t0 ht0
    constructor
    · by_contra hne
      obtain ⟨n, hn⟩ := Option.ne_none_iff_exists'.1 hne
      obtain ⟨d, hd, _⟩ := Arena.get?_eq_some.1 hn
      exact hno (.inr k') ⟨t0, ht0, Or.inl (by simp [hd])⟩
    · exact fun hm => hno (.inr k') ⟨t0, ht0, Or.inr hm⟩

/-! ## C02: committing never overwrites an existing node -/

/-- The nodes that a transaction inserts have indices that are not present in the graph (of the same context) it is committed to. -/
theorem C02_new_indices (hw : WellNamed S) {g : Graph} {t : Trans} (h : Meets S dbg R g t) {i : NodeIndex}
    (hi : t.inc.get? i ≠ none) : g.get? i = none := by
  obtain ⟨n, hn⟩ := Option.ne_none_iff_exists'.1 hi
  obtain ⟨d, hd, _⟩ := Arena.get?_eq_some.1 hn
  exact Arena.get?_of_disp_none ((h.disjoint hw).1 i (by simp [hd]))

omit [SetImpl] in
/-- What the operations of a transaction do to a node that none of them concerns. -/
theorem performed_kept {v v6 : View} {t : Trans} (hp : Performed t v v6) {x : NodeIndex} {n : Node} (hn : v x = some n)
    (hmut : ∀ p ∈ t.muts ++ t.upds, p.1 ≠ x) (hrem : x ∉ t.dec.elems)
    (hlinks : ∀ s y, n.Holds s y → y ∉ t.dec.elems ∧ ∀ p ∈ t.redir ++ t.redirAll, p.1 ≠ y) : ∃ n6, v6 x = some n6 ∧ n.Same n6 := by
  obtain ⟨ρ, ρ', n1, n5, n6, h1, h2, h3, h4, h5, h6⟩ := performed_old hp hn hmut hrem
  have s1 : n.Same n1 := h3.same fun s y hy => h1.other y fun m hm => (hlinks s y hy).2 (y, m) (List.mem_append_left _ hm) rfl
  have hl1 : ∀ s y, n1.Holds s y → n.Holds s y := fun s y hy => ((Node.same_iff.1 s1).2 s y).1 hy
  have s5 : n1.Same n5 := h4.same fun s y hy =>
    h2.other y fun m hm => (hlinks s y (hl1 s y hy)).2 (y, m) (List.mem_append_right _ hm) rfl
  have hl5 : ∀ s y, n5.Holds s y → n.Holds s y := fun s y hy => hl1 s y (((Node.same_iff.1 s5).2 s y).1 hy)
  have s6 : n5.Same n6 := h5.same fun s y hy => if_neg (hlinks s y (hl5 s y hy)).1
  exact ⟨n6, h6, (s1.trans s5).trans s6⟩

/-- A node of the graph that is not mutated, updated or removed by the transaction, none of whose links leads to a removed or redirected
node, is the same after the commit, unless the operations of the transaction (`v6`) add or remove a link to it in a field with an opposite. -/
theorem C02_kept (hw : WellNamed S) {g g' : Graph} {t : Trans} (hst : SteadyBidir S t g.get?) (h : Meets S dbg R g t) (hc : g.commit S dbg t = .ok g')
    {x : NodeIndex} {n : Node} (hn : g.get? x = some n) (hmut : ∀ p ∈ t.muts ++ t.upds, p.1 ≠ x) (hrem : x ∉ t.dec.elems)
    (hlinks : ∀ s y, n.Holds s y → y ∉ t.dec.elems ∧ ∀ p ∈ t.redir ++ t.redirAll, p.1 ≠ y)
    (hbd : ∀ v6, Performed t g.get? v6 → ∀ w m m', Opposite S m m' → m'.disc = n.disc → (View.Link g.get? w m x ↔ View.Link v6 w m x)) :
    ∃ n', g'.get? x = some n' ∧ n.Same n' := by
  obtain ⟨v6, out⟩ := h.commit hw hc
  obtain ⟨n6, h6, s⟩ := performed_kept out.performed hn hmut hrem hlinks
  have hd : n6.disc = n.disc := s.1
  have hlink := hbd v6 out.performed
  have hdd : ∀ {w d}, Ends v6 w x d → d = n.disc := by
    rintro w d ⟨_, k, hk, rfl⟩
    rw [h6, Option.some.injEq] at hk
    rw [← hk, hd]
  have hholds : ∀ s y, View.Holds g'.get? x s y ↔ View.Holds v6 x s y := by
    intro s y
    rw [(out.completion hst).2]
    constructor
    · rintro (⟨k, _⟩ | ⟨_, _, m, d, ⟨_, k1, k2⟩, k4, k3⟩)
      · exact k
      · exact absurd ((hlink y m _ k3.1 (k3.2.1.trans (hdd k4))).2 k1) k2
    · exact fun k => Or.inl ⟨k, fun ⟨m, d, ⟨_, k1, k2⟩, k4, k3, k5⟩ => k2 ((hlink y m _ k3 (Eq.trans k5 (hdd k4))).1 k1)⟩
  have hsh := out.same.1 x
  rw [h6] at hsh
  cases hg' : g'.get? x with
  | none => rw [hg'] at hsh; exact absurd hsh (by simp)
  | some n' =>
    rw [hg'] at hsh
    refine ⟨n', rfl, s.trans (Node.same_iff.2 ⟨by simpa using hsh, fun s y => ?_⟩)⟩
    have := hholds s y
    simp only [View.Holds, h6, hg', Option.some.injEq, exists_eq_left'] at this
    exact this

/-- In particular a node is kept if its variant takes part in no bidirectional declaration. -/
theorem C02_kept_apart (hw : WellNamed S) {g g' : Graph} {t : Trans} (h : Meets S dbg R g t) (hc : g.commit S dbg t = .ok g')
    {x : NodeIndex} {n : Node} (hn : g.get? x = some n) (hmut : ∀ p ∈ t.muts ++ t.upds, p.1 ≠ x) (hrem : x ∉ t.dec.elems)
    (hlinks : ∀ s y, n.Holds s y → y ∉ t.dec.elems ∧ ∀ p ∈ t.redir ++ t.redirAll, p.1 ≠ y)
    (hbd : ∀ m m', Opposite S m m' → m'.disc ≠ n.disc) : ∃ n', g'.get? x = some n' ∧ n.Same n' := by
  obtain ⟨v6, out⟩ := h.commit hw hc
  obtain ⟨n6, h6, s⟩ := performed_kept out.performed hn hmut hrem hlinks
  obtain ⟨n', h7, s'⟩ := out.same.same h6 fun m m' hm hd => hbd m m' hm (hd.trans s.1)
  exact ⟨n', h7, s.trans s'⟩

end TTGraph

namespace TTGraph.Demo
open Spec

/-- Two transactions of one context insert nodes alternately; the first is committed, the second redirects links and is still open. -/
def prog1 : List Step :=
  [.call (.newContext 0 77), .call (.newGraph 0 0), .call (.newTrans 0 0), .call (.newTrans 1 0),
   .call (.op 0 (.insert (nB 0))), .call (.op 1 (.insert (nA 1 [1] [1, 1] 5))), .call (.op 0 (.insert (nB 1))),
   .call (.commit 0 0), .call (.op 1 (.redirectLinks 1 3)), .call (.op 1 (.remove 3))]

/-- The indices are 1, 2, 3, and the open transaction meets the graph. -/
example : Reaches plain true AnyCall (run plain true World.init prog1) ∧ (run plain true World.init prog1).issued 0 = [1, 2, 3] :=
  ⟨reaches prog1 (by decide +kernel), by decide +kernel⟩

/-- The hypotheses of `C02_kept`: node 1 is kept although links to it are redirected, and the new node 2 does not overwrite anything. -/
example :
    let w := run plain true World.init prog1
    Meets plain true AnyCall (graphAt w 0) (transAt w 1) ∧ (transAt w 1).inc.get? 2 ≠ none ∧
    (graphAt w 0).get? 1 = some (nB 0) ∧ (transAt w 1).muts.length = 0 ∧ (transAt w 1).upds.length = 0 ∧ 1 ∉ (transAt w 1).dec.elems ∧
    ((graphAt w 0).commit plain true (transAt w 1)).toOption.isSome = true :=
  ⟨meets_of (reaches prog1 (by decide +kernel)) 0 1 (by decide +kernel), by decide +kernel⟩

end TTGraph.Demo
