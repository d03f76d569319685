import Verif.Lemmas.Switch
import Verif.Lemmas.Left
import Verif.Spec.History

/-!
# Invariant of all worlds that a program can reach
-/

set_option autoImplicit false

namespace TTGraph
open Spec

namespace Graph
section
variable [SetImpl] {S : Schema} {e0 : Prop}

theorem commit_of_checked {dbg : Bool} {g g' : Graph} {t : Trans} {checks : GraphCheck} (h : commitChecked S dbg g t checks = .ok g') :
    commit S dbg g t = .ok g' := by
  simp only [commitChecked] at h
  simp only [commit]
  cases h1 : doCommit S dbg g t with
  | error e => rw [h1] at h; exact absurd h (by simp)
  | ok st =>
    obtain ⟨g1, r⟩ := st
    rw [h1] at h
    simp only at h ⊢
    cases h2 : checkLinkType S g1 r with
    | error e => rw [h2] at h; exact absurd h (by simp)
    | ok u =>
      rw [h2] at h
      simp only at h ⊢
      cases h3 : checkChange g1 r checks with
      | error e => rw [h3] at h; exact absurd h (by simp)
      | ok l =>
        rw [h3] at h
        cases l with
        | nil => simpa using h
        | cons a l => exact absurd h (by simp)

omit [SetImpl] in
/-- The arena that `switch_context` builds. -/
theorem Moved.good {g : Graph} {idMap : OrderMap NodeIndex NodeIndex} {cnt : Nat} {a0 a : Arena}
    {nc Pr : NodeIndex → Source → NodeIndex → Prop} (h : g.Inv S e0)
    (hin : SwitchIn S (g.iter S) cnt (a0, idMap, cnt + (g.iter S).length)) (hm : Moved S g idMap a0 nc Pr a) :
    (∀ j, a.get? j ≠ none → ∃ i n, g.get? i = some n ∧ idMap.get? i = some j) ∧ a.get? emptyIdx = none ∧
    (∀ x n, a.get? x = some n → S.WT n) ∧ ∀ j : Nat, a.disp.get? j ≠ none → cnt < j ∧ j ≤ cnt + (g.iter S).length := by
  have h1 : ∀ j, a.get? j ≠ none → ∃ i n, g.get? i = some n ∧ idMap.get? i = some j := by
    intro j hj
    have : a0.get? j ≠ none := fun e => hj ((hm.absent j).2 e)
    obtain ⟨n, hn⟩ := Option.ne_none_iff_exists'.1 this
    obtain ⟨p, i, h3, h4⟩ := (hin.get j n).1 hn
    exact ⟨i, n, (Arena.mem_entries h.arena).1 (List.mem_of_getElem? h3), (hin.map_get i j).2 ⟨p, n, h3, h4⟩⟩
  have h4 : ∀ j : Nat, a.disp.get? j ≠ none → cnt < j ∧ j ≤ cnt + (g.iter S).length := by
    intro j hj
    rw [hm.disp] at hj
    exact (hin.disp j).1 hj
  refine ⟨h1, ?_, ?_, h4⟩
  · by_contra hne
    obtain ⟨n, hn⟩ := Option.ne_none_iff_exists'.1 hne
    obtain ⟨d, hd, _⟩ := Arena.get?_eq_some.1 hn
    exact absurd (h4 emptyIdx (by rw [hd]; simp)).1 (Nat.not_lt_zero _)
  · intro x n hn
    obtain ⟨i, ni, h5, h6⟩ := h1 x (by rw [hn]; simp)
    obtain ⟨n', h7, h8, _⟩ := hm.node i ni x h5 h6
    rw [hn] at h7
    simp only [Option.some.injEq] at h7
    subst h7
    exact Schema.wt_of_shape h8 (h.wt _ _ h5)

/-- `switch_context` that returns. -/
theorem switchContext_ok (hw : WellNamed S) {g g' : Graph} (h : g.Inv S e0) {newId cnt cnt' : Nat} {a0 a : Arena}
    {idMap : OrderMap NodeIndex NodeIndex} {nc Pr : NodeIndex → Source → NodeIndex → Prop}
    (hin : SwitchIn S (g.iter S) cnt (a0, idMap, cnt + (g.iter S).length)) (hs : switchNodes S g cnt = .ok (a, idMap, cnt + (g.iter S).length))
    (hm : Moved S g idMap a0 nc Pr a) (hc : switchContext S g newId cnt = .ok (g', cnt')) :
    cnt' = cnt + (g.iter S).length ∧ LoadOut S newId a g' ∧
      ∀ x m y n, y ≠ emptyIdx → View.Link a.get? x m y → S.kind? m ≠ some .vec → a.get? y = some n → S.checkLinkType n.disc m = true := by
  obtain ⟨_, h0, hwt, _⟩ := hm.good h hin
  have hok := (merge_new_ok hw.variants hm.inv h0 hwt newId).2.2.2.2.2
  simp only [switchContext, hs] at hc
  cases h1 : applyBidirectional S (mergeNodes S (Graph.new newId) a Lcr.new).1 (mergeNodes S (Graph.new newId) a Lcr.new).2 with
  | error e => rw [h1] at hc; exact absurd hc (by simp)
  | ok g2 =>
    rw [h1] at hc
    simp only at hc
    cases hlt : checkLinkType S g2 (mergeNodes S (Graph.new newId) a Lcr.new).2 with
    | error e => rw [hlt] at hc; exact absurd hc (by simp)
    | ok u =>
      rw [hlt] at hc
      simp only [Except.ok.injEq, Prod.mk.injEq] at hc
      obtain ⟨rfl, rfl⟩ := hc
      have h2 := load_ok hw hm.inv h0 hwt h1
      refine ⟨rfl, h2, ?_⟩
      intro x m y n hy hl hk hn
      have hc : (x, y, m) ∈ (mergeNodes S (Graph.new newId) a Lcr.new).2.adds :=
        (link_of_adds hok hk).2 ⟨hy, hl, by rintro ⟨n, hn, _⟩; exact absurd hn (by simp)⟩
      have := h2.same.1 y
      rw [hn] at this
      simp only [Option.map_some] at this
      obtain ⟨n', hn', hs'⟩ := Option.map_eq_some_iff.1 this
      have hd : n'.disc = n.disc := by simp only [Node.shape, Prod.mk.injEq] at hs'; exact hs'.1
      rw [← hd]
      exact checkLinkType_ok.1 hlt (x, y, m) hc n' hn'

omit [SetImpl] in
theorem le_maxIndex (l : List (NodeIndex × Node)) : ∀ (m : Nat), (∀ e ∈ l, (e.1 : Nat) ≤ l.foldl (fun m e => max m e.1) m) ∧ m ≤ l.foldl (fun m e => max m e.1) m := by
  induction l with
  | nil => intro m; simp
  | cons a l ih =>
    intro m
    simp only [List.foldl_cons, List.forall_mem_cons]
    obtain ⟨h1, h2⟩ := ih (max m a.1)
    refine ⟨⟨?_, h1⟩, ?_⟩
    · exact Nat.le_trans (Nat.le_max_right _ _) h2
    · exact Nat.le_trans (Nat.le_max_left _ _) h2

/-- `deserialize_graph` that returns. -/
theorem deserializeGraph_ok (hw : WellNamed S) {input : GraphSerializer} (hin : ∀ e ∈ input.nodes, e.1 ≠ emptyIdx ∧ S.WT e.2)
    {cnt : Nat} {g : Graph} (hd : deserializeGraph S input = .ok (cnt, g)) :
    (input.nodes.map Prod.fst).Nodup ∧ cnt = maxIndex input.nodes ∧ ∃ a, Arena.FromIter S input.nodes a ∧ a.Inv S ∧ LoadOut S input.ctxId a g := by
  rcases Arena.newFromIter_cases S input.nodes with ⟨hnd, a, h1, h2⟩ | ⟨hnd, h1⟩
  · have hai := h2.inv fun e he => (hin e he).2.disc
    have h0 : a.get? emptyIdx = none := by
      cases hx : a.get? emptyIdx with
      | none => rfl
      | some n => exact absurd rfl (hin _ ((h2.get _ _).1 hx)).1
    have hwt : ∀ x n, a.get? x = some n → S.WT n := fun x n hn => (hin _ ((h2.get _ _).1 hn)).2
    simp only [deserializeGraph, doDeserialize, h1] at hd
    cases h3 : applyBidirectional S (mergeNodes S (Graph.new input.ctxId) a Lcr.new).1 (mergeNodes S (Graph.new input.ctxId) a Lcr.new).2 with
    | error e => rw [h3] at hd; exact absurd hd (by simp)
    | ok g2 =>
      rw [h3] at hd
      simp only [Except.ok.injEq, Prod.mk.injEq] at hd
      obtain ⟨rfl, rfl⟩ := hd
      exact ⟨hnd, rfl, a, h2, hai, load_ok hw hai h0 hwt h3⟩
  · simp only [deserializeGraph, doDeserialize, h1] at hd
    exact absurd hd (by simp)

theorem deserialize_cases (hw : WellNamed S) {input : GraphSerializer} (hin : ∀ e ∈ input.nodes, e.1 ≠ emptyIdx ∧ S.WT e.2) :
    ((input.nodes.map Prod.fst).Nodup ∧ ∃ a, Arena.FromIter S input.nodes a ∧ a.Inv S ∧
      ((∃ g, deserializeGraph S input = .ok (maxIndex input.nodes, g) ∧ LoadOut S input.ctxId a g) ∨
      (deserializeGraph S input = .error .multiChoice ∧ Unanswered S (fun _ => none) a.get? ∧
        Spec.Undecided S (fun _ => none) a.get?) ∨
      (deserializeGraph S input = .error .addOnExisting ∧ Spec.Conflict S (fun _ => none) a.get?) ∨
      (deserializeGraph S input = .error .addOnVec ∧ VecMissing S (fun _ => none) a.get?))) ∨
    (¬ (input.nodes.map Prod.fst).Nodup ∧ deserializeGraph S input = .error .dupIndex) := by
  rcases Arena.newFromIter_cases S input.nodes with ⟨hnd, a, h1, h2⟩ | ⟨hnd, h1⟩
  · left
    have hai := h2.inv fun e he => (hin e he).2.disc
    have h0 : a.get? emptyIdx = none := by
      cases hx : a.get? emptyIdx with
      | none => rfl
      | some n => exact absurd rfl (hin _ ((h2.get _ _).1 hx)).1
    have hwt : ∀ x n, a.get? x = some n → S.WT n := fun x n hn => (hin _ ((h2.get _ _).1 hn)).2
    refine ⟨hnd, a, h2, hai, ?_⟩
    have hd : doDeserialize S input.ctxId input.nodes =
        applyBidirectional S (mergeNodes S (Graph.new input.ctxId) a Lcr.new).1 (mergeNodes S (Graph.new input.ctxId) a Lcr.new).2 := by
      simp only [doDeserialize, h1]
    rcases load_cases hw hai h0 hwt input.ctxId with ⟨g', h3, h4⟩ | ⟨h3, h4⟩ | ⟨h3, h4⟩ | ⟨h3, h4⟩
    · exact Or.inl ⟨g', by simp only [deserializeGraph, hd, h3], h4⟩
    · exact Or.inr (Or.inl ⟨by simp only [deserializeGraph, hd, h3], h4⟩)
    · exact Or.inr (Or.inr (Or.inl ⟨by simp only [deserializeGraph, hd, h3], h4⟩))
    · exact Or.inr (Or.inr (Or.inr ⟨by simp only [deserializeGraph, hd, h3], h4⟩))
  · right
    exact ⟨hnd, by simp only [deserializeGraph, doDeserialize, h1]⟩

end
end Graph

/-! ### The invariant -/

namespace World

/-- A graph (`inl`) or a transaction (`inr`), by its handle. -/
abbrev Obj := Nat ⊕ Nat

/-- The object `o` belongs to the context `c` and owns the index `i`. -/
def Owns (w : World) : Obj → Nat → Nat → Prop
  | .inl h, c, i => ∃ g, w.graph h = some (c, g) ∧ g.Owns i
  | .inr k, c, i => ∃ t, w.trans k = some (c, t) ∧ t.Owns i

/-- The invariant. -/
structure WInv (S : Schema) (w : World) : Prop where
  graph : ∀ h c g, w.graph h = some (c, g) → ∃ x, w.ctx c = some x ∧ g.ctxId = x.uuid ∧ g.Inv S False
  trans : ∀ k c t, w.trans k = some (c, t) → ∃ x, w.ctx c = some x ∧ t.ctxId = x.uuid ∧ t.Ready S
  bound : ∀ o c i, w.Owns o c i → ∃ x, w.ctx c = some x ∧ i ≠ emptyIdx ∧ i ≤ x.cnt
  disj : ∀ o o' c i, w.Owns o c i → w.Owns o' c i → o = o'
  issuedNodup : ∀ c, (w.issued c).Nodup
  issued : ∀ c, ∀ i ∈ w.issued c, ∃ x, w.ctx c = some x ∧ i ≠ emptyIdx ∧ (i : Nat) ≤ x.cnt

theorem init_inv (S : Schema) : WInv S init where
  graph := by intro h c g hg; exact absurd hg (by simp [init])
  trans := by intro h c g hg; exact absurd hg (by simp [init])
  bound := by
    rintro (h | h) c i ⟨g, hg, _⟩ <;> exact absurd hg (by simp [init])
  disj := by
    rintro (h | h) o' c i ⟨g, hg, _⟩ <;> exact absurd hg (by simp [init])
  issuedNodup := by intro c; simp [init]
  issued := by intro c i hi; exact absurd hi (by simp [init])

/-- How the invariant is preserved: contexts stay and their counters grow, changed objects are good, the owner of an index is the old owner,
a new owner it was handed to, or the one object that got fresh indices. -/
theorem WInv.step {S : Schema} {w w' : World} (h : WInv S w)
    (hctx : ∀ c x, w.ctx c = some x → ∃ x', w'.ctx c = some x' ∧ x'.uuid = x.uuid ∧ x.cnt ≤ x'.cnt)
    (hgr : ∀ k c g, w'.graph k = some (c, g) → w.graph k = some (c, g) ∨ ∃ x', w'.ctx c = some x' ∧ g.ctxId = x'.uuid ∧ g.Inv S False)
    (htr : ∀ k c t, w'.trans k = some (c, t) → w.trans k = some (c, t) ∨ ∃ x', w'.ctx c = some x' ∧ t.ctxId = x'.uuid ∧ t.Ready S)
    (f : Obj → Obj) (o0 : Obj)
    (hown : ∀ o c i, w'.Owns o c i → (∃ o1, f o1 = o ∧ w.Owns o1 c i) ∨
      (o = o0 ∧ i ≠ emptyIdx ∧ (∃ x', w'.ctx c = some x' ∧ i ≤ x'.cnt) ∧ ∀ x, w.ctx c = some x → x.cnt < i))
    (his : ∀ c, ∃ l : List Nat, w'.issued c = w.issued c ++ l ∧ l.Nodup ∧ ∀ i ∈ l, i ≠ emptyIdx ∧ (∃ x', w'.ctx c = some x' ∧ i ≤ x'.cnt) ∧
      ∀ x, w.ctx c = some x → x.cnt < i) : WInv S w' where
  graph := by
    intro k c g hg
    rcases hgr k c g hg with h1 | h1
    · obtain ⟨x, h2, h3, h4⟩ := h.graph k c g h1
      obtain ⟨x', h5, h6, _⟩ := hctx c x h2
      exact ⟨x', h5, h3.trans h6.symm, h4⟩
    · exact h1
  trans := by
    intro k c g hg
    rcases htr k c g hg with h1 | h1
    · obtain ⟨x, h2, h3, h4⟩ := h.trans k c g h1
      obtain ⟨x', h5, h6, _⟩ := hctx c x h2
      exact ⟨x', h5, h3.trans h6.symm, h4⟩
    · exact h1
  bound := by
    intro o c i ho
    rcases hown o c i ho with ⟨o1, _, h1⟩ | ⟨_, h1, ⟨x', h2, h3⟩, _⟩
    · obtain ⟨x, h2, h3, h4⟩ := h.bound o1 c i h1
      obtain ⟨x', h5, _, h6⟩ := hctx c x h2
      exact ⟨x', h5, h3, Nat.le_trans h4 h6⟩
    · exact ⟨x', h2, h1, h3⟩
  disj := by
    intro o o' c i ho ho'
    rcases hown o c i ho with ⟨o1, e1, h1⟩ | ⟨e1, _, _, h1⟩ <;> rcases hown o' c i ho' with ⟨o2, e2, h2⟩ | ⟨e2, _, _, h2⟩
    · rw [← e1, ← e2, h.disj o1 o2 c i h1 h2]
    · obtain ⟨x, h3, _, h4⟩ := h.bound o1 c i h1
      exact absurd (h2 x h3) (by omega)
    · obtain ⟨x, h3, _, h4⟩ := h.bound o2 c i h2
      exact absurd (h1 x h3) (by omega)
    · rw [e1, e2]
  issuedNodup := by
    intro c
    obtain ⟨l, h1, h2, h3⟩ := his c
    rw [h1, List.nodup_append]
    refine ⟨h.issuedNodup c, h2, ?_⟩
    rintro i hi j hj rfl
    obtain ⟨x, h4, _, h5⟩ := h.issued c i hi
    exact absurd ((h3 i hj).2.2 x h4) (by simpa using h5)
  issued := by
    intro c i hi
    obtain ⟨l, h1, h2, h3⟩ := his c
    rw [h1, List.mem_append] at hi
    rcases hi with hi | hi
    · obtain ⟨x, h4, h5, h6⟩ := h.issued c i hi
      obtain ⟨x', h7, _, h8⟩ := hctx c x h4
      exact ⟨x', h7, h5, Nat.le_trans h6 h8⟩
    · obtain ⟨h4, ⟨x', h5, h6⟩, _⟩ := h3 i hi
      exact ⟨x', h5, h4, h6⟩

/-- The same when contexts and issued indices do not change and nobody gets fresh indices. -/
theorem WInv.quiet {S : Schema} {w w' : World} (h : WInv S w) (hctx : w'.ctx = w.ctx) (his : w'.issued = w.issued)
    (hgr : ∀ k c g, w'.graph k = some (c, g) → w.graph k = some (c, g) ∨ ∃ x', w.ctx c = some x' ∧ g.ctxId = x'.uuid ∧ g.Inv S False)
    (htr : ∀ k c t, w'.trans k = some (c, t) → w.trans k = some (c, t) ∨ ∃ x', w.ctx c = some x' ∧ t.ctxId = x'.uuid ∧ t.Ready S)
    (f : Obj → Obj) (hown : ∀ o c i, w'.Owns o c i → ∃ o1, f o1 = o ∧ w.Owns o1 c i) : WInv S w' := by
  refine h.step ?_ ?_ ?_ f (.inl 0) (fun o c i ho => Or.inl (hown o c i ho)) ?_
  · intro c x hx; exact ⟨x, by rw [hctx]; exact hx, rfl, Nat.le_refl _⟩
  · rw [hctx]; exact hgr
  · rw [hctx]; exact htr
  · intro c; exact ⟨[], by rw [his]; simp, List.nodup_nil, by simp⟩

theorem WInv.setGraph_none {S : Schema} {w : World} (h : WInv S w) (k : Nat) : WInv S (w.setGraph k none) := by
  refine h.quiet rfl rfl ?_ (fun _ _ _ h => Or.inl h) id ?_
  · intro j c g hg
    simp only [setGraph, put] at hg
    split at hg
    · exact absurd hg (by simp)
    · exact Or.inl hg
  · rintro (j | j) c i ⟨g, hg, ho⟩
    · simp only [setGraph, put] at hg
      split at hg
      · exact absurd hg (by simp)
      · exact ⟨.inl j, rfl, g, hg, ho⟩
    · exact ⟨.inr j, rfl, g, hg, ho⟩

theorem WInv.setTrans_none {S : Schema} {w : World} (h : WInv S w) (k : Nat) : WInv S (w.setTrans k none) := by
  refine h.quiet rfl rfl (fun _ _ _ h => Or.inl h) ?_ id ?_
  · intro j c g hg
    simp only [setTrans, put] at hg
    split at hg
    · exact absurd hg (by simp)
    · exact Or.inl hg
  · rintro (j | j) c i ⟨g, hg, ho⟩
    · exact ⟨.inl j, rfl, g, hg, ho⟩
    · simp only [setTrans, put] at hg
      split at hg
      · exact absurd hg (by simp)
      · exact ⟨.inr j, rfl, g, hg, ho⟩

theorem WInv.addCtx {S : Schema} {w : World} (h : WInv S w) {c : Nat} (hc : w.ctx c = none) (u cnt : Nat) : WInv S (w.addCtx c u cnt) := by
  have hctx : ∀ c' x, w.ctx c' = some x → (w.addCtx c u cnt).ctx c' = some x := by
    intro c' x hx
    simp only [World.addCtx, put]
    split
    · rename_i e; rw [e, hc] at hx; exact absurd hx (by simp)
    · exact hx
  refine h.step (fun c' x hx => ⟨x, hctx c' x hx, rfl, Nat.le_refl _⟩) (fun _ _ _ h => Or.inl h) (fun _ _ _ h => Or.inl h) id (.inl 0) ?_
    (fun c => ⟨[], by simp [World.addCtx], List.nodup_nil, by simp⟩)
  rintro (j | j) c i ⟨g, hg, ho⟩
  · exact Or.inl ⟨.inl j, rfl, g, hg, ho⟩
  · exact Or.inl ⟨.inr j, rfl, g, hg, ho⟩

theorem WInv.issue {S : Schema} {w : World} (h : WInv S w) {c : Nat} {x : Ctx} (hc : w.ctx c = some x) {cnt : Nat} (hle : x.cnt ≤ cnt)
    {l : List Nat} (hl : l.Nodup) (hb : ∀ i ∈ l, x.cnt < i ∧ i ≤ cnt) : WInv S (w.issue c x cnt l) := by
  have hctx : ∀ c' x1, w.ctx c' = some x1 → ∃ x', (w.issue c x cnt l).ctx c' = some x' ∧ x'.uuid = x1.uuid ∧ x1.cnt ≤ x'.cnt := by
    intro c' x1 hx
    simp only [World.issue, put]
    split
    · rename_i e
      rw [e, hc] at hx
      simp only [Option.some.injEq] at hx
      subst hx
      exact ⟨_, rfl, rfl, hle⟩
    · exact ⟨x1, hx, rfl, Nat.le_refl _⟩
  refine h.step hctx (fun _ _ _ h => Or.inl h) (fun _ _ _ h => Or.inl h) id (.inl 0) ?_ ?_
  · rintro (j | j) c i ⟨g, hg, ho⟩
    · exact Or.inl ⟨.inl j, rfl, g, hg, ho⟩
    · exact Or.inl ⟨.inr j, rfl, g, hg, ho⟩
  · intro c'
    by_cases he : c' = c
    · subst he
      refine ⟨l, by simp [World.issue, put], hl, ?_⟩
      intro i hi
      obtain ⟨h1, h2⟩ := hb i hi
      refine ⟨?_, ⟨_, by simp [World.issue, put]; rfl, h2⟩, ?_⟩
      · rintro rfl; exact absurd h1 (Nat.not_lt_zero _)
      · intro x1 hx
        rw [hc] at hx
        simp only [Option.some.injEq] at hx
        subst hx
        exact h1
    · exact ⟨[], by simp [World.issue, put, he], List.nodup_nil, by simp⟩

theorem WInv.newGraph {S : Schema} {w : World} (h : WInv S w) {c : Nat} {x : Ctx} (hc : w.ctx c = some x) (k : Nat) {g : Graph}
    (hg : g.ctxId = x.uuid) (hi : g.Inv S False) (ho : ∀ o i, g.Owns i → ¬ w.Owns o c i) (hb : ∀ i : Nat, g.Owns i → i ≠ emptyIdx ∧ i ≤ x.cnt) :
    WInv S (w.setGraph k (some (c, g))) where
  graph := by
    intro j c' g' hg'
    simp only [setGraph, put] at hg'
    split at hg'
    · simp only [Option.some.injEq, Prod.mk.injEq] at hg'
      obtain ⟨rfl, rfl⟩ := hg'
      exact ⟨x, hc, hg, hi⟩
    · exact h.graph j c' g' hg'
  trans := h.trans
  bound := by
    rintro (j | j) c' i ⟨g', hg', ho'⟩
    · simp only [setGraph, put] at hg'
      split at hg'
      · simp only [Option.some.injEq, Prod.mk.injEq] at hg'
        obtain ⟨rfl, rfl⟩ := hg'
        exact ⟨x, hc, hb i ho'⟩
      · exact h.bound (.inl j) c' i ⟨g', hg', ho'⟩
    · exact h.bound (.inr j) c' i ⟨g', hg', ho'⟩
  disj := by
    have key : ∀ o i, (w.setGraph k (some (c, g))).Owns o c i → g.Owns i → o = .inl k := by
      rintro (j | j) i ⟨g', hg', ho'⟩ hgi
      · simp only [setGraph, put] at hg'
        split at hg'
        · rename_i e; rw [e]
        · exact absurd ⟨g', hg', ho'⟩ (ho (.inl j) i hgi)
      · exact absurd ⟨g', hg', ho'⟩ (ho (.inr j) i hgi)
    have key2 : ∀ o c' i, (w.setGraph k (some (c, g))).Owns o c' i → w.Owns o c' i ∨ (o = .inl k ∧ c' = c ∧ g.Owns i) := by
      rintro (j | j) c' i ⟨g', hg', ho'⟩
      · simp only [setGraph, put] at hg'
        split at hg'
        · rename_i e
          simp only [Option.some.injEq, Prod.mk.injEq] at hg'
          obtain ⟨rfl, rfl⟩ := hg'
          exact Or.inr ⟨by rw [e], rfl, ho'⟩
        · exact Or.inl ⟨g', hg', ho'⟩
      · exact Or.inl ⟨g', hg', ho'⟩
    intro o o' c' i h1 h2
    rcases key2 o c' i h1 with h3 | ⟨rfl, rfl, h3⟩
    · rcases key2 o' c' i h2 with h4 | ⟨rfl, rfl, h4⟩
      · exact h.disj _ _ _ _ h3 h4
      · exact key _ _ h1 h4
    · exact (key _ _ h2 h3).symm
  issuedNodup := h.issuedNodup
  issued := h.issued

theorem WInv.newTrans {S : Schema} {w : World} (h : WInv S w) {c : Nat} {x : Ctx} (hc : w.ctx c = some x) (k : Nat) {t : Trans}
    (ht : t.ctxId = x.uuid) (hi : t.Ready S) (ho : ∀ o i, t.Owns i → ¬ w.Owns o c i) (hb : ∀ i : Nat, t.Owns i → i ≠ emptyIdx ∧ i ≤ x.cnt) :
    WInv S (w.setTrans k (some (c, t))) where
  trans := by
    intro j c' g' hg'
    simp only [setTrans, put] at hg'
    split at hg'
    · simp only [Option.some.injEq, Prod.mk.injEq] at hg'
      obtain ⟨rfl, rfl⟩ := hg'
      exact ⟨x, hc, ht, hi⟩
    · exact h.trans j c' g' hg'
  graph := h.graph
  bound := by
    rintro (j | j) c' i ⟨g', hg', ho'⟩
    · exact h.bound (.inl j) c' i ⟨g', hg', ho'⟩
    · simp only [setTrans, put] at hg'
      split at hg'
      · simp only [Option.some.injEq, Prod.mk.injEq] at hg'
        obtain ⟨rfl, rfl⟩ := hg'
        exact ⟨x, hc, hb i ho'⟩
      · exact h.bound (.inr j) c' i ⟨g', hg', ho'⟩
  disj := by
    have key : ∀ o i, (w.setTrans k (some (c, t))).Owns o c i → t.Owns i → o = .inr k := by
      rintro (j | j) i ⟨g', hg', ho'⟩ hgi
      · exact absurd ⟨g', hg', ho'⟩ (ho (.inl j) i hgi)
      · simp only [setTrans, put] at hg'
        split at hg'
        · rename_i e; rw [e]
        · exact absurd ⟨g', hg', ho'⟩ (ho (.inr j) i hgi)
    have key2 : ∀ o c' i, (w.setTrans k (some (c, t))).Owns o c' i → w.Owns o c' i ∨ (o = .inr k ∧ c' = c ∧ t.Owns i) := by
      rintro (j | j) c' i ⟨g', hg', ho'⟩
      · exact Or.inl ⟨g', hg', ho'⟩
      · simp only [setTrans, put] at hg'
        split at hg'
        · rename_i e
          simp only [Option.some.injEq, Prod.mk.injEq] at hg'
          obtain ⟨rfl, rfl⟩ := hg'
          exact Or.inr ⟨by rw [e], rfl, ho'⟩
        · exact Or.inl ⟨g', hg', ho'⟩
    intro o o' c' i h1 h2
    rcases key2 o c' i h1 with h3 | ⟨rfl, rfl, h3⟩
    · rcases key2 o' c' i h2 with h4 | ⟨rfl, rfl, h4⟩
      · exact h.disj _ _ _ _ h3 h4
      · exact key _ _ h1 h4
    · exact (key _ _ h2 h3).symm
  issuedNodup := h.issuedNodup
  issued := h.issued

theorem setGraph_setGraph (w : World) (k : Nat) (a b : Option (Nat × Graph)) : (w.setGraph k a).setGraph k b = w.setGraph k b := by
  simp only [setGraph, World.mk.injEq, and_true, true_and]
  funext j
  simp only [put]
  split <;> rfl

theorem setTrans_setTrans (w : World) (k : Nat) (a b : Option (Nat × Trans)) : (w.setTrans k a).setTrans k b = w.setTrans k b := by
  simp only [setTrans, World.mk.injEq, and_true, true_and]
  funext j
  simp only [put]
  split <;> rfl

theorem owns_setGraph_none {w : World} {k : Nat} {o : Obj} {c i : Nat} (h : (w.setGraph k none).Owns o c i) : w.Owns o c i ∧ o ≠ .inl k := by
  rcases o with j | j
  · obtain ⟨g', hg', ho'⟩ := h
    simp only [setGraph, put] at hg'
    split at hg'
    · exact absurd hg' (by simp)
    · rename_i e
      exact ⟨⟨g', hg', ho'⟩, by simpa using e⟩
  · exact ⟨h, by simp⟩

theorem owns_setTrans_none {w : World} {k : Nat} {o : Obj} {c i : Nat} (h : (w.setTrans k none).Owns o c i) : w.Owns o c i ∧ o ≠ .inr k := by
  rcases o with j | j
  · exact ⟨h, by simp⟩
  · obtain ⟨g', hg', ho'⟩ := h
    simp only [setTrans, put] at hg'
    split at hg'
    · exact absurd hg' (by simp)
    · rename_i e
      exact ⟨⟨g', hg', ho'⟩, by simpa using e⟩

theorem owns_issue {w : World} {c' : Nat} {x : Ctx} {cnt : Nat} {l : List NodeIndex} {o : Obj} {c i : Nat} :
    (w.issue c' x cnt l).Owns o c i ↔ w.Owns o c i := by
  rcases o with j | j <;> rfl

theorem owns_addCtx {w : World} {c' u cnt : Nat} {o : Obj} {c i : Nat} : (w.addCtx c' u cnt).Owns o c i ↔ w.Owns o c i := by
  rcases o with j | j <;> rfl

section
variable [SetImpl] {S : Schema}

omit [SetImpl] in
/-- A successful operation on a transaction. -/
theorem WInv.op {w : World} (h : WInv S w) {k c : Nat} {t t' : Trans} {x : Ctx} {cnt : Nat} {l : List NodeIndex}
    (ht : w.trans k = some (c, t)) (hc : w.ctx c = some x) (hg : Trans.Grown S t t' x.cnt cnt l) :
    WInv S ((w.issue c x cnt l).setTrans k (some (c, t'))) := by
  have h1 := (h.setTrans_none k).issue hc hg.le (l := l) (by rw [hg.list]; exact List.nodup_range') (by
    intro i hi
    rw [hg.list, List.mem_range'_1] at hi
    have := hg.le
    omega)
  have hbt : ∀ i : Nat, t.Owns i → i ≠ emptyIdx ∧ i ≤ x.cnt := by
    intro i hi
    obtain ⟨x', hx', h2⟩ := h.bound (.inr k) c i ⟨t, ht, hi⟩
    rw [hc] at hx'
    simp only [Option.some.injEq] at hx'
    subst hx'
    exact h2
  obtain ⟨x0, hx0, hu, _⟩ := h.trans k c t ht
  rw [hc] at hx0
  simp only [Option.some.injEq] at hx0
  subst hx0
  have h2 := h1.newTrans (c := c) (x := { x with cnt }) (by simp [World.issue, put]) k (t := t') (by simp only; rw [hg.ctx, hu]) hg.ready (by
    intro o i hi ho
    rw [owns_issue] at ho
    obtain ⟨ho, hne⟩ := owns_setTrans_none ho
    rcases hg.owns i hi with h3 | h3
    · exact hne (h.disj o (.inr k) c i ho ⟨t, ht, h3⟩)
    · obtain ⟨x', hx', _, h4⟩ := h.bound o c i ho
      rw [hc] at hx'
      simp only [Option.some.injEq] at hx'
      subst hx'
      have h3' := h3.1
      omega) (by
    intro i hi
    rcases hg.owns i hi with h3 | h3
    · have := hbt i h3
      exact ⟨this.1, Nat.le_trans this.2 hg.le⟩
    · refine ⟨?_, h3.2⟩
      rintro rfl
      exact absurd h3.1 (Nat.not_lt_zero _))
  have e : ((w.setTrans k none).issue c x cnt l).setTrans k (some (c, t')) = (w.issue c x cnt l).setTrans k (some (c, t')) := by
    exact setTrans_setTrans (w.issue c x cnt l) k none _
  rwa [e] at h2

omit [SetImpl] in
/-- What the invariant says about a graph and a transaction of the same context. -/
theorem WInv.pair {w : World} (h : WInv S w) {k gh c : Nat} {t : Trans} {g : Graph} (ht : w.trans k = some (c, t))
    (hg : w.graph gh = some (c, g)) :
    ∃ x, w.ctx c = some x ∧ t.ctxId = x.uuid ∧ g.ctxId = x.uuid ∧ t.Ready S ∧ g.Inv S False ∧ (∀ i, t.Owns i → ¬ g.Owns i) ∧
      g.nodes.Disjoint t.inc ∧ (∀ i : Nat, t.Owns i ∨ g.Owns i → i ≠ emptyIdx ∧ i ≤ x.cnt) := by
  obtain ⟨x, h1, h2, h3⟩ := h.trans k c t ht
  obtain ⟨x', h4, h5, h6⟩ := h.graph gh c g hg
  rw [h1] at h4
  simp only [Option.some.injEq] at h4
  subst h4
  have hd : ∀ i, t.Owns i → ¬ g.Owns i := by
    intro i hi hgi
    have := h.disj (.inr k) (.inl gh) c i ⟨t, ht, hi⟩ ⟨g, hg, hgi⟩
    exact absurd this (by simp)
  refine ⟨x, h1, h2, h5, h3, h6, hd, ?_, ?_⟩
  · intro i hi
    by_contra hne
    exact hd i (Or.inl hi) hne
  · intro i hi
    have key : ∃ x', w.ctx c = some x' ∧ i ≠ emptyIdx ∧ i ≤ x'.cnt := by
      rcases hi with hi | hi
      · exact h.bound (.inr k) c i ⟨t, ht, hi⟩
      · exact h.bound (.inl gh) c i ⟨g, hg, hi⟩
    obtain ⟨x', h7, h8⟩ := key
    rw [h1] at h7
    simp only [Option.some.injEq] at h7
    subst h7
    exact h8

omit [SetImpl] in
/-- Merging a graph into a transaction keeps the transaction ready. -/
theorem _root_.TTGraph.Trans.merge_ready {t : Trans} {g : Graph} (ht : t.Ready S) (hg : g.Inv S False) (hd : ∀ i, t.Owns i → ¬ g.Owns i) :
    ({ t with inc := t.inc.merge g.nodes } : Trans).Ready S ∧ (∀ j, (t.inc.merge g.nodes).get? j = (g.get? j <|> t.inc.get? j)) := by
  have hdis : t.inc.Disjoint g.nodes := by
    intro i hi
    by_contra hne
    exact hd i (Or.inl hne) hi
  have hget : ∀ j, (t.inc.merge g.nodes).get? j = (g.get? j <|> t.inc.get? j) := Arena.merge_get? ht.good.inv hg.arena hdis
  refine ⟨⟨⟨Arena.merge_inv ht.good.inv hg.arena hdis, ?_, ?_, ht.good.closures⟩, ht.noFrom, ?_⟩, hget⟩
  · show (t.inc.merge g.nodes).get? emptyIdx = none
    rw [hget, hg.noEmpty, ht.good.noEmpty]
    rfl
  · intro x n hn
    have hn' : (t.inc.merge g.nodes).get? x = some n := hn
    rw [hget] at hn'
    cases hx : g.get? x with
    | none => rw [hx] at hn'; exact ht.good.wt x n hn'
    | some m => rw [hx] at hn'; simp only [some_alt, Option.some.injEq] at hn'; subst hn'; exact hg.wt _ _ hx
  · intro i hi
    show (t.inc.merge g.nodes).get? i = none
    rw [hget, ht.allocs i hi]
    cases hx : g.get? i with
    | none => rfl
    | some m =>
      obtain ⟨d, h1, _⟩ := Arena.get?_eq_some.1 hx
      exact absurd (show g.Owns i by simp [Graph.Owns, h1]) (hd i (Or.inr hi))

omit [SetImpl] in
theorem WInv.merge {w : World} (h : WInv S w) {k gh c : Nat} {t : Trans} {g : Graph} (ht : w.trans k = some (c, t))
    (hg : w.graph gh = some (c, g)) : WInv S ((w.setTrans k (some (c, { t with inc := t.inc.merge g.nodes }))).setGraph gh none) := by
  obtain ⟨x, h1, h2, h3, h4, h5, h6, h7, h8⟩ := h.pair ht hg
  have hown : ∀ i, ({ t with inc := t.inc.merge g.nodes } : Trans).Owns i → t.Owns i ∨ g.Owns i := by
    intro i hi
    rcases hi with hi | hi
    · simp only [Arena.merge_disp] at hi
      cases hx : g.nodes.disp.get? i with
      | none => rw [hx] at hi; exact Or.inl (Or.inl hi)
      | some d => exact Or.inr (by simp [Graph.Owns, hx])
    · exact Or.inl (Or.inr hi)
  have h9 := ((h.setGraph_none gh).setTrans_none k).newTrans (c := c) (x := x) h1 k (t := { t with inc := t.inc.merge g.nodes })
    h2 (Trans.merge_ready h4 h5 h6).1 (by
      intro o i hi ho
      obtain ⟨ho, hne1⟩ := owns_setTrans_none ho
      obtain ⟨ho, hne2⟩ := owns_setGraph_none ho
      rcases hown i hi with h10 | h10
      · exact hne1 (h.disj o (.inr k) c i ho ⟨t, ht, h10⟩)
      · exact hne2 (h.disj o (.inl gh) c i ho ⟨g, hg, h10⟩)) (fun i hi => h8 i (hown i hi))
  have e : ((w.setGraph gh none).setTrans k none).setTrans k (some (c, { t with inc := t.inc.merge g.nodes })) =
      (w.setTrans k (some (c, { t with inc := t.inc.merge g.nodes }))).setGraph gh none := by
    rw [setTrans_setTrans]; rfl
  rwa [e] at h9

theorem WInv.commit (hw : WellNamed S) {dbg : Bool} {w : World} (h : WInv S w) {k gh c : Nat} {t : Trans} {g g' : Graph}
    (ht : w.trans k = some (c, t)) (hg : w.graph gh = some (c, g)) (hc : g.commit S dbg t = .ok g') :
    WInv S ((w.setTrans k none).setGraph gh (some (c, g'))) := by
  obtain ⟨x, h1, h2, h3, h4, h5, h6, h7, h8⟩ := h.pair ht hg
  obtain ⟨v6, out⟩ := Graph.commit_ok hw h5 h4.good h7 h4.noFrom hc
  have hown : ∀ i, g'.Owns i → t.Owns i ∨ g.Owns i := by
    intro i hi
    simp only [Graph.Owns, out.disp] at hi
    split at hi
    · exact absurd rfl hi
    · cases hx : t.inc.disp.get? i with
      | none => rw [hx] at hi; exact Or.inr hi
      | some d => exact Or.inl (Or.inl (by simp [hx]))
  have h9 := ((h.setGraph_none gh).setTrans_none k).newGraph (c := c) (x := x) h1 gh (g := g') (by rw [out.ctx, h3])
    (out.inv.mono (by simp)) (by
      intro o i hi ho
      obtain ⟨ho, hne1⟩ := owns_setTrans_none ho
      obtain ⟨ho, hne2⟩ := owns_setGraph_none ho
      rcases hown i hi with h10 | h10
      · exact hne1 (h.disj o (.inr k) c i ho ⟨t, ht, h10⟩)
      · exact hne2 (h.disj o (.inl gh) c i ho ⟨g, hg, h10⟩)) (fun i hi => h8 i (hown i hi))
  have e : ((w.setGraph gh none).setTrans k none).setGraph gh (some (c, g')) = (w.setTrans k none).setGraph gh (some (c, g')) := by
    exact setGraph_setGraph (w.setTrans k none) gh none _
  rwa [e] at h9

theorem WInv.caught (hw : WellNamed S) {dbg : Bool} {w : World} (h : WInv S w) {k gh c : Nat} {t : Trans} {g : Graph}
    (ht : w.trans k = some (c, t)) (hg : w.graph gh = some (c, g)) :
    WInv S ((w.setTrans k none).setGraph gh ((g.commitLeft S dbg t).map fun g' => (c, g'))) := by
  cases hc : g.commitLeft S dbg t with
  | none => exact (h.setTrans_none k).setGraph_none gh
  | some g' =>
    obtain ⟨x, h1, h2, h3, h4, h5, h6, h7, h8⟩ := h.pair ht hg
    obtain ⟨out, _⟩ := Graph.commitLeft_out hw.variants h5 h4.good h7 h4.noFrom hc
    have hown : ∀ i, g'.Owns i → t.Owns i ∨ g.Owns i := fun i hi => (out.sub i hi).imp_left Or.inl
    have h9 := ((h.setGraph_none gh).setTrans_none k).newGraph (c := c) (x := x) h1 gh (g := g') (by rw [out.ctx, h3])
      (out.inv.mono (by simp)) (by
        intro o i hi ho
        obtain ⟨ho, hne1⟩ := owns_setTrans_none ho
        obtain ⟨ho, hne2⟩ := owns_setGraph_none ho
        rcases hown i hi with h10 | h10
        · exact hne1 (h.disj o (.inr k) c i ho ⟨t, ht, h10⟩)
        · exact hne2 (h.disj o (.inl gh) c i ho ⟨g, hg, h10⟩)) (fun i hi => h8 i (hown i hi))
    have e : ((w.setGraph gh none).setTrans k none).setGraph gh (some (c, g')) = (w.setTrans k none).setGraph gh (some (c, g')) := by
      exact setGraph_setGraph (w.setTrans k none) gh none _
    rwa [e] at h9

theorem WInv.switch (hw : WellNamed S) {w : World} (h : WInv S w) {gh c0 c : Nat} {x : Ctx} {g : Graph}
    (hg : w.graph gh = some (c0, g)) (hc : w.ctx c = some x) (dbg : Bool) : WInv S (w.exec S dbg (.switchContext gh c)) := by
  obtain ⟨_, _, _, hgi⟩ := h.graph gh c0 g hg
  obtain ⟨a0, idMap, a, h1, h2, h3, h4, h5, h6, h7⟩ := Graph.switchNodes_ok hw.variants hgi x.cnt
  have hiss : WInv S (w.issue c x (x.cnt + (g.iter S).length) (idMap.entries.map Prod.snd)) := by
    refine h.issue hc (by omega) ?_ ?_
    · have : idMap.entries = (g.iter S).zipIdx.map fun q => (q.1.1, Graph.newIndex x.cnt q.2) := h2.map
      have e2 : (fun q : (NodeIndex × Node) × Nat => Graph.newIndex x.cnt q.2) = (Graph.newIndex x.cnt) ∘ Prod.snd := rfl
      rw [this, List.map_map]
      show ((g.iter S).zipIdx.map fun q => Graph.newIndex x.cnt q.2).Nodup
      rw [e2, ← List.map_map, List.zipIdx_map_snd]
      refine List.Nodup.map ?_ (List.nodup_range')
      intro p q hpq
      simp only [Graph.newIndex] at hpq
      omega
    · intro j hj
      obtain ⟨⟨i, j'⟩, hm, rfl⟩ := List.mem_map.1 hj
      exact h6 i j' (OrderMap.get?_eq_some.2 hm)
  have hgood := h7.good hgi h2
  simp only [exec, hg, hc, h1]
  cases k1 : g.switchContext S x.uuid x.cnt with
  | error e => exact hiss.setGraph_none gh
  | ok st =>
    obtain ⟨g', cnt'⟩ := st
    obtain ⟨rfl, k2, _⟩ := Graph.switchContext_ok hw hgi h2 h3 h7 k1
    simp only
    have h9 := (hiss.setGraph_none gh).newGraph (c := c) (x := { x with cnt := x.cnt + (g.iter S).length }) (by simp [World.issue, World.setGraph, put]) gh (g := g')
      (by rw [k2.ctx]) (k2.inv.mono (by simp)) (by
        intro o i hi ho
        obtain ⟨ho, _⟩ := owns_setGraph_none ho
        rw [owns_issue] at ho
        obtain ⟨x', hx', _, hle⟩ := h.bound o c i ho
        rw [hc] at hx'
        simp only [Option.some.injEq] at hx'
        subst hx'
        simp only [Graph.Owns, k2.disp] at hi
        have := (hgood.2.2.2 i hi).1
        omega) (by
        intro i hi
        simp only [Graph.Owns, k2.disp] at hi
        have := hgood.2.2.2 i hi
        refine ⟨?_, this.2⟩
        rintro rfl
        exact absurd this.1 (Nat.not_lt_zero _))
    rwa [setGraph_setGraph] at h9

theorem WInv.deserialize (hw : WellNamed S) {w : World} (h : WInv S w) {gh c : Nat} {input : GraphSerializer}
    (hc : w.ctx c = none) (hin : ∀ e ∈ input.nodes, e.1 ≠ emptyIdx ∧ S.WT e.2) (dbg : Bool) :
    WInv S (w.exec S dbg (.deserialize gh c input)) := by
  simp only [exec]
  cases hd : Graph.deserializeGraph S input with
  | error e => exact h
  | ok st =>
    obtain ⟨cnt, g⟩ := st
    obtain ⟨hnd, rfl, a, h1, h2, h4⟩ := Graph.deserializeGraph_ok hw hin hd
    simp only
    refine (h.addCtx hc _ _).newGraph (c := c) (x := ⟨input.ctxId, Graph.maxIndex input.nodes⟩) (by simp [World.addCtx, put]) gh h4.ctx
      (h4.inv.mono (by simp)) ?_ ?_
    · intro o i hi ho
      rw [owns_addCtx] at ho
      obtain ⟨x', hx', _⟩ := h.bound o c i ho
      rw [hc] at hx'
      exact absurd hx' (by simp)
    · intro i hi
      simp only [Graph.Owns, h4.disp] at hi
      obtain ⟨e, he, rfl⟩ := List.mem_map.1 ((h1.disp i).1 hi)
      exact ⟨(hin e he).1, (Graph.le_maxIndex input.nodes 0).1 e he⟩

theorem WInv.exec (hw : WellNamed S) (dbg : Bool) {w : World} (h : WInv S w) (call : Call) (ha : call.Allowed S w) :
    WInv S (w.exec S dbg call) := by
  cases call with
  | newContext c u => exact h.addCtx ha.1 u 0
  | defaultContext c => exact h.addCtx ha 0 0
  | newGraph g c =>
    simp only [World.exec]
    cases hc : w.ctx c with
    | none => exact h
    | some x =>
      refine h.newGraph hc g rfl ((Graph.new_inv S _).mono (by simp)) ?_ ?_
      · intro o i hi; exact absurd rfl hi
      · intro i hi; exact absurd rfl hi
  | newTrans k c =>
    simp only [World.exec]
    cases hc : w.ctx c with
    | none => exact h
    | some x =>
      refine h.newTrans hc k rfl (Trans.new_ready S _) ?_ ?_
      · intro o i hi; exact absurd hi (Trans.new_owns _ i)
      · intro i hi; exact absurd hi (Trans.new_owns _ i)
  | op k o =>
    simp only [World.exec]
    cases ht : w.trans k with
    | none => exact h
    | some p =>
      obtain ⟨c, t⟩ := p
      simp only
      obtain ⟨x, hx, hu, hr⟩ := h.trans k c t ht
      rw [hx]
      simp only
      cases hrun : o.run t x.cnt with
      | error e => exact h.setTrans_none k
      | ok st =>
        obtain ⟨t', cnt, l⟩ := st
        refine h.op ht hx (Trans.run_grown hr ?_ (ha c t ht) hrun)
        intro i hi
        obtain ⟨x', hx', h2⟩ := h.bound (.inr k) c i ⟨t, ht, hi⟩
        rw [hx] at hx'
        simp only [Option.some.injEq] at hx'
        subst hx'
        exact h2
  | merge k g =>
    simp only [World.exec]
    cases ht : w.trans k with
    | none => exact h
    | some p =>
      obtain ⟨c, t⟩ := p
      cases hg : w.graph g with
      | none => exact h
      | some q =>
        obtain ⟨c', gr⟩ := q
        have := ha c t c' gr ht hg
        subst this
        simp only
        cases hm : t.merge gr with
        | error e => exact (h.setTrans_none k).setGraph_none g
        | ok t' =>
          simp only [Trans.merge] at hm
          split at hm
          · simp only [Except.ok.injEq] at hm
            subst hm
            exact h.merge ht hg
          · exact absurd hm (by simp)
  | commit g k =>
    simp only [World.exec]
    cases ht : w.trans k with
    | none => exact h
    | some p =>
      obtain ⟨c, t⟩ := p
      cases hg : w.graph g with
      | none => exact h
      | some q =>
        obtain ⟨c', gr⟩ := q
        have := ha c t c' gr ht hg
        subst this
        simp only
        cases hc : gr.commit S dbg t with
        | error e => exact (h.setTrans_none k).setGraph_none g
        | ok gr' => exact h.commit hw ht hg hc
  | commitChecked g k checks =>
    simp only [World.exec]
    cases ht : w.trans k with
    | none => exact h
    | some p =>
      obtain ⟨c, t⟩ := p
      cases hg : w.graph g with
      | none => exact h
      | some q =>
        obtain ⟨c', gr⟩ := q
        have := ha c t c' gr ht hg
        subst this
        simp only
        cases hc : gr.commitChecked S dbg t checks with
        | error e => exact (h.setTrans_none k).setGraph_none g
        | ok gr' => exact h.commit hw ht hg (Graph.commit_of_checked hc)
  | commitCaught g k =>
    simp only [World.exec]
    cases ht : w.trans k with
    | none => exact h
    | some p =>
      obtain ⟨c, t⟩ := p
      cases hg : w.graph g with
      | none => exact h
      | some q =>
        obtain ⟨c', gr⟩ := q
        have := ha c t c' gr ht hg
        subst this
        exact h.caught hw ht hg
  | dropTrans k => exact h.setTrans_none k
  | dropGraph g => exact h.setGraph_none g
  | switchContext g c =>
    cases hg : w.graph g with
    | none => simp only [World.exec, hg]; exact h
    | some q =>
      obtain ⟨c0, gr⟩ := q
      cases hc : w.ctx c with
      | none => simp only [World.exec, hg, hc]; exact h
      | some x => exact h.switch hw hg hc dbg
  | deserialize g c input => exact h.deserialize hw ha.2.1 ha.2.2 dbg

/-- Every reachable world satisfies the invariant. -/
theorem _root_.TTGraph.Reaches.inv (hw : WellNamed S) {dbg : Bool} {R : World → Call → Prop} {w : World} (h : Reaches S dbg R w) :
    WInv S w := by
  induction h with
  | init => exact init_inv S
  | step _ ha _ ih => exact ih.exec hw dbg _ ha

end
end World
end TTGraph
