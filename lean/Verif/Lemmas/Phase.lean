import Verif.Lemmas.Lcr

/-!
Lemmas about the phases of a commit: merging new nodes, mutating and updating, removing.
-/

set_option autoImplicit false

namespace TTGraph

theorem Tracked.nz {S : Schema} : ∀ c, Tracked S c → c.2.1 ≠ emptyIdx := fun _ h => h.1

namespace Node

theorem hasLink_iff_sources {n : Node} {m : Mirror} {y : NodeIndex} : n.HasLink m y ↔ ∃ p ∈ n.iterSources, p.1 = y ∧ p.2.mirror = m := by
  constructor
  · rintro ⟨k, h⟩
    exact ⟨(y, ⟨m.disc, m.pos, k⟩), mem_iterSources.2 h, rfl, rfl⟩
  · rintro ⟨⟨y', s⟩, hp, rfl, rfl⟩
    exact hasLink_of_holds (mem_iterSources.1 hp)

end Node

namespace Graph

/-! ### merge_nodes -/

theorem addBackLinks_spec (b : Back) (x : NodeIndex) (n : Node) :
    (∀ y e, Back.Rec (addBackLinks b x n) y e ↔ b.Rec y e ∨ (e.1 = x ∧ n.Holds e.2 y)) ∧
    (∀ y, Back.Known (addBackLinks b x n) y ↔ b.Known y ∨ y = x ∨ ∃ s, n.Holds s y) := by
  have key : ∀ (l : List (NodeIndex × Source)) (b : Back),
      (∀ y e, Back.Rec (l.foldl (fun b p => Back.link b p.1 (x, p.2)) b) y e ↔ b.Rec y e ∨ (e.1 = x ∧ (y, e.2) ∈ l)) ∧
      (∀ y, Back.Known (l.foldl (fun b p => Back.link b p.1 (x, p.2)) b) y ↔ b.Known y ∨ ∃ s, (y, s) ∈ l) := by
    intro l
    induction l with
    | nil => intro b; simp
    | cons p l ih =>
      intro b
      obtain ⟨h1, h2⟩ := ih (Back.link b p.1 (x, p.2))
      constructor
      · intro y e
        simp only [List.foldl_cons]
        rw [h1, Back.rec_link]
        obtain ⟨e1, e2⟩ := e
        obtain ⟨p1, p2⟩ := p
        simp only [List.mem_cons, Prod.mk.injEq]
        tauto
      · intro y
        simp only [List.foldl_cons]
        rw [h2, Back.known_link]
        obtain ⟨p1, p2⟩ := p
        simp only [List.mem_cons, Prod.mk.injEq]
        constructor
        · rintro ((rfl | h) | ⟨s, h⟩)
          · exact Or.inr ⟨p2, Or.inl ⟨rfl, rfl⟩⟩
          · exact Or.inl h
          · exact Or.inr ⟨s, Or.inr h⟩
        · rintro (h | ⟨s, (⟨rfl, _⟩ | h)⟩)
          · exact Or.inl (Or.inr h)
          · exact Or.inl (Or.inl rfl)
          · exact Or.inr ⟨s, h⟩
  obtain ⟨h1, h2⟩ := key n.iterSources (b.touch x)
  constructor
  · intro y e
    unfold addBackLinks
    rw [h1, Back.rec_touch, Node.mem_iterSources]
  · intro y
    unfold addBackLinks
    rw [h2, Back.known_touch]
    simp only [Node.mem_iterSources]
    tauto

/-- What `merge_nodes` does. -/
theorem mergeNodes_spec {S : Schema} (hS : S.discs.Nodup) {e0 : Prop} {g : Graph} {nodes : Arena} {r : Lcr} {L0 : Change → Prop}
    (h : g.Inv S e0) (ha : nodes.Inv S) (hdis : g.nodes.Disjoint nodes) (h0 : nodes.get? emptyIdx = none)
    (hwt : ∀ x n, nodes.get? x = some n → S.WT n) :
    (∀ j, (mergeNodes S g nodes r).1.get? j = (nodes.get? j <|> g.get? j)) ∧
    (mergeNodes S g nodes r).1.Inv S e0 ∧ (mergeNodes S g nodes r).1.ctxId = g.ctxId ∧
    (mergeNodes S g nodes r).1.nodes = g.nodes.merge nodes ∧
    (∀ y, (mergeNodes S g nodes r).1.back.Known y ↔ g.back.Known y ∨ (∃ n, nodes.get? y = some n) ∨ View.Linked nodes.get? y) ∧
    Lcr.Keeps S L0 g.get? r (mergeNodes S g nodes r).1.get? (mergeNodes S g nodes r).2 := by
  have hget : ∀ j, (mergeNodes S g nodes r).1.get? j = (nodes.get? j <|> g.get? j) := by
    intro j
    exact Arena.merge_get? h.arena ha hdis j
  have hdisj : ∀ x n, nodes.get? x = some n → g.get? x = none := by
    intro x n hn
    obtain ⟨d, hd, _⟩ := Arena.get?_eq_some.1 hn
    exact Arena.get?_of_disp_none (hdis x (by simp [hd]))
  -- the loop
  have loop : ∀ (l : List (NodeIndex × Node)) (st : Back × Lcr),
      let st' := l.foldl (fun (st : Back × Lcr) e => (addBackLinks st.1 e.1 e.2, recordAll st.2 e.1 e.2)) st
      (∀ y e, st'.1.Rec y e ↔ st.1.Rec y e ∨ ∃ n, (e.1, n) ∈ l ∧ n.Holds e.2 y) ∧
      (∀ y, st'.1.Known y ↔ st.1.Known y ∨ ∃ p ∈ l, y = p.1 ∨ ∃ s, p.2.Holds s y) := by
    intro l
    induction l with
    | nil => intro st; simp
    | cons p l ih =>
      intro st
      obtain ⟨i1, i2⟩ := ih (addBackLinks st.1 p.1 p.2, recordAll st.2 p.1 p.2)
      obtain ⟨a1, a2⟩ := addBackLinks_spec st.1 p.1 p.2
      simp only [List.foldl_cons]
      constructor
      · intro y e
        rw [i1, a1]
        obtain ⟨p1, p2⟩ := p
        obtain ⟨e1, e2⟩ := e
        simp only [List.mem_cons, Prod.mk.injEq]
        constructor
        · rintro ((h | ⟨rfl, h⟩) | ⟨n, h1, h2⟩)
          · exact Or.inl h
          · exact Or.inr ⟨p2, Or.inl ⟨rfl, rfl⟩, h⟩
          · exact Or.inr ⟨n, Or.inr h1, h2⟩
        · rintro (h | ⟨n, (⟨rfl, rfl⟩ | h1), h2⟩)
          · exact Or.inl (Or.inl h)
          · exact Or.inl (Or.inr ⟨rfl, h2⟩)
          · exact Or.inr ⟨n, h1, h2⟩
      · intro y
        rw [i2, a2]
        simp only [List.mem_cons, exists_eq_or_imp]
        exact or_assoc
  obtain ⟨l1, l2⟩ := loop (nodes.entries S) (g.back, r)
  have hrec : ∀ y e, (mergeNodes S g nodes r).1.back.Rec y e ↔ g.back.Rec y e ∨ View.Holds nodes.get? e.1 e.2 y := by
    intro y e
    refine (l1 y e).trans ?_
    simp only [Arena.mem_entries ha, View.Holds]
  have hknown : ∀ y, (mergeNodes S g nodes r).1.back.Known y ↔
      g.back.Known y ∨ (∃ n, nodes.get? y = some n) ∨ View.Linked nodes.get? y := by
    intro y
    refine (l2 y).trans ?_
    constructor
    · rintro (h | ⟨⟨x, n⟩, hx, (rfl | ⟨s, hs⟩)⟩)
      · exact Or.inl h
      · exact Or.inr (Or.inl ⟨n, (Arena.mem_entries ha).1 hx⟩)
      · exact Or.inr (Or.inr ⟨x, s, n, (Arena.mem_entries ha).1 hx, hs⟩)
    · rintro (h | ⟨n, hn⟩ | ⟨x, s, n, hn, hs⟩)
      · exact Or.inl h
      · exact Or.inr ⟨(y, n), (Arena.mem_entries ha).2 hn, Or.inl rfl⟩
      · exact Or.inr ⟨(x, n), (Arena.mem_entries ha).2 hn, Or.inr ⟨s, hs⟩⟩
  have hholds : ∀ x s y, View.Holds (mergeNodes S g nodes r).1.get? x s y ↔ View.Holds g.get? x s y ∨ View.Holds nodes.get? x s y := by
    intro x s y
    simp only [View.Holds, hget]
    cases hn : nodes.get? x with
    | none => simp [none_alt]
    | some n => simp [some_alt, hdisj x n hn]
  refine ⟨hget, ⟨Arena.merge_inv h.arena ha hdis, ?_, ?_, ?_, ?_, ?_⟩, rfl, rfl, hknown, ?_⟩
  · intro x n hn
    rw [hknown]
    rw [hget] at hn
    cases hx : nodes.get? x with
    | none => rw [hx, none_alt] at hn; exact Or.inl (h.known x n hn)
    | some m => exact Or.inr (Or.inl ⟨m, rfl⟩)
  · intro x s y hh
    rw [hrec]
    rw [hholds] at hh
    exact hh.imp (h.recd x s y) id
  · intro x s y hy hr
    rw [hrec] at hr
    rw [hholds]
    exact hr.imp (h.exact x s y hy) id
  · rw [hget, h0, none_alt]; exact h.noEmpty
  · intro x n hn
    rw [hget] at hn
    cases hx : nodes.get? x with
    | none => rw [hx, none_alt] at hn; exact h.wt x n hn
    | some m => rw [hx, some_alt] at hn; simp only [Option.some.injEq] at hn; subst hn; exact hwt x m hx
  · intro D hD hok
    have hwt' : ∀ x n, (mergeNodes S g nodes r).1.get? x = some n → S.WT n := by
      intro x n hn
      rw [hget] at hn
      cases hx : nodes.get? x with
      | none => rw [hx, none_alt] at hn; exact h.wt x n hn
      | some m => rw [hx, some_alt] at hn; simp only [Option.some.injEq] at hn; subst hn; exact hwt x m hx
    have hloop : ∀ (post pre : List (NodeIndex × Node)) (st : Back × Lcr), nodes.entries S = pre ++ post →
        Lcr.Ok D L0 (fun c => View.L g.get? c ∨ ∃ n, (c.1, n) ∈ pre ∧ n.HasLink c.2.2 c.2.1) st.2 →
        Lcr.Ok D L0 (fun c => View.L g.get? c ∨ ∃ n, (c.1, n) ∈ nodes.entries S ∧ n.HasLink c.2.2 c.2.1)
          (post.foldl (fun (st : Back × Lcr) e => (addBackLinks st.1 e.1 e.2, recordAll st.2 e.1 e.2)) st).2 := by
      intro post
      induction post with
      | nil =>
        intro pre st he hst
        simp only [List.append_nil] at he
        rw [he]; exact hst
      | cons p post ih =>
        intro pre st he hst
        simp only [List.foldl_cons]
        refine ih (pre ++ [p]) _ (by rw [he]; simp) ?_
        have hpm : p ∈ nodes.entries S := by rw [he]; simp
        have hpg : nodes.get? p.1 = some p.2 := (Arena.mem_entries ha).1 hpm
        have hfresh : ∀ n, (p.1, n) ∉ pre := by
          intro n hn
          have := Arena.entries_nodup hS ha
          rw [he, List.map_append, List.nodup_append] at this
          exact this.2.2 p.1 (List.mem_map.2 ⟨_, hn, rfl⟩) p.1 (by simp) rfl
        have hpm' : (mergeNodes S g nodes r).1.get? p.1 = some p.2 := by rw [hget, hpg, some_alt]
        refine (hst.addAll (fun c hc => (hD c hc).1) p.1 p.2.iterSources ?_ ?_).congr ?_
        · intro q _ _
          rintro (⟨n, hn, _⟩ | ⟨n, hn, _⟩)
          · have hn' : g.get? p.1 = some n := hn
            rw [hdisj p.1 p.2 hpg] at hn'; exact absurd hn' (by simp)
          · exact hfresh n hn
        · intro pr q po heq hd
          exact Node.iterSources_distinct hpm' heq ((hD _ hd).right hwt')
        · rintro ⟨cx, cy, cm⟩
          simp only [List.mem_append, List.mem_singleton, Node.hasLink_iff_sources]
          constructor
          · rintro (h1 | ⟨n, (h1 | h1), h2⟩)
            · exact Or.inl (Or.inl h1)
            · exact Or.inl (Or.inr ⟨n, h1, h2⟩)
            · obtain ⟨q, hq, e1, e2⟩ := h2
              subst h1
              exact Or.inr ⟨q, hq, by simp [e1, e2]⟩
          · rintro ((h1 | ⟨n, h1, h2⟩) | ⟨q, hq, e⟩)
            · exact Or.inl h1
            · exact Or.inr ⟨n, Or.inl h1, h2⟩
            · simp only [Prod.mk.injEq] at e
              exact Or.inr ⟨p.2, Or.inr (by rw [e.1]), q, hq, e.2.1.symm, e.2.2.symm⟩
    refine (hloop (nodes.entries S) [] (g.back, r) rfl (hok.congr (by simp))).congr ?_
    rintro ⟨cx, cy, cm⟩
    simp only [Arena.mem_entries ha, View.L, View.Link, hget]
    cases hn : nodes.get? cx with
    | none => simp [none_alt]
    | some n => simp [some_alt, hdisj cx n hn]

/-! ### modify_node and update_node -/

theorem unlinkSources_spec (x : NodeIndex) (srcs : List (NodeIndex × Source)) (b : Back) (r : Lcr) (hk : ∀ p ∈ srcs, b.Known p.1) :
    ∃ b', unlinkSources x (b, r) srcs = .ok (b', srcs.foldl (fun r p => r.removeLink x p.1 p.2.mirror) r) ∧
      (∀ y e, b'.Rec y e ↔ b.Rec y e ∧ ¬ (e.1 = x ∧ (y, e.2) ∈ srcs)) ∧ (∀ y, b'.Known y ↔ b.Known y) := by
  induction srcs generalizing b r with
  | nil => exact ⟨b, rfl, by simp, by simp⟩
  | cons p srcs ih =>
    obtain ⟨b1, h1, h2, h3⟩ := Back.unlink_ok (hk p (by simp)) (x, p.2)
    obtain ⟨b2, h4, h5, h6⟩ := ih b1 (r.removeLink x p.1 p.2.mirror) (fun q hq => (h3 q.1).2 (hk q (by simp [hq])))
    refine ⟨b2, ?_, ?_, ?_⟩
    · simp only [unlinkSources, foldE, h1] at h4 ⊢
      exact h4
    · intro y e
      rw [h5, h2]
      obtain ⟨e1, e2⟩ := e
      obtain ⟨p1, p2⟩ := p
      simp only [List.mem_cons, Prod.mk.injEq]
      tauto
    · intro y; rw [h6, h3]

theorem linkSources_spec (x : NodeIndex) (srcs : List (NodeIndex × Source)) (b : Back) (r : Lcr) (hk : ∀ p ∈ srcs, b.Known p.1) :
    ∃ b', linkSources x (b, r) srcs = .ok (b', srcs.foldl (fun r p => r.addLink x p.1 p.2.mirror) r) ∧
      (∀ y e, b'.Rec y e ↔ b.Rec y e ∨ (e.1 = x ∧ (y, e.2) ∈ srcs)) ∧ (∀ y, b'.Known y ↔ b.Known y) := by
  induction srcs generalizing b r with
  | nil => exact ⟨b, rfl, by simp, by simp⟩
  | cons p srcs ih =>
    obtain ⟨b1, h1, h2, h3⟩ := Back.linkKnown_ok (hk p (by simp)) (x, p.2)
    obtain ⟨b2, h4, h5, h6⟩ := ih b1 (r.addLink x p.1 p.2.mirror) (fun q hq => (h3 q.1).2 (hk q (by simp [hq])))
    refine ⟨b2, ?_, ?_, ?_⟩
    · simp only [linkSources, foldE, h1] at h4 ⊢
      exact h4
    · intro y e
      rw [h5, h2]
      obtain ⟨e1, e2⟩ := e
      obtain ⟨p1, p2⟩ := p
      simp only [List.mem_cons, Prod.mk.injEq]
      tauto
    · intro y; rw [h6, h3]

theorem linkSources_unknown (x : NodeIndex) (srcs : List (NodeIndex × Source)) (b : Back) (r : Lcr) (hk : ∃ p ∈ srcs, ¬ b.Known p.1) :
    linkSources x (b, r) srcs = .error .backMissing := by
  induction srcs generalizing b r with
  | nil => simp at hk
  | cons p srcs ih =>
    by_cases hp : b.Known p.1
    · obtain ⟨b1, h1, _, h3⟩ := Back.linkKnown_ok hp (x, p.2)
      obtain ⟨q, hq, hnq⟩ := hk
      rcases List.mem_cons.1 hq with rfl | hq
      · exact absurd hp hnq
      · have := ih b1 (r.addLink x p.1 p.2.mirror) ⟨q, hq, fun hh => hnq ((h3 q.1).1 hh)⟩
        simp only [linkSources, foldE, h1] at this ⊢
        exact this
    · simp only [linkSources, foldE, Back.linkKnown_none hp]

/-- The common part of `modify_node` and `update_node`: unlink the old links, store the new node, link the new links. -/
theorem replace_spec {S : Schema} {e0 : Prop} {g : Graph} {x : NodeIndex} {n n' : Node} {r : Lcr} {L0 : Change → Prop} {a' : Arena}
    (h : g.Inv S e0) (hn : g.get? x = some n) (hwt : S.WT n') (hk : ∀ s y, n'.Holds s y → g.back.Known y)
    (hget : ∀ j, a'.get? j = if x = j then some n' else g.get? j) (hinv : a'.Inv S) :
    ∃ b1 b2, unlinkSources x (g.back, r) n.iterSources = .ok (b1, n.iterSources.foldl (fun r p => r.removeLink x p.1 p.2.mirror) r) ∧
      linkSources x (b1, n.iterSources.foldl (fun r p => r.removeLink x p.1 p.2.mirror) r) n'.iterSources =
        .ok (b2, n'.iterSources.foldl (fun r p => r.addLink x p.1 p.2.mirror) (n.iterSources.foldl (fun r p => r.removeLink x p.1 p.2.mirror) r)) ∧
      (∀ y, Back.Known b2 y ↔ g.back.Known y) ∧ (∀ y, Back.Known b1 y ↔ g.back.Known y) ∧
      ({ g with nodes := a', back := b2 } : Graph).Inv S e0 ∧
      Lcr.Keeps S L0 g.get? r ({ g with nodes := a', back := b2 } : Graph).get?
        (n'.iterSources.foldl (fun r p => r.addLink x p.1 p.2.mirror) (n.iterSources.foldl (fun r p => r.removeLink x p.1 p.2.mirror) r)) := by
  have hx0 : x ≠ emptyIdx := by
    intro e; subst e; rw [h.noEmpty] at hn; exact absurd hn (by simp)
  obtain ⟨b1, u1, u2, u3⟩ := unlinkSources_spec x n.iterSources g.back r (by
    rintro ⟨y, s⟩ hp
    exact (h.recd x s y ⟨n, hn, Node.mem_iterSources.1 hp⟩).known)
  obtain ⟨b2, l1, l2, l3⟩ := linkSources_spec x n'.iterSources b1 (n.iterSources.foldl (fun r p => r.removeLink x p.1 p.2.mirror) r) (by
    rintro ⟨y, s⟩ hp
    exact (u3 y).2 (hk s y (Node.mem_iterSources.1 hp)))
  have hgg : ∀ j, ({ g with nodes := a', back := b2 } : Graph).get? j = if x = j then some n' else g.get? j := hget
  have hholds : ∀ z s y, View.Holds ({ g with nodes := a', back := b2 } : Graph).get? z s y ↔
      if x = z then n'.Holds s y else View.Holds g.get? z s y := by
    intro z s y
    simp only [View.Holds, hgg]
    split <;> simp
  have hrec : ∀ y e, Back.Rec b2 y e ↔ if x = e.1 then n'.Holds e.2 y ∨ (g.back.Rec y e ∧ ¬ n.Holds e.2 y) else g.back.Rec y e := by
    intro y e
    rw [l2, u2, Node.mem_iterSources, Node.mem_iterSources]
    split
    · rename_i hh; simp [hh.symm]; tauto
    · rename_i hh
      have : ¬ e.1 = x := fun he => hh he.symm
      simp [this]
  refine ⟨b1, b2, u1, l1, fun y => by rw [l3, u3], u3, ⟨hinv, ?_, ?_, ?_, ?_, ?_⟩, ?_⟩
  · intro z m hz
    show b2.Known z
    rw [l3, u3]
    rw [hgg] at hz
    split at hz
    · rename_i e; subst e; exact h.known x n hn
    · exact h.known z m hz
  · intro z s y hh
    show Back.Rec b2 y (z, s)
    rw [hrec]
    rw [hholds] at hh
    split
    · rename_i e; simp only [e, if_true] at hh; exact Or.inl hh
    · rename_i e; simp only [e, if_false] at hh; exact h.recd z s y hh
  · intro z s y hy hr
    rw [hholds]
    have hr' : Back.Rec b2 y (z, s) := hr
    rw [hrec] at hr'
    split
    · rename_i e
      subst e
      simp only [if_true] at hr'
      rcases hr' with hr' | ⟨h1, h2⟩
      · exact hr'
      · obtain ⟨m, hm, hmh⟩ := h.exact x s y hy h1
        rw [hn] at hm; simp only [Option.some.injEq] at hm; subst hm
        exact absurd hmh h2
    · rename_i e
      simp only [e, if_false] at hr'
      exact h.exact z s y hy hr'
  · rw [hgg]; simp only [hx0, if_false]; exact h.noEmpty
  · intro z m hz
    rw [hgg] at hz
    split at hz
    · simp only [Option.some.injEq] at hz; subst hz; exact hwt
    · exact h.wt z m hz
  · intro D hD hok
    have hgx : ({ g with nodes := a', back := b2 } : Graph).get? x = some n' := by rw [hgg, if_pos rfl]
    have hwt' : ∀ z m, ({ g with nodes := a', back := b2 } : Graph).get? z = some m → S.WT m := by
      intro z m hz
      rw [hgg] at hz
      split at hz
      · simp only [Option.some.injEq] at hz; subst hz; exact hwt
      · exact h.wt z m hz
    have hok1 := hok.removeAll (fun c hc => (hD c hc).1) x n.iterSources (by
        rintro ⟨y, s⟩ hp _
        exact ⟨n, hn, Node.hasLink_of_holds (Node.mem_iterSources.1 hp)⟩)
      (fun pr q po heq hd => Node.iterSources_distinct hn heq ((hD _ hd).left h.wt))
    have hno : ∀ p : NodeIndex × Source, ¬ (View.L g.get? (x, p.1, p.2.mirror) ∧
        ¬ ∃ q ∈ n.iterSources, (x, p.1, p.2.mirror) = (x, q.1, q.2.mirror)) := by
      rintro ⟨y, s⟩ ⟨⟨m, hm, hl⟩, h2⟩
      have hm' : g.get? x = some m := hm
      rw [hn] at hm'; simp only [Option.some.injEq] at hm'; subst hm'
      obtain ⟨q, hq, e1, e2⟩ := Node.hasLink_iff_sources.1 hl
      exact h2 ⟨q, hq, by simp only [Prod.mk.injEq, true_and]; exact ⟨e1.symm, e2.symm⟩⟩
    refine (hok1.addAll (fun c hc => (hD c hc).1) x n'.iterSources (fun p _ _ => hno p)
      (fun pr q po heq hd => Node.iterSources_distinct hgx heq ((hD _ hd).right hwt'))).congr ?_
    rintro ⟨cx, cy, cm⟩
    simp only [View.L, View.Link, hgg]
    by_cases e : x = cx
    · subst e
      simp only [if_true, Option.some.injEq, exists_eq_left', Node.hasLink_iff_sources, hn, Prod.mk.injEq, true_and]
      constructor
      · rintro ⟨q, hq, e1, e2⟩
        exact Or.inr ⟨q, hq, e1.symm, e2.symm⟩
      · rintro (⟨⟨q, hq, e1, e2⟩, h2⟩ | ⟨q, hq, e1, e2⟩)
        · exact absurd ⟨q, hq, e1.symm, e2.symm⟩ h2
        · exact ⟨q, hq, e1.symm, e2.symm⟩
    · have e' : ¬ cx = x := fun h => e h.symm
      simp [e, e']

/-- `modify_node` on a node that exists, with a closure that succeeds and known targets. -/
theorem modifyNode_ok {S : Schema} {e0 : Prop} {g : Graph} {x : NodeIndex} {n n' : Node} {f : Closure} {r : Lcr}
    (h : g.Inv S e0) (hn : g.get? x = some n) (hf : f n = .ok n') (hwt : S.WT n') (hk : ∀ s y, n'.Holds s y → g.back.Known y)
    (L0 : Change → Prop) :
    ∃ g' r', modifyNode g x f r = .ok (g', r') ∧ View.Set g.get? x n' g'.get? ∧ g'.Inv S e0 ∧ g'.ctxId = g.ctxId ∧
      g'.nodes.disp = g.nodes.disp ∧ (∀ y, g'.back.Known y ↔ g.back.Known y) ∧
      (g.nodes.Typed → n'.disc = n.disc → g'.nodes.Typed) ∧
      Lcr.Keeps S L0 g.get? r g'.get? r' := by
  obtain ⟨a', m1, m2, m3, m4, m5⟩ := Arena.modifyAt_ok (S := S) (β := Unit) (f := fun n => (f n).map (·, ())) (n' := n') (r := ()) hn
    (by simp only [hf]; rfl)
  obtain ⟨b1, b2, u1, l1, k1, k2, hinv, hok⟩ := replace_spec (r := r) (L0 := L0) h hn hwt hk m2 (m4 h.arena)
  refine ⟨{ g with nodes := a', back := b2 }, _, ?_, m2, hinv, rfl, m3, k1, m5, hok⟩
  have hn' : g.nodes.get? x = some n := hn
  have hx' : a'.get? x = some n' := by rw [m2]; simp
  simp only [modifyNode, hn', u1, m1, hx', l1]

/-- `update_node` on a node that exists, with a closure that succeeds and known targets. -/
theorem updateNode_ok {S : Schema} {e0 : Prop} {g : Graph} {x : NodeIndex} {n n' : Node} {f : Closure} {r : Lcr}
    (h : g.Inv S e0) (hn : g.get? x = some n) (hf : f n = .ok n') (hwt : S.WT n') (hk : ∀ s y, n'.Holds s y → g.back.Known y)
    (L0 : Change → Prop) :
    ∃ g' r', updateNode g x f r = .ok (g', r') ∧ View.Set g.get? x n' g'.get? ∧ g'.Inv S e0 ∧ g'.ctxId = g.ctxId ∧
      g'.nodes.disp = g.nodes.disp ∧ (∀ y, g'.back.Known y ↔ g.back.Known y) ∧
      (g.nodes.Typed → n'.disc = n.disc → g'.nodes.Typed) ∧
      Lcr.Keeps S L0 g.get? r g'.get? r' := by
  obtain ⟨a', m1, m2, m3, m4, m5⟩ := Arena.updateWith_ok (S := S) (n' := n') hn hf
  obtain ⟨b1, b2, u1, l1, k1, k2, hinv, hok⟩ := replace_spec (r := r) (L0 := L0) h hn hwt hk m2 (m4 h.arena)
  refine ⟨{ g with nodes := a', back := b2 }, _, ?_, m2, hinv, rfl, m3, k1, m5, hok⟩
  have hn' : g.nodes.get? x = some n := hn
  have hx' : a'.get? x = some n' := by rw [m2]; simp
  simp only [updateNode, hn', u1, m1, hx', l1]

theorem modifyNode_missing {g : Graph} {x : NodeIndex} {f : Closure} {r : Lcr} (hn : g.get? x = none) :
    modifyNode g x f r = .error .nodeMissing := by
  have hn' : g.nodes.get? x = none := hn
  simp only [modifyNode, hn']

theorem updateNode_missing {g : Graph} {x : NodeIndex} {f : Closure} {r : Lcr} (hn : g.get? x = none) :
    updateNode g x f r = .error .nodeMissing := by
  have hn' : g.nodes.get? x = none := hn
  simp only [updateNode, hn']

theorem unlink_node_ok {S : Schema} {e0 : Prop} {g : Graph} {x : NodeIndex} {n : Node} (h : g.Inv S e0) (hn : g.get? x = some n) (r : Lcr) :
    ∃ b', unlinkSources x (g.back, r) n.iterSources = .ok (b', n.iterSources.foldl (fun r p => r.removeLink x p.1 p.2.mirror) r) ∧
      (∀ y e, b'.Rec y e ↔ g.back.Rec y e ∧ ¬ (e.1 = x ∧ (y, e.2) ∈ n.iterSources)) ∧ (∀ y, b'.Known y ↔ g.back.Known y) :=
  unlinkSources_spec x n.iterSources g.back r (by
    rintro ⟨y, s⟩ hp
    exact (h.recd x s y ⟨n, hn, Node.mem_iterSources.1 hp⟩).known)

theorem modifyNode_user {S : Schema} {e0 : Prop} {g : Graph} {x : NodeIndex} {n : Node} {f : Closure} {r : Lcr} {e : Panic}
    (h : g.Inv S e0) (hn : g.get? x = some n) (hf : f n = .error e) : modifyNode g x f r = .error e := by
  obtain ⟨b', h1, _⟩ := unlink_node_ok h hn r
  have hn' : g.nodes.get? x = some n := hn
  have := Arena.modifyAt_err (β := Unit) (f := fun n => (f n).map (·, ())) (e := e) hn' (by simp only [hf]; rfl)
  simp only [modifyNode, hn', h1, this]

theorem updateNode_user {S : Schema} {e0 : Prop} {g : Graph} {x : NodeIndex} {n : Node} {f : Closure} {r : Lcr} {e : Panic}
    (h : g.Inv S e0) (hn : g.get? x = some n) (hf : f n = .error e) : updateNode g x f r = .error e := by
  obtain ⟨b', h1, _⟩ := unlink_node_ok h hn r
  have hn' : g.nodes.get? x = some n := hn
  have := Arena.updateWith_err hn' hf
  simp only [updateNode, hn', h1, this]

theorem modifyNode_unknown {S : Schema} {e0 : Prop} {g : Graph} {x : NodeIndex} {n n' : Node} {f : Closure} {r : Lcr}
    (h : g.Inv S e0) (hn : g.get? x = some n) (hf : f n = .ok n') (hk : ∃ s y, n'.Holds s y ∧ ¬ g.back.Known y) :
    modifyNode g x f r = .error .backMissing := by
  obtain ⟨b', h1, _, h3⟩ := unlink_node_ok h hn r
  have hn' : g.nodes.get? x = some n := hn
  obtain ⟨a', m1, m2, _⟩ := Arena.modifyAt_ok (S := S) (β := Unit) (f := fun n => (f n).map (·, ())) (n' := n') (r := ()) hn
    (by simp only [hf]; rfl)
  have hx' : a'.get? x = some n' := by rw [m2]; simp
  obtain ⟨s, y, hh, hky⟩ := hk
  have := linkSources_unknown x n'.iterSources b' (n.iterSources.foldl (fun r p => r.removeLink x p.1 p.2.mirror) r)
    ⟨(y, s), Node.mem_iterSources.2 hh, fun hb => hky ((h3 y).1 hb)⟩
  simp only [modifyNode, hn', h1, m1, hx', this]

theorem updateNode_unknown {S : Schema} {e0 : Prop} {g : Graph} {x : NodeIndex} {n n' : Node} {f : Closure} {r : Lcr}
    (h : g.Inv S e0) (hn : g.get? x = some n) (hf : f n = .ok n') (hk : ∃ s y, n'.Holds s y ∧ ¬ g.back.Known y) :
    updateNode g x f r = .error .backMissing := by
  obtain ⟨b', h1, _, h3⟩ := unlink_node_ok h hn r
  have hn' : g.nodes.get? x = some n := hn
  obtain ⟨a', m1, m2, _⟩ := Arena.updateWith_ok (S := S) (n' := n') hn hf
  have hx' : a'.get? x = some n' := by rw [m2]; simp
  obtain ⟨s, y, hh, hky⟩ := hk
  have := linkSources_unknown x n'.iterSources b' (n.iterSources.foldl (fun r p => r.removeLink x p.1 p.2.mirror) r)
    ⟨(y, s), Node.mem_iterSources.2 hh, fun hb => hky ((h3 y).1 hb)⟩
  simp only [updateNode, hn', h1, m1, hx', this]

end Graph
end TTGraph
