import Verif.Lemmas.Back
import Verif.Lemmas.Node


set_option autoImplicit false
namespace TTGraph

/-- The changes that the recorder tracks exactly: real targets, fields that are not `Vec`. -/
def Tracked (S : Schema) (c : Change) : Prop := c.2.1 ≠ emptyIdx ∧ S.kind? c.2.2 ≠ some .vec

/-- The links of a view as a set of triples. -/
def View.L (v : View) (c : Change) : Prop := v.Link c.1 c.2.2 c.2.1

namespace Lcr

/-- The recorder `r` describes the difference between the link sets `L0` and `L1`: exactly on `D`, approximately elsewhere. -/
structure Ok (D L0 L1 : Change → Prop) (r : Lcr) : Prop where
  nzA : ∀ c, c ∈ r.adds → c.2.1 ≠ emptyIdx
  nzR : ∀ c, c ∈ r.removes → c.2.1 ≠ emptyIdx
  weakA : ∀ c, c ∈ r.adds → L1 c
  weakR : ∀ c, c ∈ r.removes → ¬ L1 c
  addsD : ∀ c, D c → c ∈ r.adds → ¬ L0 c
  remsD : ∀ c, D c → c ∈ r.removes → L0 c
  fullA : ∀ c, D c → L1 c → ¬ L0 c → c ∈ r.adds
  fullR : ∀ c, D c → L0 c → ¬ L1 c → c ∈ r.removes

variable {D L0 L1 : Change → Prop} {r : Lcr}

theorem ok_new (D L : Change → Prop) : Ok D L L new where
  nzA c h := absurd h (OrderSet.not_mem_empty c)
  nzR c h := absurd h (OrderSet.not_mem_empty c)
  weakA c h := absurd h (OrderSet.not_mem_empty c)
  weakR c h := absurd h (OrderSet.not_mem_empty c)
  addsD c _ h := absurd h (OrderSet.not_mem_empty c)
  remsD c _ h := absurd h (OrderSet.not_mem_empty c)
  fullA _ _ h1 h2 := absurd h1 h2
  fullR _ _ h1 h2 := absurd h1 h2

theorem Ok.congr {L1' : Change → Prop} (h : Ok D L0 L1 r) (he : ∀ c, L1' c ↔ L1 c) : Ok D L0 L1' r := by
  have : L1' = L1 := funext fun c => propext (he c)
  rw [this]; exact h

theorem mem_adds_addLink {x y : NodeIndex} {l : Mirror} (hy : y ≠ emptyIdx) (c : Change) :
    c ∈ (r.addLink x y l).adds ↔ c ∈ r.adds ∨ (c = (x, y, l) ∧ (x, y, l) ∉ r.removes) := by
  simp only [addLink, hy, if_false]
  split
  · simp [*]
  · simp only [OrderSet.mem_insert]
    tauto

theorem mem_removes_addLink {x y : NodeIndex} {l : Mirror} (hy : y ≠ emptyIdx) (c : Change) :
    c ∈ (r.addLink x y l).removes ↔ c ∈ r.removes ∧ c ≠ (x, y, l) := by
  simp only [addLink, hy, if_false]
  split
  · simp only [OrderSet.mem_swapRemove]
  · rename_i h
    constructor
    · intro hc; exact ⟨hc, fun e => h (e ▸ hc)⟩
    · exact fun hc => hc.1

theorem mem_removes_removeLink {x y : NodeIndex} {l : Mirror} (hy : y ≠ emptyIdx) (c : Change) :
    c ∈ (r.removeLink x y l).removes ↔ c ∈ r.removes ∨ (c = (x, y, l) ∧ (x, y, l) ∉ r.adds) := by
  simp only [removeLink, hy, if_false]
  split
  · simp [*]
  · simp only [OrderSet.mem_insert]
    tauto

theorem mem_adds_removeLink {x y : NodeIndex} {l : Mirror} (hy : y ≠ emptyIdx) (c : Change) :
    c ∈ (r.removeLink x y l).adds ↔ c ∈ r.adds ∧ c ≠ (x, y, l) := by
  simp only [removeLink, hy, if_false]
  split
  · simp only [OrderSet.mem_swapRemove]
  · rename_i h
    constructor
    · intro hc; exact ⟨hc, fun e => h (e ▸ hc)⟩
    · exact fun hc => hc.1

theorem Ok.add (hD : ∀ c, D c → c.2.1 ≠ emptyIdx) (h : Ok D L0 L1 r) {x y : NodeIndex} {l : Mirror}
    (hn : D (x, y, l) → ¬ L1 (x, y, l)) : Ok D L0 (fun c => L1 c ∨ c = (x, y, l)) (r.addLink x y l) := by
  by_cases hy : y = emptyIdx
  · have he : r.addLink x y l = r := by simp [addLink, hy]
    rw [he]
    have hne : ∀ c : Change, c.2.1 ≠ emptyIdx → c ≠ (x, y, l) := by
      intro c hc e; rw [e] at hc; exact hc hy
    exact {
      nzA := h.nzA
      nzR := h.nzR
      weakA := fun c hc => Or.inl (h.weakA c hc)
      weakR := fun c hc => by
        rintro (h1 | h1)
        · exact h.weakR c hc h1
        · exact hne c (h.nzR c hc) h1
      addsD := h.addsD
      remsD := h.remsD
      fullA := fun c hd h1 h0 => h.fullA c hd (h1.resolve_right (hne c (hD c hd))) h0
      fullR := fun c hd h0 h1 => h.fullR c hd h0 (fun hh => h1 (Or.inl hh)) }
  · exact {
      nzA := fun c hc => by
        rw [mem_adds_addLink hy] at hc
        rcases hc with hc | ⟨rfl, _⟩
        · exact h.nzA c hc
        · exact hy
      nzR := fun c hc => by
        rw [mem_removes_addLink hy] at hc
        exact h.nzR c hc.1
      weakA := fun c hc => by
        rw [mem_adds_addLink hy] at hc
        rcases hc with hc | ⟨rfl, _⟩
        · exact Or.inl (h.weakA c hc)
        · exact Or.inr rfl
      weakR := fun c hc => by
        rw [mem_removes_addLink hy] at hc
        rintro (h1 | h1)
        · exact h.weakR c hc.1 h1
        · exact hc.2 h1
      addsD := fun c hd hc => by
        rw [mem_adds_addLink hy] at hc
        rcases hc with hc | ⟨rfl, hr⟩
        · exact h.addsD c hd hc
        · exact fun h0 => hr (h.fullR _ hd h0 (hn hd))
      remsD := fun c hd hc => by
        rw [mem_removes_addLink hy] at hc
        exact h.remsD c hd hc.1
      fullA := fun c hd h1 h0 => by
        rw [mem_adds_addLink hy]
        rcases h1 with h1 | rfl
        · exact Or.inl (h.fullA c hd h1 h0)
        · exact Or.inr ⟨rfl, fun hr => h0 (h.remsD _ hd hr)⟩
      fullR := fun c hd h0 h1 => by
        rw [mem_removes_addLink hy]
        exact ⟨h.fullR c hd h0 (fun hh => h1 (Or.inl hh)), fun e => h1 (Or.inr e)⟩ }

theorem Ok.remove (hD : ∀ c, D c → c.2.1 ≠ emptyIdx) (h : Ok D L0 L1 r) {x y : NodeIndex} {l : Mirror}
    (hn : D (x, y, l) → L1 (x, y, l)) : Ok D L0 (fun c => L1 c ∧ c ≠ (x, y, l)) (r.removeLink x y l) := by
  by_cases hy : y = emptyIdx
  · have he : r.removeLink x y l = r := by simp [removeLink, hy]
    rw [he]
    have hne : ∀ c : Change, c.2.1 ≠ emptyIdx → c ≠ (x, y, l) := by
      intro c hc e; rw [e] at hc; exact hc hy
    exact {
      nzA := h.nzA
      nzR := h.nzR
      weakA := fun c hc => ⟨h.weakA c hc, hne c (h.nzA c hc)⟩
      weakR := fun c hc h1 => h.weakR c hc h1.1
      addsD := h.addsD
      remsD := h.remsD
      fullA := fun c hd h1 h0 => h.fullA c hd h1.1 h0
      fullR := fun c hd h0 h1 => h.fullR c hd h0 (fun hh => h1 ⟨hh, hne c (hD c hd)⟩) }
  · exact {
      nzA := fun c hc => by
        rw [mem_adds_removeLink hy] at hc
        exact h.nzA c hc.1
      nzR := fun c hc => by
        rw [mem_removes_removeLink hy] at hc
        rcases hc with hc | ⟨rfl, _⟩
        · exact h.nzR c hc
        · exact hy
      weakA := fun c hc => by
        rw [mem_adds_removeLink hy] at hc
        exact ⟨h.weakA c hc.1, hc.2⟩
      weakR := fun c hc => by
        rw [mem_removes_removeLink hy] at hc
        rcases hc with hc | ⟨rfl, _⟩
        · exact fun h1 => h.weakR c hc h1.1
        · exact fun h1 => h1.2 rfl
      addsD := fun c hd hc => by
        rw [mem_adds_removeLink hy] at hc
        exact h.addsD c hd hc.1
      remsD := fun c hd hc => by
        rw [mem_removes_removeLink hy] at hc
        rcases hc with hc | ⟨rfl, hr⟩
        · exact h.remsD c hd hc
        · by_contra h0
          exact hr (h.fullA _ hd (hn hd) h0)
      fullA := fun c hd h1 h0 => by
        rw [mem_adds_removeLink hy]
        exact ⟨h.fullA c hd h1.1 h0, h1.2⟩
      fullR := fun c hd h0 h1 => by
        rw [mem_removes_removeLink hy]
        by_cases e : c = (x, y, l)
        · subst e
          exact Or.inr ⟨rfl, fun ha => h.addsD _ hd ha h0⟩
        · exact Or.inl (h.fullR c hd h0 (fun hh => h1 ⟨hh, e⟩)) }

/-- Recording all links of one node as added. -/
theorem Ok.addAll (hD : ∀ c, D c → c.2.1 ≠ emptyIdx) (x : NodeIndex) (srcs : List (NodeIndex × Source)) (h : Ok D L0 L1 r)
    (hn : ∀ p ∈ srcs, D (x, p.1, p.2.mirror) → ¬ L1 (x, p.1, p.2.mirror))
    (hnd : ∀ pre p post, srcs = pre ++ p :: post → D (x, p.1, p.2.mirror) →
      ∀ q ∈ pre, (q.1, q.2.mirror) ≠ (p.1, p.2.mirror)) :
    Ok D L0 (fun c => L1 c ∨ ∃ p ∈ srcs, c = (x, p.1, p.2.mirror)) (srcs.foldl (fun r p => r.addLink x p.1 p.2.mirror) r) := by
  suffices ∀ post pre r1, srcs = pre ++ post → Ok D L0 (fun c => L1 c ∨ ∃ p ∈ pre, c = (x, p.1, p.2.mirror)) r1 →
      Ok D L0 (fun c => L1 c ∨ ∃ p ∈ srcs, c = (x, p.1, p.2.mirror)) (post.foldl (fun r p => r.addLink x p.1 p.2.mirror) r1) by
    exact this srcs [] r rfl (h.congr (by simp))
  intro post
  induction post with
  | nil =>
    intro pre r1 he h1
    simp only [List.append_nil] at he
    subst he; exact h1
  | cons p post ih =>
    intro pre r1 he h1
    simp only [List.foldl_cons]
    refine ih (pre ++ [p]) _ (by rw [he]; simp) ?_
    refine (h1.add hD ?_).congr ?_
    · intro hd
      rintro (h2 | ⟨q, hq, h2⟩)
      · exact hn p (by rw [he]; simp) hd h2
      · simp only [Prod.mk.injEq, true_and] at h2
        exact hnd pre p post he hd q hq (by rw [Prod.mk.injEq]; exact ⟨h2.1.symm, h2.2.symm⟩)
    · intro c
      simp only [List.mem_append, List.mem_singleton]
      constructor
      · rintro (h2 | ⟨q, hq | rfl, h2⟩)
        · exact Or.inl (Or.inl h2)
        · exact Or.inl (Or.inr ⟨q, hq, h2⟩)
        · exact Or.inr h2
      · rintro ((h2 | ⟨q, hq, h2⟩) | h2)
        · exact Or.inl h2
        · exact Or.inr ⟨q, Or.inl hq, h2⟩
        · exact Or.inr ⟨p, Or.inr rfl, h2⟩

/-- Recording all links of one node as removed. -/
theorem Ok.removeAll (hD : ∀ c, D c → c.2.1 ≠ emptyIdx) (x : NodeIndex) (srcs : List (NodeIndex × Source)) (h : Ok D L0 L1 r)
    (hn : ∀ p ∈ srcs, D (x, p.1, p.2.mirror) → L1 (x, p.1, p.2.mirror))
    (hnd : ∀ pre p post, srcs = pre ++ p :: post → D (x, p.1, p.2.mirror) →
      ∀ q ∈ pre, (q.1, q.2.mirror) ≠ (p.1, p.2.mirror)) :
    Ok D L0 (fun c => L1 c ∧ ¬ ∃ p ∈ srcs, c = (x, p.1, p.2.mirror)) (srcs.foldl (fun r p => r.removeLink x p.1 p.2.mirror) r) := by
  suffices ∀ post pre r1, srcs = pre ++ post → Ok D L0 (fun c => L1 c ∧ ¬ ∃ p ∈ pre, c = (x, p.1, p.2.mirror)) r1 →
      Ok D L0 (fun c => L1 c ∧ ¬ ∃ p ∈ srcs, c = (x, p.1, p.2.mirror)) (post.foldl (fun r p => r.removeLink x p.1 p.2.mirror) r1) by
    exact this srcs [] r rfl (h.congr (by simp))
  intro post
  induction post with
  | nil =>
    intro pre r1 he h1
    simp only [List.append_nil] at he
    subst he; exact h1
  | cons p post ih =>
    intro pre r1 he h1
    simp only [List.foldl_cons]
    refine ih (pre ++ [p]) _ (by rw [he]; simp) ?_
    refine (h1.remove hD ?_).congr ?_
    · intro hd
      refine ⟨hn p (by rw [he]; simp) hd, ?_⟩
      rintro ⟨q, hq, h2⟩
      simp only [Prod.mk.injEq, true_and] at h2
      exact hnd pre p post he hd q hq (by rw [Prod.mk.injEq]; exact ⟨h2.1.symm, h2.2.symm⟩)
    · intro c
      simp only [List.mem_append, List.mem_singleton]
      constructor
      · rintro ⟨h1, h2⟩
        exact ⟨⟨h1, fun ⟨q, hq, e⟩ => h2 ⟨q, Or.inl hq, e⟩⟩, fun e => h2 ⟨p, Or.inr rfl, e⟩⟩
      · rintro ⟨⟨h1, h2⟩, h3⟩
        refine ⟨h1, ?_⟩
        rintro ⟨q, hq | rfl, e⟩
        · exact h2 ⟨q, hq, e⟩
        · exact h3 e

end Lcr

/-! ### Distinctness of the sources of a node -/

namespace LinkVal

theorem sources_nodup (v : LinkVal) (d : Ident) (p : Nat) : (v.sources d p).Nodup := by
  cases v with
  | direct i => simp only [sources]; split <;> simp
  | set s =>
    simp only [sources]
    exact s.nodup.map (fun a b h => by simpa using h)
  | vec l =>
    simp only [sources]
    have h0 : (l.zipIdx).Nodup := by
      apply List.Nodup.of_map Prod.snd
      rw [List.zipIdx_map_snd]
      exact List.nodup_range'
    refine (h0.filter _).map ?_
    rintro ⟨a, i⟩ ⟨b, j⟩ h
    simpa using h

end LinkVal

namespace Node

theorem iterSources_nodup (n : Node) : n.iterSources.Nodup := by
  simp only [iterSources]
  rw [List.nodup_flatMap]
  constructor
  · intro p _; exact LinkVal.sources_nodup ..
  · have h0 : (n.links.zipIdx.map Prod.snd).Nodup := by
      rw [List.zipIdx_map_snd]
      exact List.nodup_range'
    have h1 := List.pairwise_map.1 h0
    refine h1.imp ?_
    intro a b hab
    rw [Function.onFun, List.disjoint_left]
    rintro ⟨y, s⟩ ha hb
    rw [LinkVal.mem_sources] at ha hb
    exact hab (ha.2.1.symm.trans hb.2.1)

theorem kindAt_wt {S : Schema} {n : Node} (h : S.WT n) (p : Nat) : n.kindAt p = S.kind? ⟨n.disc, p⟩ := by
  obtain ⟨sd, h1, h2, _⟩ := h
  simp only [kindAt, Schema.kind?, h1, Option.bind_some, ← h2, List.getElem?_map]

/-- The sources of a node that hold an index once in a field differ in target or field. -/
theorem iterSources_distinct {n : Node} {v : View} {x : NodeIndex} (hx : v x = some n) {pre post : List (NodeIndex × Source)}
    {p : NodeIndex × Source} (he : n.iterSources = pre ++ p :: post) (ho : v.Once x p.2.mirror p.1) :
    ∀ q ∈ pre, (q.1, q.2.mirror) ≠ (p.1, p.2.mirror) := by
  rintro ⟨y, d, a, k⟩ hq e
  obtain ⟨y', d', a', k'⟩ := p
  simp only [Prod.mk.injEq, Source.mirror, Mirror.mk.injEq] at e
  obtain ⟨rfl, rfl, rfl⟩ := e
  have hnd := iterSources_nodup n
  have h1 : (y, (⟨d, a, k'⟩ : Source)) ∈ n.iterSources := by rw [he]; simp
  have h2 : (y, (⟨d, a, k⟩ : Source)) ∈ n.iterSources := by rw [he]; simp [hq]
  obtain rfl : k = k' := ho k k' ⟨n, hx, mem_iterSources.1 h2⟩ ⟨n, hx, mem_iterSources.1 h1⟩
  rw [he, List.nodup_append] at hnd
  exact hnd.2.2 _ hq _ (by simp) rfl

end Node

/-- A place of a non-`Vec` field has slot 0. -/
theorem View.slot_zero {S : Schema} {v : View} (hw : ∀ x n, v x = some n → S.WT n) {x : NodeIndex} {s : Source} {y : NodeIndex}
    (h : v.Holds x s y) (hk : S.kind? s.mirror ≠ some .vec) : s.slot = 0 := by
  obtain ⟨n, hn, hd, w, hw1, hw2⟩ := h
  refine LinkVal.holds_slot_zero hw2 ?_
  intro hc
  have := Node.kindAt_wt (hw x n hn) s.pos
  simp only [Node.kindAt, hw1, Option.map_some, hc] at this
  rw [← hd] at this
  exact hk this.symm

/-- A field that is not a `Vec` holds an index once. -/
theorem View.once_of_kind {S : Schema} {v : View} (hw : ∀ x n, v x = some n → S.WT n) {x : NodeIndex} {m : Mirror} {y : NodeIndex}
    (hk : S.kind? m ≠ some .vec) : v.Once x m y := fun k k' h h' =>
  (View.slot_zero (s := ⟨m.disc, m.pos, k⟩) hw h hk).trans (View.slot_zero (s := ⟨m.disc, m.pos, k'⟩) hw h' hk).symm

/-- The change concerns a real target, and a field that is not a `Vec`, or one that holds the target once in `v` and `v'`. -/
def Followed (S : Schema) (v v' : View) (c : Change) : Prop :=
  c.2.1 ≠ emptyIdx ∧ (S.kind? c.2.2 ≠ some .vec ∨ v.Once c.1 c.2.2 c.2.1 ∧ v'.Once c.1 c.2.2 c.2.1)

/-- On the way from `v` to `v'` the recorder has stayed exact on the changes it can follow. -/
def Lcr.Keeps (S : Schema) (L0 : Change → Prop) (v : View) (r : Lcr) (v' : View) (r' : Lcr) : Prop :=
  ∀ D : Change → Prop, (∀ c, D c → Followed S v v' c) → Lcr.Ok D L0 (View.L v) r → Lcr.Ok D L0 (View.L v') r'

theorem Lcr.Keeps.tracked {S : Schema} {L0 : Change → Prop} {v v' : View} {r r' : Lcr} (h : Lcr.Keeps S L0 v r v' r') :
    Lcr.Ok (Tracked S) L0 (View.L v) r → Lcr.Ok (Tracked S) L0 (View.L v') r' := h _ fun _ hc => ⟨hc.1, Or.inl hc.2⟩

theorem Followed.left {S : Schema} {v v' : View} {c : Change} (hw : ∀ x n, v x = some n → S.WT n) (h : Followed S v v' c) :
    v.Once c.1 c.2.2 c.2.1 := h.2.elim (View.once_of_kind hw) And.left

theorem Followed.right {S : Schema} {v v' : View} {c : Change} (hw : ∀ x n, v' x = some n → S.WT n) (h : Followed S v v' c) :
    v'.Once c.1 c.2.2 c.2.1 := h.2.elim (View.once_of_kind hw) And.right

end TTGraph
