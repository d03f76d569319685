import Verif.Spec.Links
import Mathlib.Tactic.Tauto


set_option autoImplicit false
namespace TTGraph

namespace LinkVal

theorem mem_sources {v : LinkVal} {d : Ident} {pos : Nat} {y : NodeIndex} {s : Source} :
    (y, s) ∈ v.sources d pos ↔ s.disc = d ∧ s.pos = pos ∧ v.Holds s.slot y := by
  obtain ⟨sd, sp, ss⟩ := s
  cases v with
  | direct i =>
    simp only [sources, Holds]
    split
    · rename_i h; subst h
      simp only [List.not_mem_nil, false_iff]
      rintro ⟨_, _, _, h1, h2⟩; exact h2 h1.symm
    · rename_i h
      simp only [List.mem_singleton, Prod.mk.injEq, Source.mk.injEq]
      constructor
      · rintro ⟨rfl, rfl, rfl, rfl⟩; exact ⟨rfl, rfl, rfl, rfl, h⟩
      · rintro ⟨rfl, rfl, rfl, rfl, _⟩; exact ⟨rfl, rfl, rfl, rfl⟩
  | set s =>
    simp only [sources, Holds, List.mem_map, Prod.mk.injEq, Source.mk.injEq]
    constructor
    · rintro ⟨a, ha, rfl, rfl, rfl, rfl⟩; exact ⟨rfl, rfl, rfl, ha⟩
    · rintro ⟨rfl, rfl, rfl, h⟩; exact ⟨y, h, rfl, rfl, rfl, rfl⟩
  | vec l =>
    simp only [sources, Holds, List.mem_map, List.mem_filter, Prod.mk.injEq, Source.mk.injEq, decide_eq_true_eq]
    constructor
    · rintro ⟨⟨a, k⟩, ⟨ha, hne⟩, rfl, rfl, rfl, rfl⟩
      exact ⟨rfl, rfl, List.mem_zipIdx_iff_getElem?.1 ha, hne⟩
    · rintro ⟨rfl, rfl, h, hne⟩
      exact ⟨(y, ss), ⟨List.mem_zipIdx_iff_getElem?.2 h, hne⟩, rfl, rfl, rfl, rfl⟩

end LinkVal

namespace Node

theorem mem_iterSources {n : Node} {y : NodeIndex} {s : Source} : (y, s) ∈ n.iterSources ↔ n.Holds s y := by
  simp only [iterSources, List.mem_flatMap, Holds]
  constructor
  · rintro ⟨⟨v, p⟩, hv, h⟩
    rw [LinkVal.mem_sources] at h
    obtain ⟨h1, h2, h3⟩ := h
    subst h2
    exact ⟨h1, v, List.mem_zipIdx_iff_getElem?.1 hv, h3⟩
  · rintro ⟨h1, v, hv, h3⟩
    exact ⟨(v, s.pos), List.mem_zipIdx_iff_getElem?.2 hv, LinkVal.mem_sources.2 ⟨h1, rfl, h3⟩⟩

theorem holds_disc {n : Node} {s : Source} {y : NodeIndex} (h : n.Holds s y) : s.disc = n.disc := h.1

theorem hasLink_of_holds {n : Node} {s : Source} {y : NodeIndex} (h : n.Holds s y) : n.HasLink s.mirror y := ⟨s.slot, h⟩

end Node

namespace LinkVal
variable [SetImpl]

/-- `modify` on a place that holds `old`. -/
theorem modify_spec {v : LinkVal} {slot : Nat} {old new : NodeIndex} (h : v.Holds slot old) :
    ∃ v' rem add, v.modify slot old new = .ok (v', rem, add) ∧ v'.shape = v.shape ∧
      (∀ k w, v'.Holds k w ↔ (v.Holds k w ∧ ¬ (k = slot ∧ w = old)) ∨ (k = slot ∧ w = new ∧ new ≠ emptyIdx)) ∧
      (old ≠ new → rem = true) ∧
      (old ≠ new → v.kind = .vec → (add = true ↔ new ≠ emptyIdx)) ∧
      (old ≠ new → v.kind ≠ .vec → (add = true ↔ new ≠ emptyIdx ∧ ¬ v.Holds slot new)) := by
  cases v with
  | direct i =>
    obtain ⟨rfl, rfl, hne⟩ := h
    refine ⟨_, _, _, rfl, rfl, ?_, ?_, ?_, ?_⟩
    · intro k w
      simp only [Holds]
      constructor
      · rintro ⟨rfl, rfl, h⟩; exact Or.inr ⟨rfl, rfl, h⟩
      · rintro (⟨⟨rfl, rfl, _⟩, h⟩ | ⟨rfl, rfl, h⟩)
        · exact absurd ⟨rfl, rfl⟩ h
        · exact ⟨rfl, rfl, h⟩
    · intro h; simp [h, hne]
    · intro _ h; simp [kind] at h
    · intro h _
      simp only [Bool.and_eq_true, decide_eq_true_eq, Holds]
      tauto
  | set s =>
    obtain ⟨rfl, hm⟩ := h
    by_cases hn : new = emptyIdx
    · refine ⟨.set (SetImpl.del old s), decide (old ∈ s.elems), false, ?_, rfl, ?_, ?_, ?_, ?_⟩
      · simp [modify, hn]
      · intro k w
        simp only [Holds, SetImpl.mem_del]
        constructor
        · rintro ⟨rfl, h1, h2⟩; exact Or.inl ⟨⟨rfl, h1⟩, fun h => h2 h.2⟩
        · rintro (⟨⟨rfl, h1⟩, h2⟩ | ⟨_, _, h⟩)
          · exact ⟨rfl, h1, fun h => h2 ⟨rfl, h⟩⟩
          · exact absurd hn h
      · intro _; simp [hm]
      · intro _ h; simp [kind] at h
      · intro _ _; simp [hn]
    · refine ⟨.set (SetImpl.ins new (SetImpl.del old s)), decide (old ∈ s.elems), decide (new ∉ (SetImpl.del old s).elems),
        ?_, rfl, ?_, ?_, ?_, ?_⟩
      · simp [modify, hn]
      · intro k w
        simp only [Holds, SetImpl.mem_del, SetImpl.mem_ins]
        constructor
        · rintro ⟨rfl, rfl | ⟨h1, h2⟩⟩
          · exact Or.inr ⟨rfl, rfl, hn⟩
          · exact Or.inl ⟨⟨rfl, h1⟩, fun h => h2 h.2⟩
        · rintro (⟨⟨rfl, h1⟩, h2⟩ | ⟨rfl, rfl, h⟩)
          · exact ⟨rfl, Or.inr ⟨h1, fun h => h2 ⟨rfl, h⟩⟩⟩
          · exact ⟨rfl, Or.inl rfl⟩
      · intro _; simp [hm]
      · intro _ h; simp [kind] at h
      · intro h _
        have h' : new ≠ old := fun e => h e.symm
        simp [Holds, SetImpl.mem_del, hn, h']
  | vec l =>
    obtain ⟨hl, hne⟩ := h
    have hlt : slot < l.length := by
      rcases List.getElem?_eq_some_iff.1 hl with ⟨h, _⟩; exact h
    refine ⟨.vec (l.set slot new), _, _, by simp only [modify, hl]; rfl, by simp [shape], ?_, ?_, ?_, ?_⟩
    · intro k w
      simp only [Holds, List.getElem?_set]
      by_cases hk : slot = k
      · subst hk
        simp only [if_true, hlt, Option.some.injEq, true_and]
        constructor
        · rintro ⟨rfl, h⟩; exact Or.inr ⟨rfl, h⟩
        · rintro (⟨⟨h1, _⟩, h2⟩ | ⟨rfl, h⟩)
          · rw [hl] at h1; simp at h1; exact absurd h1.symm h2
          · exact ⟨rfl, h⟩
      · have hk' : k ≠ slot := fun e => hk e.symm
        simp only [hk, if_false, hk', false_and, not_false_eq_true, and_true, or_false]
    · intro h; simp [h, hne]
    · intro h _
      simp [h]
    · intro _ h; simp [kind] at h

omit [SetImpl] in
theorem holds_slot_zero {v : LinkVal} {slot : Nat} {y : NodeIndex} (h : v.Holds slot y) (hk : v.kind ≠ .vec) : slot = 0 := by
  cases v with
  | direct i => exact h.1
  | set s => exact h.1
  | vec l => simp [kind] at hk

/-- `add` on a field that is not a `Vec`. -/
theorem add_spec {v : LinkVal} {y : NodeIndex} (hy : y ≠ emptyIdx) (hk : v.kind ≠ .vec)
    (hfree : ∀ i, v = .direct i → i = emptyIdx ∨ i = y) :
    ∃ v' added, v.add y = .ok (v', added) ∧ v'.shape = v.shape ∧
      (∀ k w, v'.Holds k w ↔ v.Holds k w ∨ (k = 0 ∧ w = y)) ∧ (added = true ↔ ¬ v.Holds 0 y) := by
  cases v with
  | direct i =>
    rcases hfree i rfl with rfl | rfl
    · refine ⟨.direct y, true, ?_, rfl, ?_, ?_⟩
      · have : ¬ emptyIdx = y := fun e => hy e.symm
        simp [add, this]
      · intro k w
        simp only [Holds]
        constructor
        · rintro ⟨rfl, rfl, _⟩; exact Or.inr ⟨rfl, rfl⟩
        · rintro (⟨_, rfl, h⟩ | ⟨rfl, rfl⟩)
          · exact absurd rfl h
          · exact ⟨rfl, rfl, hy⟩
      · simp only [Holds, true_iff]
        rintro ⟨_, h, h'⟩; exact h' h.symm
    · refine ⟨.direct i, false, ?_, rfl, ?_, ?_⟩
      · simp [add, hy]
      · intro k w
        simp only [Holds]
        constructor
        · exact Or.inl
        · rintro (h | ⟨rfl, rfl⟩)
          · exact h
          · exact ⟨rfl, rfl, hy⟩
      · simp [Holds, hy]
  | set s =>
    refine ⟨_, _, rfl, rfl, ?_, ?_⟩
    · intro k w
      simp only [Holds, SetImpl.mem_ins]
      tauto
    · simp [Holds]
  | vec l => simp [kind] at hk

theorem add_conflict {i y : NodeIndex} (h1 : i ≠ emptyIdx) (h2 : i ≠ y) : (LinkVal.direct i).add y = .error .addOnExisting := by
  simp [add, h1, h2]

/-- `remove` on a field that is not a `Vec`. -/
theorem remove_spec {v : LinkVal} {y : NodeIndex} (hy : y ≠ emptyIdx) (hk : v.kind ≠ .vec) :
    ∃ v' removed, v.remove y = .ok (v', removed) ∧ v'.shape = v.shape ∧
      (∀ k w, v'.Holds k w ↔ v.Holds k w ∧ ¬ (k = 0 ∧ w = y)) ∧ (removed = true ↔ v.Holds 0 y) := by
  cases v with
  | direct i =>
    by_cases h0 : i = emptyIdx
    · subst h0
      refine ⟨.direct emptyIdx, false, by simp [remove], rfl, ?_, ?_⟩
      · intro k w
        simp only [Holds]
        constructor
        · rintro ⟨_, rfl, h⟩; exact absurd rfl h
        · rintro ⟨h, _⟩; exact h
      · simp only [Holds, Bool.false_eq_true, false_iff]
        rintro ⟨_, h, h'⟩; exact h' h.symm
    · by_cases hiy : i = y
      · subst hiy
        refine ⟨.direct emptyIdx, true, by simp [remove, h0], rfl, ?_, ?_⟩
        · intro k w
          simp only [Holds]
          constructor
          · rintro ⟨_, rfl, h⟩; exact absurd rfl h
          · rintro ⟨⟨rfl, rfl, h⟩, h'⟩; exact absurd ⟨rfl, rfl⟩ h'
        · simp [Holds, hy]
      · refine ⟨.direct i, false, by simp [remove, h0, hiy], rfl, ?_, ?_⟩
        · intro k w
          simp only [Holds]
          constructor
          · rintro ⟨rfl, rfl, h⟩; exact ⟨⟨rfl, rfl, h⟩, fun h => hiy h.2⟩
          · rintro ⟨h, _⟩; exact h
        · simp [Holds, hiy]
  | set s =>
    refine ⟨_, _, rfl, rfl, ?_, ?_⟩
    · intro k w
      simp only [Holds, SetImpl.mem_del]
      tauto
    · simp [Holds]
  | vec l => simp [kind] at hk

omit [SetImpl] in
theorem contains_iff {v : LinkVal} {y : NodeIndex} (hy : y ≠ emptyIdx) : v.contains y = true ↔ ∃ k, v.Holds k y := by
  cases v with
  | direct i =>
    simp only [contains, Holds]
    split
    · rename_i h; subst h
      simp only [Bool.false_eq_true, false_iff]
      rintro ⟨_, _, h, h'⟩; exact h' h.symm
    · simp only [decide_eq_true_eq]
      constructor
      · intro h; exact ⟨0, rfl, h, hy⟩
      · rintro ⟨_, _, h, _⟩; exact h
  | set s => simp [contains, Holds]
  | vec l =>
    simp only [contains, List.any_eq_true, decide_eq_true_eq, Holds]
    constructor
    · rintro ⟨x, hx, rfl⟩
      obtain ⟨k, hk, hkk⟩ := List.getElem_of_mem hx
      exact ⟨k, List.getElem?_eq_some_iff.2 ⟨hk, hkk⟩, hy⟩
    · rintro ⟨k, hk, _⟩
      exact ⟨y, List.mem_of_getElem? hk, rfl⟩

omit [SetImpl] in
theorem shape_kind {v v' : LinkVal} (h : v'.shape = v.shape) : v'.kind = v.kind := by
  cases v <;> cases v' <;> simp_all [shape, kind]

end LinkVal

namespace Node

theorem setLink_disc (n : Node) (p : Nat) (v : LinkVal) : (n.setLink p v).disc = n.disc := rfl

theorem setLink_get {n : Node} {p q : Nat} {v w : LinkVal} (h : n.links[p]? = some w) :
    (n.setLink p v).links[q]? = if p = q then some v else n.links[q]? := by
  have hlt : p < n.links.length := (List.getElem?_eq_some_iff.1 h).1
  simp only [setLink, List.getElem?_set]
  split
  · rename_i h; subst h; simp
  · rfl

theorem setLink_shape {n : Node} {p : Nat} {v w : LinkVal} (h : n.links[p]? = some w) (hs : v.shape = w.shape) :
    (n.setLink p v).shape = n.shape := by
  simp only [shape, setLink]
  have : (n.links.set p v).map LinkVal.shape = n.links.map LinkVal.shape := by
    apply List.ext_getElem?
    intro i
    simp only [List.getElem?_map, List.getElem?_set]
    split
    · rename_i hp; subst hp
      have hlt : p < n.links.length := (List.getElem?_eq_some_iff.1 h).1
      rw [h]; simp [hlt, hs]
    · rfl
  rw [this]

theorem setLink_holds {n : Node} {p : Nat} {v w : LinkVal} (h : n.links[p]? = some w) (t : Source) (y : NodeIndex) :
    (n.setLink p v).Holds t y ↔ if t.pos = p then t.disc = n.disc ∧ v.Holds t.slot y else n.Holds t y := by
  simp only [Holds, setLink_get h, setLink_disc]
  by_cases hp : p = t.pos
  · subst hp; simp
  · have : ¬ t.pos = p := fun e => hp e.symm
    simp [hp, this]

variable [SetImpl]

/-- Kind of a link field of a node. -/
def kindAt (n : Node) (pos : Nat) : Option LinkKind := (n.links[pos]?).map LinkVal.kind

omit [SetImpl] in
theorem kindAt_of_shape {n n' : Node} (h : n'.shape = n.shape) (p : Nat) : n'.kindAt p = n.kindAt p := by
  have h3 : n'.links.map LinkVal.shape = n.links.map LinkVal.shape := by
    simp only [shape, Prod.mk.injEq] at h; exact h.2.2
  have := congrArg (fun l => (l[p]?).map Prod.fst) h3
  simp only [List.getElem?_map, Option.map_map] at this
  have hk : ∀ v : LinkVal, (Prod.fst ∘ LinkVal.shape) v = v.kind := by intro v; cases v <;> rfl
  have hk' : Prod.fst ∘ LinkVal.shape = LinkVal.kind := funext hk
  rw [hk'] at this
  exact this

/-- `modify_link` on a place that holds `old`: it succeeds, changes the index at that place and nothing else, and reports truthfully. -/
theorem modifyLink_spec {n : Node} {s : Source} {old new : NodeIndex} (h : n.Holds s old) :
    ∃ n' rem add, n.modifyLink s old new = .ok (n', rem, add) ∧ n'.shape = n.shape ∧
      (∀ t w, n'.Holds t w ↔ (n.Holds t w ∧ ¬ (t = s ∧ w = old)) ∨ (t = s ∧ w = new ∧ new ≠ emptyIdx)) ∧
      (old ≠ new → rem = true) ∧
      (old ≠ new → n.kindAt s.pos = some .vec → (add = true ↔ new ≠ emptyIdx)) ∧
      (old ≠ new → n.kindAt s.pos ≠ some .vec → (add = true ↔ new ≠ emptyIdx ∧ ¬ n.HasLink s.mirror new)) := by
  obtain ⟨hd, v, hv, hh⟩ := h
  obtain ⟨v', rem, add, hm, hsh, hhold, hr, ha1, ha2⟩ := LinkVal.modify_spec (new := new) hh
  refine ⟨n.setLink s.pos v', rem, add, ?_, setLink_shape hv hsh, ?_, hr, ?_, ?_⟩
  · simp only [modifyLink, hd, if_true, hv, hm]
  · intro t w
    rw [setLink_holds hv]
    obtain ⟨td, tp, ts⟩ := t
    obtain ⟨sd, sp, ss⟩ := s
    simp only [Source.mk.injEq] at *
    by_cases hp : tp = sp
    · subst hp
      simp only [if_true, true_and, hhold, Holds, hv, Option.some.injEq, exists_eq_left']
      subst hd
      by_cases htd : td = n.disc
      · simp [htd]
      · simp [htd]
    · simp [hp]
  · intro h1 h2
    simp only [kindAt, hv, Option.map_some, Option.some.injEq] at h2
    exact ha1 h1 h2
  · intro h1 h2
    simp only [kindAt, hv, Option.map_some, Option.some.injEq, ne_eq] at h2
    rw [ha2 h1 h2]
    have : n.HasLink s.mirror new ↔ v.Holds s.slot new := by
      simp only [HasLink, Holds, Source.mirror, hd, hv, true_and, Option.some.injEq, exists_eq_left']
      constructor
      · rintro ⟨k, hk⟩
        have h0 := LinkVal.holds_slot_zero hk h2
        have h0' := LinkVal.holds_slot_zero hh h2
        rw [h0']; rw [h0] at hk; exact hk
      · intro hk; exact ⟨_, hk⟩
    rw [this]

theorem addLink_spec {n : Node} {m : Mirror} {v : LinkVal} {y : NodeIndex} (hy : y ≠ emptyIdx) (hd : m.disc = n.disc)
    (hv : n.links[m.pos]? = some v) (hk : v.kind ≠ .vec) (hfree : ∀ i, v = .direct i → i = emptyIdx ∨ i = y) :
    ∃ n' added, n.addLink m y = .ok (n', added) ∧ n'.shape = n.shape ∧
      (∀ t w, n'.Holds t w ↔ n.Holds t w ∨ (t = ⟨m.disc, m.pos, 0⟩ ∧ w = y)) ∧
      (added = true ↔ ¬ n.Holds ⟨m.disc, m.pos, 0⟩ y) := by
  obtain ⟨v', added, hm, hsh, hhold, ha⟩ := LinkVal.add_spec hy hk hfree
  refine ⟨n.setLink m.pos v', added, ?_, setLink_shape hv hsh, ?_, ?_⟩
  · simp only [addLink, hd, if_true, hv, hm]
  · intro t w
    rw [setLink_holds hv]
    obtain ⟨td, tp, ts⟩ := t
    simp only [Source.mk.injEq] at *
    by_cases hp : tp = m.pos
    · subst hp
      simp only [if_true, true_and, hhold, Holds, hv, Option.some.injEq, exists_eq_left', hd]
      by_cases htd : td = n.disc
      · simp [htd]
      · simp [htd]
    · simp [hp]
  · rw [ha]; simp [Holds, hv, hd]

theorem addLink_conflict {n : Node} {m : Mirror} {i y : NodeIndex} (hd : m.disc = n.disc)
    (hv : n.links[m.pos]? = some (.direct i)) (h1 : i ≠ emptyIdx) (h2 : i ≠ y) : n.addLink m y = .error .addOnExisting := by
  simp only [addLink, hd, if_true, hv, LinkVal.add_conflict h1 h2]

theorem removeLink_spec {n : Node} {m : Mirror} {v : LinkVal} {y : NodeIndex} (hy : y ≠ emptyIdx) (hd : m.disc = n.disc)
    (hv : n.links[m.pos]? = some v) (hk : v.kind ≠ .vec) :
    ∃ n' removed, n.removeLink m y = .ok (n', removed) ∧ n'.shape = n.shape ∧
      (∀ t w, n'.Holds t w ↔ n.Holds t w ∧ ¬ (t = ⟨m.disc, m.pos, 0⟩ ∧ w = y)) ∧
      (removed = true ↔ n.Holds ⟨m.disc, m.pos, 0⟩ y) := by
  obtain ⟨v', removed, hm, hsh, hhold, ha⟩ := LinkVal.remove_spec hy hk
  refine ⟨n.setLink m.pos v', removed, ?_, setLink_shape hv hsh, ?_, ?_⟩
  · simp only [removeLink, hd, if_true, hv, hm]
  · intro t w
    rw [setLink_holds hv]
    obtain ⟨td, tp, ts⟩ := t
    simp only [Source.mk.injEq] at *
    by_cases hp : tp = m.pos
    · subst hp
      simp only [if_true, true_and, hhold, Holds, hv, Option.some.injEq, exists_eq_left', hd]
      by_cases htd : td = n.disc
      · simp [htd]
      · simp [htd]
    · simp [hp]
  · rw [ha]; simp [Holds, hv, hd]

omit [SetImpl] in
theorem containsLink_iff {n : Node} {m : Mirror} {y : NodeIndex} (hy : y ≠ emptyIdx) :
    n.containsLink m y = true ↔ n.HasLink m y := by
  simp only [containsLink, HasLink, Holds]
  by_cases hd : m.disc = n.disc
  · simp only [hd, if_true, true_and]
    cases hv : n.links[m.pos]? with
    | none => simp
    | some v => simp [LinkVal.contains_iff hy]
  · simp [hd]

end Node
end TTGraph
