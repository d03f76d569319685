import Verif.Lemmas.World

/-!
# Reachable graphs and transactions
-/

set_option autoImplicit false

namespace TTGraph
open Spec
variable [SetImpl] {S : Schema} {dbg : Bool} {R : World → Call → Prop}

theorem Reachable.inv (hw : WellNamed S) {g : Graph} (h : Reachable S dbg R g) : g.Inv S False := by
  obtain ⟨w, k, c, hr, hg⟩ := h
  obtain ⟨_, _, _, hi⟩ := (hr.inv hw).graph k c g hg
  exact hi

theorem Meets.reachable {g : Graph} {t : Trans} (h : Meets S dbg R g t) : Reachable S dbg R g := by
  obtain ⟨w, k, k', c, hr, hg, _⟩ := h
  exact ⟨w, k, c, hr, hg⟩

theorem Meets.ready (hw : WellNamed S) {g : Graph} {t : Trans} (h : Meets S dbg R g t) : t.Ready S := by
  obtain ⟨w, k, k', c, hr, _, ht⟩ := h
  obtain ⟨_, _, _, hi⟩ := (hr.inv hw).trans k' c t ht
  exact hi

theorem Meets.inv (hw : WellNamed S) {g : Graph} {t : Trans} (h : Meets S dbg R g t) : g.Inv S False :=
  h.reachable.inv hw

theorem Meets.disjoint (hw : WellNamed S) {g : Graph} {t : Trans} (h : Meets S dbg R g t) :
    g.nodes.Disjoint t.inc ∧ t.ctxId = g.ctxId ∧ ∀ i, t.Owns i → ¬ g.Owns i := by
  obtain ⟨w, k, k', c, hr, hg, ht⟩ := h
  obtain ⟨x, _, h2, h3, _, _, h6, h7, _⟩ := (hr.inv hw).pair ht hg
  exact ⟨h7, by rw [h2, h3], h6⟩

theorem Meets.commit (hw : WellNamed S) {g g' : Graph} {t : Trans} (h : Meets S dbg R g t) {dbg' : Bool}
    (hc : g.commit S dbg' t = .ok g') : ∃ v6, Graph.CommitOut S False t g g' v6 :=
  Graph.commit_ok hw (h.inv hw) (h.ready hw).good (h.disjoint hw).1 (h.ready hw).noFrom hc

theorem Meets.left (hw : WellNamed S) {g g' : Graph} {t : Trans} (h : Meets S dbg R g t) {dbg' : Bool}
    (hc : g.commitLeft S dbg' t = some g') : Graph.LeftOut S False t g g' ∧ (g' = g ∨ dbg' = false ∨ t.allocs.isEmpty = true) :=
  Graph.commitLeft_out hw.variants (h.inv hw) (h.ready hw).good (h.disjoint hw).1 (h.ready hw).noFrom hc

/-! ### Nodes that are the same up to the order of sets -/

omit [SetImpl]

theorem Node.same_iff {n n' : Node} : n.Same n' ↔ n'.shape = n.shape ∧ ∀ s y, n'.Holds s y ↔ n.Holds s y := by
  constructor
  · intro h
    refine ⟨Node.Renamed.shape h, fun s y => ?_⟩
    rw [Node.Renamed.holds h]
    constructor
    · rintro ⟨u, hu, rfl, _⟩; exact hu
    · intro hy
      refine ⟨y, hy, rfl, ?_⟩
      by_cases e : y = emptyIdx
      · exact Or.inr e
      · exact Or.inl e
  · rintro ⟨h1, h2⟩
    refine Node.renamed_of_holds h1 fun s w => ?_
    rw [h2]
    constructor
    · intro hy
      refine ⟨w, hy, rfl, ?_⟩
      by_cases e : w = emptyIdx
      · exact Or.inr e
      · exact Or.inl e
    · rintro ⟨u, hu, rfl, _⟩; exact hu

theorem Node.Same.refl (n : Node) : n.Same n := Node.same_iff.2 ⟨rfl, fun _ _ => Iff.rfl⟩

theorem Node.Same.symm {n n' : Node} (h : n.Same n') : n'.Same n := by
  obtain ⟨h1, h2⟩ := Node.same_iff.1 h
  exact Node.same_iff.2 ⟨h1.symm, fun s y => (h2 s y).symm⟩

theorem Node.Same.trans {n n' n'' : Node} (h : n.Same n') (h' : n'.Same n'') : n.Same n'' := by
  obtain ⟨h1, h2⟩ := Node.same_iff.1 h
  obtain ⟨h3, h4⟩ := Node.same_iff.1 h'
  exact Node.same_iff.2 ⟨h3.trans h1, fun s y => (h4 s y).trans (h2 s y)⟩

/-- A renaming that moves no link of the node does nothing. -/
theorem Node.Renamed.same {ρ : NodeIndex → NodeIndex} {n n' : Node} (h : Node.Renamed ρ n n') (hf : ∀ s y, n.Holds s y → ρ y = y) :
    n.Same n' := by
  refine Node.same_iff.2 ⟨Node.Renamed.shape h, fun s y => ?_⟩
  rw [Node.Renamed.holds h]
  constructor
  · rintro ⟨u, hu, rfl, _⟩
    rw [hf s u hu]
    exact hu
  · intro hy
    refine ⟨y, hy, hf s y hy, ?_⟩
    by_cases e : y = emptyIdx
    · exact Or.inr e
    · exact Or.inl e

end TTGraph
