import Verif.Lemmas.CommitSpec
import Verif.Lemmas.TransOps
import Verif.Model.Switch
import Verif.Model.Serialize

/-!
# Loading a graph: the common part of `switch_context` and `do_deserialize`, and their first halves
-/

set_option autoImplicit false

namespace TTGraph
namespace Graph
open Spec

section
variable [SetImpl] {S : Schema}

/-- What is known of a graph that was built from an arena. -/
structure LoadOut (S : Schema) (c : Nat) (a : Arena) (g : Graph) : Prop where
  same : SameUpToBidir S a.get? g.get?
  completion : Completion S (fun _ => none) a.get? g.get?
  covered : Covered S (fun _ => none) a.get? g.get?
  noConflict : ¬ Spec.Conflict S (fun _ => none) a.get?
  inv : g.Inv S True
  ctx : g.ctxId = c
  disp : ∀ j, g.nodes.disp.get? j = a.disp.get? j
  typed : a.Typed → g.nodes.Typed
  known : ∀ y, g.back.Known y ↔ (∃ n, a.get? y = some n) ∨ View.Linked a.get? y

omit [SetImpl] in
theorem merge_new_get? {a : Arena} (ha : a.Inv S) (c : Nat) (r : Lcr) (j : NodeIndex) : (mergeNodes S (Graph.new c) a r).1.get? j = a.get? j := by
  have h := Arena.merge_get? (S := S) (a := (Graph.new c).nodes) (b := a) (Arena.new_inv S) ha (fun i _ => rfl) j
  have e : (Graph.new c).nodes.get? j = none := Arena.new_get? j
  have h2 : (mergeNodes S (Graph.new c) a r).1.get? j = ((Graph.new c).nodes.merge a).get? j := rfl
  rw [h2, h, e]
  cases a.get? j <;> rfl

omit [SetImpl] in
theorem merge_new_disp (a : Arena) (c : Nat) (r : Lcr) (j : NodeIndex) :
    (mergeNodes S (Graph.new c) a r).1.nodes.disp.get? j = a.disp.get? j := by
  have h2 : (mergeNodes S (Graph.new c) a r).1.nodes.disp.get? j = ((Graph.new c).nodes.merge a).disp.get? j := rfl
  rw [h2, Arena.merge_disp]
  have e : (Graph.new c).nodes.disp.get? j = none := rfl
  rw [e]
  cases a.disp.get? j <;> rfl

omit [SetImpl] in
theorem merge_new_ok (hS : S.discs.Nodup) {a : Arena} (ha : a.Inv S) (h0 : a.get? emptyIdx = none)
    (hwt : ∀ x n, a.get? x = some n → S.WT n) (c : Nat) :
    (mergeNodes S (Graph.new c) a Lcr.new).1.Inv S True ∧ (mergeNodes S (Graph.new c) a Lcr.new).1.ctxId = c ∧
    (mergeNodes S (Graph.new c) a Lcr.new).1.get? = a.get? ∧
    (a.Typed → (mergeNodes S (Graph.new c) a Lcr.new).1.nodes.Typed) ∧
    (∀ y, (mergeNodes S (Graph.new c) a Lcr.new).1.back.Known y ↔ (∃ n, a.get? y = some n) ∨ View.Linked a.get? y) ∧
    Lcr.Ok (Tracked S) (View.L (fun _ => none)) (View.L a.get?) (mergeNodes S (Graph.new c) a Lcr.new).2 := by
  have hv0 : (Graph.new c).get? = fun _ => none := by funext j; exact Arena.new_get? j
  obtain ⟨_, m2, m3, m4, m5, m6⟩ := mergeNodes_spec (r := Lcr.new) (L0 := View.L (fun _ => none)) hS (new_inv S c) ha (fun i _ => rfl) h0 hwt
  have hget : (mergeNodes S (Graph.new c) a Lcr.new).1.get? = a.get? := by funext j; exact merge_new_get? ha c _ j
  refine ⟨m2, m3, hget, ?_, ?_, ?_⟩
  · intro h
    rw [m4]
    exact Arena.merge_typed Arena.new_typed h
  · intro y
    rw [m5 y]
    constructor
    · rintro (h | h)
      · exact absurd h (Back.known_empty y)
      · exact h
    · exact Or.inr
  · rw [← hget]
    refine m6.tracked ?_
    rw [hv0]
    exact Lcr.ok_new _ _

omit [SetImpl] in
/-- Every link of the arena is recorded as added. -/
theorem merge_new_lcr {a : Arena} (ha : a.Inv S) (c : Nat) :
    (∀ x m y, (x, y, m) ∉ (mergeNodes S (Graph.new c) a Lcr.new).2.removes) ∧
    ∀ x m y, (x, y, m) ∈ (mergeNodes S (Graph.new c) a Lcr.new).2.adds ↔ AddedLink (fun _ => none) a.get? x m y := by
  have node : ∀ (x : NodeIndex) (l : List (NodeIndex × Source)) (r : Lcr), (∀ q, q ∉ r.removes) →
      (∀ q, q ∉ (l.foldl (fun r p => r.addLink x p.1 p.2.mirror) r).removes) ∧
      ∀ q, q ∈ (l.foldl (fun r p => r.addLink x p.1 p.2.mirror) r).adds ↔
        q ∈ r.adds ∨ (q.2.1 ≠ emptyIdx ∧ q.1 = x ∧ ∃ p ∈ l, p.1 = q.2.1 ∧ p.2.mirror = q.2.2) := by
    intro x l
    induction l with
    | nil => intro r hr; exact ⟨hr, by simp⟩
    | cons p l ih =>
      intro r hr
      simp only [List.foldl_cons]
      by_cases hy : p.1 = emptyIdx
      · rw [show r.addLink x p.1 p.2.mirror = r by simp [Lcr.addLink, hy]]
        obtain ⟨i1, i2⟩ := ih r hr
        refine ⟨i1, fun q => (i2 q).trans ?_⟩
        simp only [List.mem_cons, exists_eq_or_imp]
        constructor
        · rintro (h | ⟨h1, h2, h3⟩)
          · exact Or.inl h
          · exact Or.inr ⟨h1, h2, Or.inr h3⟩
        · rintro (h | ⟨h1, h2, ⟨h3, _⟩ | h3⟩)
          · exact Or.inl h
          · exact absurd (h3.symm.trans hy) h1
          · exact Or.inr ⟨h1, h2, h3⟩
      · obtain ⟨i1, i2⟩ := ih (r.addLink x p.1 p.2.mirror) (fun q hq => hr q ((Lcr.mem_removes_addLink hy q).1 hq).1)
        refine ⟨i1, fun q => (i2 q).trans ?_⟩
        rw [Lcr.mem_adds_addLink hy]
        simp only [List.mem_cons, exists_eq_or_imp]
        obtain ⟨qx, qy, qm⟩ := q
        simp only [Prod.mk.injEq]
        constructor
        · rintro ((h | ⟨⟨h1, h2, h3⟩, _⟩) | ⟨h1, h2, h3⟩)
          · exact Or.inl h
          · exact Or.inr ⟨h2 ▸ hy, h1, Or.inl ⟨h2.symm, h3.symm⟩⟩
          · exact Or.inr ⟨h1, h2, Or.inr h3⟩
        · rintro (h | ⟨h1, h2, ⟨h3, h4⟩ | h3⟩)
          · exact Or.inl (Or.inl h)
          · exact Or.inl (Or.inr ⟨⟨h2, h3.symm, h4.symm⟩, hr _⟩)
          · exact Or.inr ⟨h1, h2, h3⟩
  have loop : ∀ (l : List (NodeIndex × Node)) (st : Back × Lcr), (∀ q, q ∉ st.2.removes) →
      (∀ q, q ∉ (l.foldl (fun (st : Back × Lcr) e => (addBackLinks st.1 e.1 e.2, recordAll st.2 e.1 e.2)) st).2.removes) ∧
      ∀ q, q ∈ (l.foldl (fun (st : Back × Lcr) e => (addBackLinks st.1 e.1 e.2, recordAll st.2 e.1 e.2)) st).2.adds ↔
        q ∈ st.2.adds ∨ (q.2.1 ≠ emptyIdx ∧ ∃ n, (q.1, n) ∈ l ∧ n.HasLink q.2.2 q.2.1) := by
    intro l
    induction l with
    | nil => intro st hst; exact ⟨hst, by simp⟩
    | cons p l ih =>
      intro st hst
      simp only [List.foldl_cons]
      obtain ⟨n1, n2⟩ := node p.1 p.2.iterSources st.2 hst
      obtain ⟨i1, i2⟩ := ih (addBackLinks st.1 p.1 p.2, recordAll st.2 p.1 p.2) n1
      refine ⟨i1, fun q => (i2 q).trans ?_⟩
      have n2' : q ∈ (recordAll st.2 p.1 p.2).adds ↔ _ := n2 q
      simp only [n2', ← Node.hasLink_iff_sources]
      obtain ⟨p1, p2⟩ := p
      simp only [List.mem_cons, Prod.mk.injEq]
      constructor
      · rintro ((h | ⟨h1, h2, h3⟩) | ⟨h1, n, h2, h3⟩)
        · exact Or.inl h
        · exact Or.inr ⟨h1, p2, Or.inl ⟨h2, rfl⟩, h3⟩
        · exact Or.inr ⟨h1, n, Or.inr h2, h3⟩
      · rintro (h | ⟨h1, n, ⟨h2, rfl⟩ | h2, h3⟩)
        · exact Or.inl (Or.inl h)
        · exact Or.inl (Or.inr ⟨h1, h2, h3⟩)
        · exact Or.inr ⟨h1, n, h2, h3⟩
  obtain ⟨l1, l2⟩ := loop (a.entries S) ((Graph.new c).back, Lcr.new) fun q => OrderSet.not_mem_empty q
  refine ⟨fun x m y => l1 (x, y, m), fun x m y => (l2 (x, y, m)).trans ?_⟩
  simp only [Arena.mem_entries ha, AddedLink, View.Link]
  constructor
  · rintro (h | ⟨h1, n, h2, h3⟩)
    · exact absurd h (OrderSet.not_mem_empty _)
    · exact ⟨h1, ⟨n, h2, h3⟩, fun ⟨_, h, _⟩ => absurd h (by simp)⟩
  · rintro ⟨h1, ⟨n, h2, h3⟩, _⟩
    exact Or.inr ⟨h1, n, h2, h3⟩

/-- All outcomes of completion. -/
theorem load_cases (hw : WellNamed S) {a : Arena} (ha : a.Inv S) (h0 : a.get? emptyIdx = none)
    (hwt : ∀ x n, a.get? x = some n → S.WT n) (c : Nat) :
    (∃ g, applyBidirectional S (mergeNodes S (Graph.new c) a Lcr.new).1 (mergeNodes S (Graph.new c) a Lcr.new).2 = .ok g ∧ LoadOut S c a g) ∨
    (applyBidirectional S (mergeNodes S (Graph.new c) a Lcr.new).1 (mergeNodes S (Graph.new c) a Lcr.new).2 = .error .multiChoice ∧
      Unanswered S (fun _ => none) a.get? ∧ Spec.Undecided S (fun _ => none) a.get?) ∨
    (applyBidirectional S (mergeNodes S (Graph.new c) a Lcr.new).1 (mergeNodes S (Graph.new c) a Lcr.new).2 = .error .addOnExisting ∧
      Spec.Conflict S (fun _ => none) a.get?) ∨
    (applyBidirectional S (mergeNodes S (Graph.new c) a Lcr.new).1 (mergeNodes S (Graph.new c) a Lcr.new).2 = .error .addOnVec ∧
      VecMissing S (fun _ => none) a.get?) := by
  obtain ⟨m1, m2, m3, m4, m5, _⟩ := merge_new_ok hw.variants ha h0 hwt c
  obtain ⟨r1, r2⟩ := merge_new_lcr ha c
  have nor : ∀ {v : View} {x m y}, ¬ RemovedLink (fun _ => none) v x m y := fun ⟨_, ⟨_, h, _⟩, _⟩ => absurd h (by simp)
  have hadds : ∀ {x m y m'}, Opposite S m m' → ((x, y, m) ∈ (mergeNodes S (Graph.new c) a Lcr.new).2.adds ↔
      AddedLink (fun _ => none) (mergeNodes S (Graph.new c) a Lcr.new).1.get? x m y) := fun {x m y _} _ => by rw [m3]; exact r2 x m y
  have hrems : ∀ {x m y m'}, Opposite S m m' → ((x, y, m) ∈ (mergeNodes S (Graph.new c) a Lcr.new).2.removes ↔
      RemovedLink (fun _ => none) (mergeNodes S (Graph.new c) a Lcr.new).1.get? x m y) :=
    fun {x m y _} _ => ⟨fun h => absurd h (r1 x m y), fun h => absurd h nor⟩
  rcases complete_cases hw (v := fun _ => none) m1 hadds hrems with
    ⟨_, x, m, y, d, m', h, _⟩ | ⟨_, ⟨g7, h1, hnc⟩ | ⟨h1, h2⟩ | ⟨h1, h2⟩ | ⟨h1, h2⟩⟩
  · exact absurd h nor
  · left
    obtain ⟨c1, c2, _⟩ := completion_of hw (v := fun _ => none) m1 hadds hrems h1
    rw [m3] at hnc c1 c2
    have he : Edited S True (mergeNodes S (Graph.new c) a Lcr.new).1 g7 := by
      rcases applyBidirectional_kept m1 (mergeNodes S (Graph.new c) a Lcr.new).2 with ⟨g', h2, h3⟩ | ⟨e, h2, _⟩
      · rw [h1, Except.ok.injEq] at h2
        subst h2
        exact h3
      · rw [h1] at h2; exact absurd h2 (by simp)
    have hk := he.kept
    exact ⟨g7, h1, {
      same := m3 ▸ he.same hw
      completion := c1
      covered := c2
      noConflict := hnc
      inv := hk.inv
      ctx := hk.ctx.trans m2
      disp := fun j => by rw [hk.disp]; exact merge_new_disp a c _ j
      typed := fun h => hk.typed (m4 h)
      known := fun y => (hk.known y).trans (m5 y) }⟩
  · rw [m3] at h2
    exact Or.inr (Or.inl ⟨h1, h2⟩)
  · rw [m3] at h2
    exact Or.inr (Or.inr (Or.inl ⟨h1, h2⟩))
  · rw [m3] at h2
    exact Or.inr (Or.inr (Or.inr ⟨h1, h2⟩))

/-- Completion that returns. -/
theorem load_ok (hw : WellNamed S) {a : Arena} (ha : a.Inv S) (h0 : a.get? emptyIdx = none)
    (hwt : ∀ x n, a.get? x = some n → S.WT n) {c : Nat} {g : Graph}
    (h1 : applyBidirectional S (mergeNodes S (Graph.new c) a Lcr.new).1 (mergeNodes S (Graph.new c) a Lcr.new).2 = .ok g) : LoadOut S c a g := by
  rcases load_cases hw ha h0 hwt c with ⟨g', h2, h3⟩ | ⟨h2, _⟩ | ⟨h2, _⟩ | ⟨h2, _⟩
  · rw [h1, Except.ok.injEq] at h2
    subst h2
    exact h3
  all_goals (rw [h1] at h2; exact absurd h2 (by simp))

end
end Graph
end TTGraph
