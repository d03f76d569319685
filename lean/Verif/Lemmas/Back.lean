import Verif.Spec.View
import Verif.Lemmas.OrderMap
import Verif.Lemmas.Arena


set_option autoImplicit false
namespace TTGraph

namespace Back

/-- The back-link map records `e` under `y`. -/
def Rec (b : Back) (y : NodeIndex) (e : NodeIndex × Source) : Prop := ∃ st, b.get? y = some st ∧ e ∈ st

/-- The back-link map has the key `y`. -/
def Known (b : Back) (y : NodeIndex) : Prop := ∃ st, b.get? y = some st

theorem Rec.known {b : Back} {y : NodeIndex} {e} (h : b.Rec y e) : b.Known y := by
  obtain ⟨st, h, _⟩ := h; exact ⟨st, h⟩

theorem rec_insert (b : Back) (y : NodeIndex) (st : OrderSet (NodeIndex × Source)) (z : NodeIndex) (f : NodeIndex × Source) :
    Rec (b.insert y st) z f ↔ (if y = z then f ∈ st else b.Rec z f) := by
  simp only [Rec, OrderMap.get?_insert]
  split
  · simp
  · rfl

theorem known_insert (b : Back) (y : NodeIndex) (st : OrderSet (NodeIndex × Source)) (z : NodeIndex) :
    Known (b.insert y st) z ↔ z = y ∨ b.Known z := by
  simp only [Known, OrderMap.get?_insert]
  split
  · rename_i h; simp [h]
  · rename_i h; simp [Ne.symm h]

theorem rec_link (b : Back) (y : NodeIndex) (e : NodeIndex × Source) (z : NodeIndex) (f : NodeIndex × Source) :
    Rec (b.link y e) z f ↔ b.Rec z f ∨ (z = y ∧ f = e) := by
  simp only [link, rec_insert]
  split
  · rename_i h; subst h
    simp only [OrderSet.mem_insert, Rec]
    cases hb : b.get? y with
    | none => simp
    | some st => simp; tauto
  · rename_i h
    constructor
    · exact Or.inl
    · rintro (h1 | ⟨h1, _⟩)
      · exact h1
      · exact absurd h1.symm h

theorem known_link (b : Back) (y : NodeIndex) (e : NodeIndex × Source) (z : NodeIndex) :
    Known (b.link y e) z ↔ z = y ∨ b.Known z := known_insert ..

theorem rec_touch (b : Back) (y : NodeIndex) (z : NodeIndex) (f : NodeIndex × Source) :
    Rec (b.touch y) z f ↔ b.Rec z f := by
  simp only [touch, Rec, OrderMap.get?_orInsert]
  split
  · rename_i h; subst h
    cases hb : b.get? y with
    | none => simp
    | some st => simp
  · rfl

theorem known_touch (b : Back) (y : NodeIndex) (z : NodeIndex) : Known (b.touch y) z ↔ z = y ∨ b.Known z := by
  simp only [touch, Known, OrderMap.get?_orInsert]
  split
  · rename_i h; subst h; simp
  · rename_i h
    constructor
    · exact Or.inr
    · rintro (h1 | h1)
      · exact absurd h1.symm h
      · exact h1

theorem unlink_ok {b : Back} {y : NodeIndex} (hk : b.Known y) (e : NodeIndex × Source) :
    ∃ b', b.unlink y e = .ok b' ∧ (∀ z f, b'.Rec z f ↔ b.Rec z f ∧ ¬ (z = y ∧ f = e)) ∧ (∀ z, b'.Known z ↔ b.Known z) := by
  obtain ⟨st, hst⟩ := hk
  refine ⟨b.insert y (st.swapRemove e), by simp [unlink, hst], ?_, ?_⟩
  · intro z f
    rw [rec_insert]
    split
    · rename_i h; subst h
      simp only [OrderSet.mem_swapRemove, Rec, hst]
      simp
    · rename_i h
      constructor
      · exact fun hr => ⟨hr, fun hh => h hh.1.symm⟩
      · exact fun hr => hr.1
  · intro z
    rw [known_insert]
    constructor
    · rintro (rfl | h)
      · exact ⟨st, hst⟩
      · exact h
    · exact Or.inr

theorem unlink_none {b : Back} {y : NodeIndex} (hk : ¬ b.Known y) (e : NodeIndex × Source) :
    b.unlink y e = .error .backMissing := by
  cases hb : b.get? y with
  | none => simp [unlink, hb]
  | some st => exact absurd ⟨st, hb⟩ hk

theorem linkKnown_ok {b : Back} {y : NodeIndex} (hk : b.Known y) (e : NodeIndex × Source) :
    ∃ b', b.linkKnown y e = .ok b' ∧ (∀ z f, b'.Rec z f ↔ b.Rec z f ∨ (z = y ∧ f = e)) ∧ (∀ z, b'.Known z ↔ b.Known z) := by
  obtain ⟨st, hst⟩ := hk
  refine ⟨b.insert y (st.insert e), by simp [linkKnown, hst], ?_, ?_⟩
  · intro z f
    rw [rec_insert]
    split
    · rename_i h; subst h
      simp only [OrderSet.mem_insert, Rec, hst]
      simp
      tauto
    · rename_i h
      constructor
      · exact Or.inl
      · rintro (hr | hr)
        · exact hr
        · exact absurd hr.1.symm h
  · intro z
    rw [known_insert]
    constructor
    · rintro (rfl | h)
      · exact ⟨st, hst⟩
      · exact h
    · exact Or.inr

theorem linkKnown_none {b : Back} {y : NodeIndex} (hk : ¬ b.Known y) (e : NodeIndex × Source) :
    b.linkKnown y e = .error .backMissing := by
  cases hb : b.get? y with
  | none => simp [linkKnown, hb]
  | some st => exact absurd ⟨st, hb⟩ hk

theorem rec_swapRemove (b : Back) (y z : NodeIndex) (f : NodeIndex × Source) :
    Rec (b.swapRemove y) z f ↔ b.Rec z f ∧ z ≠ y := by
  simp only [Rec, OrderMap.get?_swapRemove]
  split
  · rename_i h; subst h; simp
  · rename_i h; simp [Ne.symm h]

theorem known_swapRemove (b : Back) (y z : NodeIndex) : Known (b.swapRemove y) z ↔ b.Known z ∧ z ≠ y := by
  simp only [Known, OrderMap.get?_swapRemove]
  split
  · rename_i h; subst h; simp
  · rename_i h; simp [Ne.symm h]

@[simp] theorem rec_empty (z : NodeIndex) (f : NodeIndex × Source) : ¬ Rec (OrderMap.empty : Back) z f := by
  rintro ⟨st, h, _⟩
  simp at h

@[simp] theorem known_empty (z : NodeIndex) : ¬ Known (OrderMap.empty : Back) z := by
  rintro ⟨st, h⟩
  simp at h

end Back

namespace Graph

/-- Back-link and storage invariant of a graph.  `e0` says whether the record under the empty index is exact as well (it is, as
long as nothing was redirected to the empty index). -/
structure Inv (S : Schema) (e0 : Prop) (g : Graph) : Prop where
  arena : g.nodes.Inv S
  known : ∀ x n, g.get? x = some n → g.back.Known x
  recd : ∀ x s y, View.Holds g.get? x s y → g.back.Rec y (x, s)
  exact : ∀ x s y, (y ≠ emptyIdx ∨ e0) → g.back.Rec y (x, s) → View.Holds g.get? x s y
  noEmpty : g.get? emptyIdx = none
  wt : ∀ x n, g.get? x = some n → S.WT n

theorem Inv.mono {S : Schema} {e0 e1 : Prop} {g : Graph} (h : g.Inv S e0) (he : e1 → e0) : g.Inv S e1 :=
  { h with exact := fun x s y hy => h.exact x s y (hy.imp id he) }

theorem new_inv (S : Schema) (c : Nat) : (new c).Inv S True where
  arena := Arena.new_inv S
  known := by intro x n h; simp [new, get?] at h
  recd := by rintro x s y ⟨n, h, _⟩; simp [new, get?] at h
  exact := by intro x s y _ h; exact absurd h (Back.rec_empty _ _)
  noEmpty := by simp [new, get?]
  wt := by intro x n h; simp [new, get?] at h

end Graph
end TTGraph
