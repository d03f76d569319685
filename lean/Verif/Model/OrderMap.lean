import Mathlib.Data.List.Nodup
import Mathlib.Data.List.Perm.Basic

/-!
# `ordermap::OrderMap` and `ordermap::OrderSet`

The crate stores its state in the insertion-ordered hash map and hash set of the crate `ordermap`
(a dependency, not part of /repo).  They are modelled as association lists in iteration order.  That no key occurs twice is the
contract of the library and is bundled in the type.

The operations used by /repo are `new`, `get`, `contains(_key)`, `insert` (replaces the value of an existing key in place,
otherwise appends), `swap_remove` (the last entry takes the place of the removed one), `append` (inserts the entries of the other
map one by one), `entry(k).or_default()`, `entry(k).or_insert(v)`, `len`, `is_empty`, `iter`.
-/

set_option autoImplicit false

namespace TTGraph

/-- Lookup in an association list (`OrderMap::get`). -/
def alGet {κ ν : Type} [DecidableEq κ] (k : κ) : List (κ × ν) → Option ν
  | [] => none
  | (k', v) :: r => if k' = k then some v else alGet k r

/-- `OrderMap::insert` on the entry list: replace in place or append. -/
def alSet {κ ν : Type} [DecidableEq κ] (k : κ) (v : ν) : List (κ × ν) → List (κ × ν)
  | [] => [(k, v)]
  | (k', v') :: r => if k' = k then (k, v) :: r else (k', v') :: alSet k v r

/-- Put the last element of `r` in front of the others: what `swap_remove` leaves of an element followed by `r`. -/
def lastToFront {α : Type} (r : List α) : List α :=
  match r.getLast? with
  | none => []
  | some z => z :: r.dropLast

/-- `OrderMap::swap_remove` on the entry list. -/
def alSwapRemove {κ ν : Type} [DecidableEq κ] (k : κ) : List (κ × ν) → List (κ × ν)
  | [] => []
  | (k', v') :: r => if k' = k then lastToFront r else (k', v') :: alSwapRemove k r

theorem lastToFront_perm {α : Type} (r : List α) : (lastToFront r).Perm r := by
  unfold lastToFront
  cases h : r.getLast? with
  | none => simp at h; simp [h]
  | some z =>
    have hr : r = r.dropLast ++ [z] := by
      have hne : r ≠ [] := by rintro rfl; simp at h
      have := List.dropLast_append_getLast hne
      rw [List.getLast?_eq_some_getLast hne] at h
      simp at h; rw [h] at this; exact this.symm
    conv => rhs; rw [hr]
    exact (List.perm_append_singleton z r.dropLast).symm

theorem alSet_keys {κ ν : Type} [DecidableEq κ] (k : κ) (v : ν) (l : List (κ × ν)) :
    (alSet k v l).map Prod.fst = if k ∈ l.map Prod.fst then l.map Prod.fst else l.map Prod.fst ++ [k] := by
  induction l with
  | nil => simp [alSet]
  | cons e r ih =>
    obtain ⟨k', v'⟩ := e
    by_cases h : k' = k
    · simp [alSet, h]
    · have h' : ¬ k = k' := fun e => h e.symm
      simp only [alSet, h, if_false, List.map_cons, ih, List.mem_cons, h', false_or]
      split <;> simp_all

theorem alSet_nodup {κ ν : Type} [DecidableEq κ] (k : κ) (v : ν) (l : List (κ × ν))
    (h : (l.map Prod.fst).Nodup) : ((alSet k v l).map Prod.fst).Nodup := by
  rw [alSet_keys]
  split
  · exact h
  · rename_i hk
    rw [List.nodup_append]
    refine ⟨h, by simp, ?_⟩
    intro a ha b hb
    simp at hb; subst hb
    exact fun e => hk (e ▸ ha)

theorem alSwapRemove_perm {κ ν : Type} [DecidableEq κ] (k : κ) (l : List (κ × ν))
    (h : (l.map Prod.fst).Nodup) : (alSwapRemove k l).Perm (l.filter (fun e => e.1 ≠ k)) := by
  induction l with
  | nil => simp [alSwapRemove]
  | cons e r ih =>
    obtain ⟨k', v'⟩ := e
    simp only [List.map_cons, List.nodup_cons] at h
    by_cases hk : k' = k
    · subst hk
      have : r.filter (fun e => e.1 ≠ k') = r := by
        rw [List.filter_eq_self]
        intro a ha
        simp only [decide_eq_true_eq]
        intro hh
        exact h.1 (hh ▸ List.mem_map_of_mem (f := Prod.fst) ha)
      simp only [alSwapRemove, if_true]
      rw [List.filter_cons_of_neg (by simp), this]
      exact lastToFront_perm r
    · simp only [alSwapRemove, hk, if_false]
      rw [List.filter_cons_of_pos (by simp [hk])]
      exact (ih h.2).cons _

theorem alSwapRemove_nodup {κ ν : Type} [DecidableEq κ] (k : κ) (l : List (κ × ν))
    (h : (l.map Prod.fst).Nodup) : ((alSwapRemove k l).map Prod.fst).Nodup := by
  have := ((alSwapRemove_perm k l h).map Prod.fst).nodup_iff
  rw [this]
  exact h.sublist (List.filter_sublist.map _)

/-- Model of `ordermap::OrderMap<κ, ν>`: entries in iteration order, keys distinct. -/
structure OrderMap (κ ν : Type) [DecidableEq κ] where
  entries : List (κ × ν)
  nodup : (entries.map Prod.fst).Nodup

namespace OrderMap
variable {κ ν : Type} [DecidableEq κ]

/-- `OrderMap::new` -/
def empty : OrderMap κ ν := ⟨[], List.nodup_nil⟩

/-- `OrderMap::get` -/
def get? (m : OrderMap κ ν) (k : κ) : Option ν := alGet k m.entries

/-- `OrderMap::contains_key` -/
def contains (m : OrderMap κ ν) (k : κ) : Bool := (m.get? k).isSome

/-- `OrderMap::insert` -/
def insert (m : OrderMap κ ν) (k : κ) (v : ν) : OrderMap κ ν := ⟨alSet k v m.entries, alSet_nodup k v _ m.nodup⟩

/-- `OrderMap::swap_remove` (the map afterwards; the returned value is `get?` before). -/
def swapRemove (m : OrderMap κ ν) (k : κ) : OrderMap κ ν := ⟨alSwapRemove k m.entries, alSwapRemove_nodup k _ m.nodup⟩

/-- `OrderMap::append`: insert the entries of the other map in order. -/
def append (m o : OrderMap κ ν) : OrderMap κ ν := o.entries.foldl (fun acc e => acc.insert e.1 e.2) m

/-- `entry(k).or_insert(v)`: present keys keep their value. -/
def orInsert (m : OrderMap κ ν) (k : κ) (v : ν) : OrderMap κ ν :=
  match m.get? k with
  | some _ => m
  | none => m.insert k v

/-- `OrderMap::len` -/
def len (m : OrderMap κ ν) : Nat := m.entries.length

/-- `OrderMap::keys` -/
def keys (m : OrderMap κ ν) : List κ := m.entries.map Prod.fst

end OrderMap

/-- Model of `ordermap::OrderSet<α>`: elements in iteration order, distinct. -/
structure OrderSet (α : Type) [DecidableEq α] where
  elems : List α
  nodup : elems.Nodup

/-- `OrderSet::swap_remove` on the element list. -/
def lSwapRemove {α : Type} [DecidableEq α] (a : α) : List α → List α
  | [] => []
  | b :: r => if b = a then lastToFront r else b :: lSwapRemove a r

theorem lSwapRemove_perm {α : Type} [DecidableEq α] (a : α) (l : List α) (h : l.Nodup) :
    (lSwapRemove a l).Perm (l.filter (fun e => e ≠ a)) := by
  induction l with
  | nil => simp [lSwapRemove]
  | cons b r ih =>
    simp only [List.nodup_cons] at h
    by_cases hk : b = a
    · subst hk
      have : r.filter (fun e => e ≠ b) = r := by
        rw [List.filter_eq_self]
        intro x hx
        simp only [decide_eq_true_eq]
        intro hh
        exact h.1 (hh ▸ hx)
      simp only [lSwapRemove, if_true]
      rw [List.filter_cons_of_neg (by simp), this]
      exact lastToFront_perm r
    · simp only [lSwapRemove, hk, if_false]
      rw [List.filter_cons_of_pos (by simp [hk])]
      exact (ih h.2).cons _

namespace OrderSet
variable {α : Type} [DecidableEq α]

/-- `OrderSet::new` -/
def empty : OrderSet α := ⟨[], List.nodup_nil⟩

instance : Membership α (OrderSet α) := ⟨fun s a => a ∈ s.elems⟩

instance (a : α) (s : OrderSet α) : Decidable (a ∈ s) := inferInstanceAs (Decidable (a ∈ s.elems))

/-- `OrderSet::insert` (append unless present). -/
def insert (s : OrderSet α) (a : α) : OrderSet α :=
  if h : a ∈ s.elems then s
  else ⟨s.elems ++ [a], by
    rw [List.nodup_append]
    refine ⟨s.nodup, by simp, ?_⟩
    intro x hx y hy
    simp at hy; subst hy
    exact fun e => h (e ▸ hx)⟩

/-- `OrderSet::swap_remove` -/
def swapRemove (s : OrderSet α) (a : α) : OrderSet α :=
  ⟨lSwapRemove a s.elems, by
    rw [(lSwapRemove_perm a s.elems s.nodup).nodup_iff]
    exact s.nodup.sublist List.filter_sublist⟩

/-- `OrderSet::is_empty` -/
def isEmpty (s : OrderSet α) : Bool := s.elems.isEmpty

end OrderSet

end TTGraph
