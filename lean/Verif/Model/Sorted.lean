import Verif.Model.Schema

/-!
# `BTreeMap`

The maps of registered checks are `BTreeMap<String, _>`s (src/typed_graph/check.rs:15-17): association lists in ascending order of the keys.
The names are identifiers here; their numbers are taken to be in the order of the strings.
-/

set_option autoImplicit false

namespace TTGraph

/-- `std::collections::BTreeMap` with names as keys, as used in src/typed_graph/check.rs:15-17. -/
structure Sorted (β : Type) where
  entries : List (Ident × β)
  sorted : entries.Pairwise fun a b => a.1 < b.1

namespace Sorted

variable {β : Type}

/-- `BTreeMap::new()`, src/typed_graph/check.rs:23-25. -/
def empty : Sorted β := ⟨[], List.Pairwise.nil⟩

/-- `BTreeMap::get`. -/
def get? (m : Sorted β) (k : Ident) : Option β := (m.entries.find? fun e => e.1 == k).map Prod.snd

/-- The entries with one more, or one replaced. -/
def put (k : Ident) (v : β) : List (Ident × β) → List (Ident × β)
  | [] => [(k, v)]
  | e :: l => if k < e.1 then (k, v) :: e :: l else if k = e.1 then (k, v) :: l else e :: put k v l

theorem mem_put {k : Ident} {v : β} {l : List (Ident × β)} {e : Ident × β} (h : e ∈ put k v l) : e = (k, v) ∨ e ∈ l := by
  induction l with
  | nil => exact .inl (List.mem_singleton.1 h)
  | cons a l ih =>
    rw [put] at h
    split at h
    · exact List.mem_cons.1 h
    · split at h
      · rcases List.mem_cons.1 h with h | h
        · exact .inl h
        · exact .inr (List.mem_cons_of_mem _ h)
      · rcases List.mem_cons.1 h with h | h
        · exact .inr (h ▸ List.mem_cons_self)
        · exact (ih h).imp id (List.mem_cons_of_mem _)

theorem put_sorted (k : Ident) (v : β) {l : List (Ident × β)} (h : l.Pairwise fun a b => a.1 < b.1) :
    (put k v l).Pairwise fun a b => a.1 < b.1 := by
  induction l with
  | nil => exact List.pairwise_singleton _ _
  | cons a l ih =>
    obtain ⟨h1, h2⟩ := List.pairwise_cons.1 h
    rw [put]
    split
    · rename_i hk
      refine List.pairwise_cons.2 ⟨fun b hb => ?_, h⟩
      rcases List.mem_cons.1 hb with rfl | hb
      · exact hk
      · exact Nat.lt_trans hk (h1 b hb)
    · split
      · rename_i hk
        exact List.pairwise_cons.2 ⟨fun b hb => by rw [hk]; exact h1 b hb, h2⟩
      · rename_i hk hk2
        refine List.pairwise_cons.2 ⟨fun b hb => ?_, ih h2⟩
        rcases mem_put hb with rfl | hb
        · exact Nat.lt_of_le_of_ne (Nat.le_of_not_lt hk) (Ne.symm hk2)
        · exact h1 b hb

/-- `BTreeMap::insert`, src/typed_graph/check.rs:32, 43, 54. -/
def insert (m : Sorted β) (k : Ident) (v : β) : Sorted β := ⟨put k v m.entries, put_sorted k v m.sorted⟩

/-- `BTreeMap::remove`, src/typed_graph/check.rs:36, 47, 58. -/
def remove (m : Sorted β) (k : Ident) : Sorted β := ⟨m.entries.filter fun e => e.1 != k, m.sorted.filter _⟩

end Sorted
end TTGraph
