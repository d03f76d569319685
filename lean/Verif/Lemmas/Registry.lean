import Verif.Spec.Checks
import Verif.Lemmas.Check
import Mathlib.Data.List.Induction

/-!
# Lemmas on registered checks
-/

set_option autoImplicit false

namespace TTGraph
open Spec

/-! ### The last call counts -/

theorem lastCall_snoc {P : CheckOp → Prop} {l : List CheckOp} {o q : CheckOp} :
    LastCall P (l ++ [q]) o ↔ (P q ∧ o = q) ∨ (¬ P q ∧ LastCall P l o) := by
  constructor
  · rintro ⟨hp, a, b, he, hb⟩
    rcases List.eq_nil_or_concat b with rfl | ⟨b', z, rfl⟩
    · obtain ⟨_, h2⟩ := List.append_inj' he rfl
      rw [List.cons.injEq] at h2
      exact .inl ⟨h2.1 ▸ hp, h2.1.symm⟩
    · rw [List.concat_eq_append] at he hb
      have he' : l ++ [q] = (a ++ o :: b') ++ [z] := by rw [he]; simp
      obtain ⟨h1, h2⟩ := List.append_inj' he' rfl
      rw [List.cons.injEq] at h2
      refine .inr ⟨h2.1 ▸ hb z (by simp), hp, a, b', h1, fun x hx => hb x (by simp [hx])⟩
  · rintro (⟨hp, rfl⟩ | ⟨hq, hp, a, b, rfl, hb⟩)
    · exact ⟨hp, l, [], rfl, fun _ h => nomatch h⟩
    · refine ⟨hp, a, b ++ [q], by simp, fun x hx => ?_⟩
      rcases List.mem_append.1 hx with hx | hx
      · exact hb x hx
      · rw [List.mem_singleton.1 hx]; exact hq

theorem lastCall_nil {P : CheckOp → Prop} {o : CheckOp} : ¬ LastCall P [] o := by
  rintro ⟨_, a, b, h, _⟩
  simp at h

theorem registry_snoc (l : List CheckOp) (q : CheckOp) : registry (l ++ [q]) = q.run (registry l) := by
  simp [registry, List.foldl_append]

theorem registry_node (l : List CheckOp) (name : Ident) (f : NodeCheck) :
    (registry l).nodeChecks.get? name = some f ↔ LastCall (CheckOp.OfNode name) l (.insertNode name f) := by
  induction l using List.reverseRecOn with
  | nil => simp [registry, GraphCheck.new, lastCall_nil]
  | append_singleton l q ih =>
    rw [registry_snoc, lastCall_snoc]
    cases q with
    | insertNode k h =>
      simp only [CheckOp.run, GraphCheck.insertNodeCheck, Sorted.get?_insert, CheckOp.OfNode, CheckOp.insertNode.injEq, reduceCtorEq, or_false]
      by_cases hk : k = name
      · subst hk; simp; exact eq_comm
      · rw [if_neg hk, ih]; simp [hk]
    | removeNode k =>
      simp only [CheckOp.run, GraphCheck.removeNodeCheck, Sorted.get?_remove, CheckOp.OfNode, reduceCtorEq, exists_false, false_or,
        CheckOp.removeNode.injEq, and_false]
      by_cases hk : k = name
      · subst hk; simp
      · rw [if_neg hk, ih]; simp [hk]
    | _ => simpa [CheckOp.run, GraphCheck.insertAddCheck, GraphCheck.removeAddCheck, GraphCheck.insertRemoveCheck,
        GraphCheck.removeRemoveCheck, CheckOp.OfNode] using ih

theorem registry_add (l : List CheckOp) (name : Ident) (f : LinkCheck) :
    (registry l).addChecks.get? name = some f ↔ LastCall (CheckOp.OfAdd name) l (.insertAdd name f) := by
  induction l using List.reverseRecOn with
  | nil => simp [registry, GraphCheck.new, lastCall_nil]
  | append_singleton l q ih =>
    rw [registry_snoc, lastCall_snoc]
    cases q with
    | insertAdd k h =>
      simp only [CheckOp.run, GraphCheck.insertAddCheck, Sorted.get?_insert, CheckOp.OfAdd, CheckOp.insertAdd.injEq, reduceCtorEq, or_false]
      by_cases hk : k = name
      · subst hk; simp; exact eq_comm
      · rw [if_neg hk, ih]; simp [hk]
    | removeAdd k =>
      simp only [CheckOp.run, GraphCheck.removeAddCheck, Sorted.get?_remove, CheckOp.OfAdd, reduceCtorEq, exists_false, false_or,
        CheckOp.removeAdd.injEq, and_false]
      by_cases hk : k = name
      · subst hk; simp
      · rw [if_neg hk, ih]; simp [hk]
    | _ => simpa [CheckOp.run, GraphCheck.insertNodeCheck, GraphCheck.removeNodeCheck, GraphCheck.insertRemoveCheck,
        GraphCheck.removeRemoveCheck, CheckOp.OfAdd] using ih

theorem registry_remove (l : List CheckOp) (name : Ident) (f : LinkCheck) :
    (registry l).removeChecks.get? name = some f ↔ LastCall (CheckOp.OfRemove name) l (.insertRemove name f) := by
  induction l using List.reverseRecOn with
  | nil => simp [registry, GraphCheck.new, lastCall_nil]
  | append_singleton l q ih =>
    rw [registry_snoc, lastCall_snoc]
    cases q with
    | insertRemove k h =>
      simp only [CheckOp.run, GraphCheck.insertRemoveCheck, Sorted.get?_insert, CheckOp.OfRemove, CheckOp.insertRemove.injEq, reduceCtorEq,
        or_false]
      by_cases hk : k = name
      · subst hk; simp; exact eq_comm
      · rw [if_neg hk, ih]; simp [hk]
    | removeRemove k =>
      simp only [CheckOp.run, GraphCheck.removeRemoveCheck, Sorted.get?_remove, CheckOp.OfRemove, reduceCtorEq, exists_false, false_or,
        CheckOp.removeRemove.injEq, and_false]
      by_cases hk : k = name
      · subst hk; simp
      · rw [if_neg hk, ih]; simp [hk]
    | _ => simpa [CheckOp.run, GraphCheck.insertNodeCheck, GraphCheck.removeNodeCheck, GraphCheck.insertAddCheck,
        GraphCheck.removeAddCheck, CheckOp.OfRemove] using ih

/-- Registries with the same functions under the same names are equal. -/
theorem registry_same {l l2 : List CheckOp} (h : SameChecks l l2) : registry l = registry l2 := by
  have h1 : (registry l).nodeChecks = (registry l2).nodeChecks := Sorted.ext_get? fun k v => by rw [registry_node, registry_node]; exact h.1 k v
  have h2 : (registry l).addChecks = (registry l2).addChecks := Sorted.ext_get? fun k v => by rw [registry_add, registry_add]; exact h.2.1 k v
  have h3 : (registry l).removeChecks = (registry l2).removeChecks :=
    Sorted.ext_get? fun k v => by rw [registry_remove, registry_remove]; exact h.2.2 k v
  cases hr : registry l
  cases hr2 : registry l2
  rw [hr, hr2] at h1 h2 h3
  cases h1; cases h2; cases h3; rfl

end TTGraph
