import Verif.Demo.Traced
import Verif.Demo.Decls
import Verif.Lemmas.Iter
import Verif.Lemmas.History
import Verif.Model.Macros
import Verif.Props.Commit

/-!
# Iteration: C18, C19, C20, C21
-/

set_option autoImplicit false

namespace TTGraph
open Spec
variable [SetImpl] {S : Schema} {dbg : Bool} {R : World → Call → Prop}

/-- `graph.iter()`: calling `next` until it yields `None` yields every node of the graph under its index, and every index once; further calls
yield `None`.  `len` is the number of items, and `is_empty` tells whether there is no node. -/
theorem C18_iter (hw : WellNamed S) {g : Graph} (h : Reachable S dbg R g) :
    ∃ l it, Walk S (Iter.start S g.nodes) l it ∧ Exhausted S it ∧ (l.map Prod.fst).Nodup ∧ (∀ i n, (i, n) ∈ l ↔ g.get? i = some n) ∧
      l = g.iter S ∧ g.len S = l.length ∧ (g.isEmpty S = true ↔ ∀ i, g.get? i = none) := by
  have hi := h.inv hw
  obtain ⟨it, h1, h2⟩ := Iter.walk_all hw.variants _ (Iter.start_at S g.nodes) (Iter.start_left S g.nodes)
  have hm : ∀ i n, (i, n) ∈ g.nodes.entries S ↔ g.get? i = some n := fun i n => Arena.mem_entries hi.arena
  refine ⟨_, it, h1, h2, Arena.entries_nodup hw.variants hi.arena, hm, rfl, Arena.len_eq S g.nodes, ?_⟩
  simp only [Graph.isEmpty, Graph.len, decide_eq_true_eq, Arena.len_eq, List.length_eq_zero_iff]
  constructor
  · intro h0 i
    by_contra hne
    obtain ⟨n, hn⟩ := Option.ne_none_iff_exists'.1 hne
    have := (hm i n).2 hn
    rw [h0] at this
    exact absurd this (by simp)
  · intro h0
    rw [List.eq_nil_iff_forall_not_mem]
    rintro ⟨i, n⟩ hin
    rw [hm, h0] at hin
    exact absurd hin (by simp)

omit [SetImpl] in
/-- After any number of calls of `next`, the size hint is the number of items still to come. -/
theorem C18_size (hw : WellNamed S) {g : Graph} {l l' : List (NodeIndex × Node)} {it it' : Iter} (h1 : Walk S (Iter.start S g.nodes) l it)
    (h2 : Walk S it l' it') (h3 : Exhausted S it') : it.sizeHint S = l'.length := by
  obtain ⟨suf, h4, _⟩ := Iter.walk_some hw.variants h1 (Iter.start_at S g.nodes)
  obtain ⟨suf', h6, h7⟩ := Iter.walk_some hw.variants h2 h4
  have h8 : it'.left suf' = [] := by
    obtain ⟨it2, h9, _⟩ := h3
    rcases Iter.next_spec hw.variants h6 h6.le with ⟨a, _⟩ | ⟨e, r, it3, suf3, _, a, _⟩
    · exact a
    · rw [call, a] at h9
      exact absurd (congrArg Prod.fst h9) (by simp)
  rw [Iter.sizeHint_eq h4, h7, h8, List.append_nil]

omit [SetImpl] in
/-- The recursion of `next` ends: more fuel than there are variants changes nothing. -/
theorem C18_ends (hw : WellNamed S) {g : Graph} {l : List (NodeIndex × Node)} {it : Iter} (h1 : Walk S (Iter.start S g.nodes) l it) {fuel : Nat}
    (hf : S.discs.length < fuel) : it.next S fuel = call S it := by
  obtain ⟨suf, h4, _⟩ := Iter.walk_some hw.variants h1 (Iter.start_at S g.nodes)
  have h5 := Nat.lt_of_lt_of_le h4.le hf
  rw [Iter.next_fuel hw.variants h4 h5, call, Iter.next_fuel hw.variants h4 h4.le]

/-- If closures keep the variants of nodes, the nodes of a variant come before those of the variants declared after it.

Full statement of C19: `iter` yields the nodes in increasing order of `NodeIndex`.  That is false, see below. -/
theorem C19_partial (hw : WellNamed S) (hR : ∀ w c, R w c → KeepVariants w c) {g : Graph} (h : Reachable S dbg R g) :
    (g.iter S).Pairwise fun a b => S.discs.idxOf a.2.disc ≤ S.discs.idxOf b.2.disc := by
  have ht := (typed_closed hw hR).reachable h
  have hd : ∀ d e, e ∈ (g.nodes.cont d).entries → e.2.disc = d := fun d e he => ht d e.1 e.2 (OrderMap.get?_eq_some.2 he)
  simp only [Graph.iter, Arena.entries]
  rw [List.pairwise_flatMap]
  constructor
  · intro d _
    refine List.Pairwise.imp_of_mem ?_ (List.pairwise_of_forall (R := fun _ _ => True) fun _ _ => trivial)
    intro a b ha hb _
    rw [hd d a ha, hd d b hb]
    exact Nat.le_refl _
  · have hs : S.discs.Pairwise fun d1 d2 => S.discs.idxOf d1 ≤ S.discs.idxOf d2 := by
      rw [List.pairwise_iff_getElem]
      intro i j hi hj hij
      rw [hw.variants.idxOf_getElem, hw.variants.idxOf_getElem]
      exact Nat.le_of_lt hij
    refine hs.imp fun {d1 d2} hle a ha b hb => ?_
    rw [hd d1 a ha, hd d2 b hb]
    exact hle

/-- If closures keep the variants of nodes, `iter_type` yields exactly the nodes of the variant, each once, and `iter_nodes!` yields their
structs without a panic.

Full statement of C20: the same for all closures.  That is false, see below. -/
theorem C20_partial (hw : WellNamed S) (hR : ∀ w c, R w c → KeepVariants w c) {g : Graph} (h : Reachable S dbg R g) (d : Ident) :
    (∀ i n, (i, n) ∈ g.iterType d ↔ g.get? i = some n ∧ n.disc = d) ∧ ((g.iterType d).map Prod.fst).Nodup ∧
    Macros.iterNodes g d = .ok ((g.iterType d).map fun e => (e.1, e.2.payload)) := by
  have ht := (typed_closed hw hR).reachable h
  have hi := h.inv hw
  refine ⟨fun i n => ⟨fun hm => ?_, fun hm => ?_⟩, (g.nodes.cont d).nodup, ?_⟩
  · have := OrderMap.get?_eq_some.2 hm
    exact ⟨hi.arena.get? this, ht d i n this⟩
  · have := ht.get? hm.1
    rw [hm.2] at this
    exact OrderMap.get?_eq_some.1 this
  · have hd : ∀ e ∈ g.iterType d, e.2.disc = d := fun e he => ht d e.1 e.2 (OrderMap.get?_eq_some.2 he)
    unfold Macros.iterNodes
    revert hd
    generalize g.iterType d = l
    intro hd
    induction l with
    | nil => rfl
    | cons e l ih =>
      rw [List.mapM_cons, if_pos (hd e (List.mem_cons_self ..)), ih fun e he => hd e (List.mem_cons_of_mem _ he)]
      rfl

/-- Whatever the closures do, `iter_type` yields only nodes of the graph, and every node under exactly one variant. -/
theorem C20_once (hw : WellNamed S) {g : Graph} (h : Reachable S dbg R g) (i : NodeIndex) (n : Node) :
    g.get? i = some n ↔ ∃ d, (i, n) ∈ g.iterType d ∧ d ∈ S.discs ∧ ∀ d' n', (i, n') ∈ g.iterType d' → d' = d := by
  have hi := h.inv hw
  constructor
  · intro hn
    obtain ⟨d, h1, h2⟩ := Arena.get?_eq_some.1 hn
    refine ⟨d, OrderMap.get?_eq_some.1 h2, hi.arena.decl i d h1, fun d' n' hm => ?_⟩
    have := hi.arena.home d' i n' (OrderMap.get?_eq_some.2 hm)
    rw [h1, Option.some.injEq] at this
    exact this.symm
  · rintro ⟨d, h1, _⟩
    exact hi.arena.get? (OrderMap.get?_eq_some.2 h1)

/-- `iter_group` yields exactly the nodes whose variant is a member of the group, each once. -/
theorem C21_group (hw : WellNamed S) {g : Graph} (h : Reachable S dbg R g) {name : Ident} {members : List Ident}
    (hg : (name, members) ∈ S.groups) :
    (∀ i n, (i, n) ∈ g.iterGroup S name ↔ g.get? i = some n ∧ n.disc ∈ members) ∧ ((g.iterGroup S name).map Prod.fst).Nodup := by
  have hi := h.inv hw
  have hf : S.groups.find? (fun g => g.1 = name) = some (name, members) := by
    have hn := hw.groups
    revert hg hn
    generalize S.groups = l
    intro hg hn
    induction l with
    | nil => exact absurd hg (by simp)
    | cons a l ih =>
      rw [List.map_cons, List.nodup_cons] at hn
      rcases List.mem_cons.1 hg with rfl | hg
      · simp
      · have : a.1 ≠ name := fun e => hn.1 (e ▸ List.mem_map_of_mem hg)
        rw [List.find?_cons, decide_eq_false this]
        exact ih hg hn.2
  refine ⟨fun i n => ?_, ?_⟩
  · simp only [Graph.iterGroup, List.mem_filter, Graph.iter, Arena.mem_entries hi.arena, Schema.inGroup, hf, decide_eq_true_eq, Graph.get?]
  · exact List.Nodup.sublist (List.filter_sublist.map _) (Arena.entries_nodup hw.variants hi.arena)

omit [SetImpl] in
/-- A name that is not the name of a group yields nothing. -/
theorem C21_unknown {g : Graph} {name : Ident} (hg : name ∉ S.groups.map Prod.fst) : g.iterGroup S name = [] := by
  have hf : S.groups.find? (fun g => g.1 = name) = none := by
    rw [List.find?_eq_none]
    intro x hx he
    exact hg (of_decide_eq_true he ▸ List.mem_map_of_mem hx)
  simp only [Graph.iterGroup, Schema.inGroup, hf, List.filter_false]

end TTGraph

namespace TTGraph
namespace Demo
open Spec

/-- C18: a graph after insertions, updates and a removal, with nodes of two variants; `next` can be called three times. -/
example : let g := graphAt (run plain true World.init (all3 ++ [.call (.commit 0 1)])) 0
    Reachable plain true AnyCall g ∧ g.len plain = 3 ∧ (g.iter plain).map Prod.fst = [4, 1, 3] :=
  ⟨reachable_of (reaches _ (by decide +kernel)) 0 (by decide +kernel), by decide +kernel⟩

/-- C18: the iterator after one call. -/
example : let g := graphAt (run plain true World.init base3) 0
    ∃ it it', Walk plain (Iter.start plain g.nodes) [(1, nA 2 [2, 3] [2, 3, 2] 5)] it ∧ Walk plain it [(2, nB 1), (3, nB 2)] it' ∧
      Exhausted plain it' ∧ it.sizeHint plain = 2 := by
  intro g
  refine ⟨(call plain (Iter.start plain g.nodes)).2, (call plain (call plain (call plain (Iter.start plain g.nodes)).2).2).2,
    .step (Prod.ext (by decide +kernel) rfl) (.start _),
    .step (Prod.ext (by decide +kernel) rfl) (.step (Prod.ext (by decide +kernel) rfl) (.start _)),
    ⟨_, Prod.ext (by decide +kernel) rfl, Prod.ext (by decide +kernel) ?_⟩, by decide +kernel⟩
  refine congrArg Prod.snd (Iter.call_none ?_)
  decide +kernel

/-- A node of the second variant, then three of the first, the first of which is removed again and the second changed. -/
def order3 : List Step :=
  [.call (.newContext 0 77), .call (.newGraph 0 0), .call (.newTrans 0 0), .call (.op 0 (.insert (nB 0))), .call (.op 0 (.insert (nA 1 [1] [1] 5))),
   .call (.op 0 (.insert (nA 1 [1] [1] 6))), .call (.op 0 (.insert (nA 1 [1] [1] 7))), .call (.commit 0 0), .call (.newTrans 1 0),
   .call (.op 1 (.remove 2)), .edit 1 3 (nA 4 [3] [] 8), .call (.commit 0 1)]

/-- `KeepVariants` by evaluation. -/
def keepStep (_ : World) : Step → Bool
  | .call (.op _ (.mutate _ _)) => false
  | .call (.op _ (.update _ _)) => false
  | .mutate _ _ _ => false
  | .update _ _ _ => false
  | _ => true

theorem keepStep_ok (w : World) (s : Step) (h : keepStep w s = true) : KeepVariants w s.call' := by
  cases s with
  | mutate k i n => exact absurd h (by simp [keepStep])
  | update k i n => exact absurd h (by simp [keepStep])
  | edit k i n => exact keep_keeps n
  | swap k i n => exact keep_keeps n
  | call c =>
    cases c with
    | op k o =>
      cases o with
      | mutate i f => exact absurd h (by simp [keepStep])
      | update i f => exact absurd h (by simp [keepStep])
      | _ => trivial
    | _ => trivial

/-- C19, C20: a program whose closure keeps the variant. -/
theorem order3_keeps : Reachable plain true KeepVariants (graphAt (run plain true World.init order3) 0) :=
  reachable_of (reaches_run (us := []) keepStep_ok order3 .init (fun _ _ h => absurd h (by simp [World.init])) (by decide +kernel)) 0
    (by decide +kernel)

example : let g := graphAt (run plain true World.init order3) 0
    (g.iterType 1).map Prod.fst = [4, 3] ∧ (g.iterType 2).map Prod.fst = [1] ∧ (90, [1, 2]) ∈ plain.groups ∧ 91 ∉ plain.groups.map Prod.fst ∧
    (g.iterGroup plain 90).map Prod.fst = [4, 3, 1] := by decide +kernel

/-- C19 fails: `iter` does not follow the order of `NodeIndex`, neither across variants nor within a variant. -/
theorem C19_fails : ∃ g, Reachable plain true KeepVariants g ∧ (g.iter plain).map Prod.fst = [4, 3, 1] := ⟨_, order3_keeps, by decide +kernel⟩

/-- The closure of `update` returns a node of another variant. -/
def revariant3 : List Step := base3 ++ [.update 1 1 (nB 2), .call (.commit 0 1)]

/-- C20 fails: node 1 has become a node of variant 2, but `iter_type` still lists it under variant 1 and `iter_nodes!` panics. -/
theorem C20_fails : ∃ g, Reachable plain true AnyCall g ∧ g.get? 1 = some (nB 2) ∧ (1, nB 2) ∈ g.iterType 1 ∧ (1, nB 2) ∉ g.iterType 2 ∧
    Macros.iterNodes g 1 = .error .typeMismatch :=
  ⟨_, reachable_of (reaches revariant3 (by decide +kernel)) 0 (by decide +kernel), by decide +kernel, by decide +kernel, by decide +kernel, rfl⟩

end Demo
end TTGraph
