import Verif.Demo.Decls
import Verif.Lemmas.Arenas
import Verif.Props.Iter

/-!
# A generated arena used on its own: C56
-/

set_option autoImplicit false

namespace TTGraph
open Spec
variable {S : Schema}

/-- An arena is the map that its user expects: `get`, `contains` and `dispatch` read it, and the container of a variant holds exactly the nodes of
that variant. -/
theorem C56_map (hw : WellNamed S) {a : Arena} {m : Cells} (h : Built S a m) (i : NodeIndex) :
    a.get? i = m.node? i ∧ a.contains i = (m.node? i).isSome ∧ a.dispatch i = (m i).map Cell.variant ∧
    ∀ d n, (a.cont d).get? i = some n ↔ m i = some (.node n) ∧ n.disc = d := by
  have hh := h.has hw.variants
  refine ⟨hh.node i, by rw [Arena.contains_eq, hh.node], hh.disp i, fun d n => ⟨fun hc => ?_, fun hm => ?_⟩⟩
  · have h1 := hh.inv.get? hc
    rw [hh.node] at h1
    exact ⟨Spec.Cells.some_node h1, hh.typed d i n hc⟩
  · have h1 : a.get? i = some n := by rw [hh.node, Cells.node?, hm.1]; rfl
    have := hh.typed.get? h1
    rw [hm.2] at this
    exact this

/-- `iter`, `into_iter`: calling `next` until it yields `None` yields every node of the arena once; `len` is their number.  An index that is only
reserved is neither listed nor counted. -/
theorem C56_iter (hw : WellNamed S) {a : Arena} {m : Cells} (h : Built S a m) :
    ∃ l it, Walk S (Iter.start S a) l it ∧ Exhausted S it ∧ (l.map Prod.fst).Nodup ∧ (∀ i n, (i, n) ∈ l ↔ m i = some (.node n)) ∧
      a.len S = l.length := by
  have hh := h.has hw.variants
  obtain ⟨it, h1, h2⟩ := Iter.walk_all hw.variants _ (Iter.start_at S a) (Iter.start_left S a)
  refine ⟨_, it, h1, h2, Arena.entries_nodup hw.variants hh.inv, fun i n => ?_, Arena.len_eq S a⟩
  rw [Arena.mem_entries hh.inv, hh.node]
  exact ⟨Spec.Cells.some_node, fun hm => by rw [Cells.node?, hm]; rfl⟩

/-- `alloc` and `insert` return the next index of the id distributer, or panic if the arena already knows it. -/
theorem C56_new (hw : WellNamed S) {a : Arena} {m : Cells} (h : Built S a m) (cnt : Nat) (d : Ident) (n : Node) :
    (m (cnt + 1) = none → (∃ a', a.alloc cnt d = .ok (cnt + 1, a', cnt + 1)) ∧ ∃ a', a.insert cnt n = .ok (cnt + 1, a', cnt + 1)) ∧
    (m (cnt + 1) ≠ none → a.alloc cnt d = .error .dupAlloc ∧ a.insert cnt n = .error .dupAlloc) := by
  have hh := h.has hw.variants
  have hd := hh.disp (cnt + 1)
  constructor
  · intro hm
    rw [hm] at hd
    exact ⟨⟨_, Arena.alloc_ok hd⟩, _, Arena.insert_ok hh.inv hd n⟩
  · intro hm
    obtain ⟨s, hs⟩ := Option.ne_none_iff_exists'.1 hm
    rw [hs] at hd
    have : a.disp.contains (cnt + 1) = true := OrderMap.contains_iff.2 ⟨_, hd⟩
    simp [Arena.insert, Arena.alloc, idAlloc, this]

/-- `fill_back` succeeds exactly on an index reserved for the variant of the node. -/
theorem C56_fill (hw : WellNamed S) {a : Arena} {m : Cells} (h : Built S a m) (i : NodeIndex) (n : Node) :
    ((∃ a', a.fillBack i n = .ok a') ↔ m i = some (.reserved n.disc)) ∧
    (m i = none → a.fillBack i n = .error .fillNonexisting) ∧
    (∀ s, m i = some s → s.variant ≠ n.disc → a.fillBack i n = .error .fillType) ∧
    (∀ n', m i = some (.node n') → n'.disc = n.disc → a.fillBack i n = .error .fillOccupied) := by
  have hh := h.has hw.variants
  have hd := hh.disp i
  have hg := hh.node i
  rcases Arena.fillBack_cases a i n with ⟨h1, h2⟩ | ⟨d, h1, hne, h2⟩ | ⟨h1, h3, h2⟩ | ⟨h1, h3, a2, h2, _⟩
  all_goals
    rw [h1] at hd
    cases hm : m i with
    | none => simp_all
    | some s =>
      rw [hm] at hd
      cases s with
      | reserved d' => simp_all [Cells.node?, Cell.node?, Cell.variant] <;> exact fun e => hne e.symm
      | node n' => simp_all [Cells.node?, Cell.node?, Cell.variant] <;> exact fun e => hne e.symm

/-- `fill_back_untyped` succeeds on every index that does not hold a node, and panics on one that holds a node of the same variant. -/
theorem C56_fillUntyped (hw : WellNamed S) {a : Arena} {m : Cells} (h : Built S a m) (i : NodeIndex) (n : Node) :
    (m.node? i = none → ∃ a', a.fillBackUntyped i n = .ok a') ∧
    (∀ n', m i = some (.node n') → n'.disc = n.disc → a.fillBackUntyped i n = .error .fillOccupied) := by
  have hh := h.has hw.variants
  rcases Arena.fillBackUntyped_cases a i n with ⟨h1, h2⟩ | ⟨h1, h2⟩
  · exact ⟨fun hm => absurd (hh.free hm _) h1, fun _ _ _ => h2⟩
  · refine ⟨fun _ => ⟨_, h2⟩, fun n' hm hd => ?_⟩
    have : (a.cont n.disc).get? i = some n' := ((C56_map hw h i).2.2.2 n.disc n').2 ⟨hm, hd⟩
    rw [h1] at this
    exact absurd this (by simp)

/-- `remove` returns the node.  `update_with` panics exactly if there is no node or the function panics; `get_mut` returns `None` exactly if there
is no node. -/
theorem C56_change (hw : WellNamed S) {a : Arena} {m : Cells} (h : Built S a m) (i : NodeIndex) (f : Node → Except Panic Node) (f' : Node → Node) :
    (a.remove i).1 = m.node? i ∧
    (m.node? i = none → a.updateWith i f = .error .updateMissing ∧ a.getMut i f' = none) ∧
    (∀ n, m i = some (.node n) → (a.getMut i f').isSome ∧ (∀ e, a.updateWith i f = .error e ↔ f n = .error e)) := by
  have hh := h.has hw.variants
  refine ⟨by rw [Arena.remove_fst, hh.node], fun hm => ?_, fun n hm => ?_⟩
  · have hn : a.get? i = none := by rw [hh.node, hm]
    refine ⟨Arena.updateWith_none hn, ?_⟩
    rw [Arena.getMut]
    cases hd : a.disp.get? i with
    | none => rfl
    | some d => simp [hh.free hm d]
  · have hn : a.get? i = some n := by rw [hh.node, Cells.node?, hm]; rfl
    obtain ⟨d, g1, g2⟩ := Arena.get?_eq_some.1 hn
    refine ⟨by simp [Arena.getMut, g1, g2], fun e => ?_⟩
    cases hf : f n with
    | error e' => rw [Arena.updateWith_err hn hf]; simp
    | ok n' =>
      obtain ⟨a', h1, _⟩ := Arena.updateWith_ok (S := S) hn hf
      rw [h1]
      simp

/-- `new_from_iter` succeeds exactly on lists without a repeated index. -/
theorem C56_fromIter {l : List (NodeIndex × Node)} (hl : ∀ e ∈ l, e.2.disc ∈ S.discs) :
    ((l.map Prod.fst).Nodup → ∃ a, Arena.newFromIter l = .ok a) ∧
    (¬ (l.map Prod.fst).Nodup → Arena.newFromIter l = .error .dupIndex) := by
  have h := fromIter_total (S := S) (Arena.new_inv S) hl
  have h0 : ∀ e ∈ l, Arena.new.disp.get? e.1 = none := fun _ _ => rfl
  exact ⟨fun hn => h.1 ⟨hn, h0⟩, fun hn => h.2 fun hx => hn hx.1⟩

end TTGraph

namespace TTGraph.Demo
open Spec

/-- Two nodes inserted, one index reserved and filled, a node changed through `get_mut`, all nodes visited, one removed. -/
def arena56 : Except Panic Arena := do
  let (_, a, c) ← Arena.new.insert 0 (nA 0 [] [] 5)
  let (_, a, c) ← a.insert c (nB 1)
  let (i, a, c) ← a.alloc c 2
  let a ← a.fillBack i (nB 2)
  let (_, a, _) ← a.alloc c 1
  match a.getMut 1 fun _ => nA 3 [] [] 6 with
  | none => .error .updateMissing
  | some a => pure ((a.iterMut plain fun i n => if n.disc = 2 then nB i else n).remove 2).2

/-- The arena of the chain above, as the user follows it. -/
def cells56 : Cells :=
  (((((((Cells.empty.put 1 (.node (nA 0 [] [] 5))).put 2 (.node (nB 1))).put 3 (.reserved 2)).put 3 (.node (nB 2))).put 4 (.reserved 1)).put
    1 (.node (nA 3 [] [] 6))).visit fun i n => if n.disc = 2 then nB i else n).drop 2

theorem built56 : ∃ a, arena56 = .ok a ∧ Built plain a cells56 := by
  have h1 := Built.insert (S := plain) (cnt := 0) (n := nA 0 [] [] 5) .new (by decide) rfl
  have h2 := Built.insert (cnt := 1) (n := nB 1) h1 (by decide) rfl
  have h3 := Built.alloc (cnt := 2) (d := 2) h2 (by decide) rfl
  have h4 := Built.fillBack (i := 3) (n := nB 2) h3 (by decide) rfl
  have h5 := Built.alloc (cnt := 3) (d := 1) h4 (by decide) rfl
  have h6 := Built.getMut (i := 1) (n := nA 0 [] [] 5) (f := fun _ => nA 3 [] [] 6) h5 rfl rfl rfl
  have h7 := Built.iterMut (f := fun i n => if n.disc = 2 then nB i else n) h6 (by
    intro i n _
    split
    · rename_i h; exact h.symm
    · rfl)
  exact ⟨_, rfl, h7.remove 2⟩

/-- C56 on the chain: index 3 holds the node written by the last visit, index 4 is reserved, index 2 is gone. -/
example : ∃ a, arena56 = .ok a ∧ a.get? 3 = some (nB 3) ∧ a.get? 4 = none ∧ a.dispatch 4 = some 1 ∧ a.get? 2 = none ∧ a.dispatch 2 = none := by
  obtain ⟨a, h1, h2⟩ := built56
  refine ⟨a, h1, ?_, ?_, ?_, ?_, ?_⟩
  · rw [(C56_map plain_named h2 3).1]; rfl
  · rw [(C56_map plain_named h2 4).1]; rfl
  · rw [(C56_map plain_named h2 4).2.2.1]; rfl
  · rw [(C56_map plain_named h2 2).1]; rfl
  · rw [(C56_map plain_named h2 2).2.2.1]; rfl

example : ∃ a, arena56 = .ok a ∧ ∃ l it, Walk plain (Iter.start plain a) l it ∧ a.len plain = l.length ∧ (3, nB 3) ∈ l := by
  obtain ⟨a, h1, h2⟩ := built56
  obtain ⟨l, it, w, _, _, hl, hn⟩ := C56_iter plain_named h2
  exact ⟨a, h1, l, it, w, hn, (hl 3 (nB 3)).2 rfl⟩

/-- Filling the reserved index 4 with a node of the other variant panics, with one of its own succeeds; index 1 is occupied. -/
example : ∃ a, arena56 = .ok a ∧ a.fillBack 4 (nB 0) = .error .fillType ∧ (∃ a', a.fillBack 4 (nA 0 [] [] 0) = .ok a') ∧
    a.fillBack 1 (nA 0 [] [] 0) = .error .fillOccupied ∧ a.fillBack 2 (nB 0) = .error .fillNonexisting := by
  obtain ⟨a, h1, h2⟩ := built56
  exact ⟨a, h1, (C56_fill plain_named h2 4 (nB 0)).2.2.1 (.reserved 1) rfl (by decide), (C56_fill plain_named h2 4 (nA 0 [] [] 0)).1.2 rfl,
    (C56_fill plain_named h2 1 _).2.2.2 (nA 3 [] [] 6) rfl rfl, (C56_fill plain_named h2 2 _).2.1 rfl⟩

example : ∃ a, arena56 = .ok a ∧ (∃ a', a.fillBackUntyped 7 (nB 0) = .ok a') ∧ a.fillBackUntyped 3 (nB 0) = .error .fillOccupied := by
  obtain ⟨a, h1, h2⟩ := built56
  exact ⟨a, h1, (C56_fillUntyped plain_named h2 7 (nB 0)).1 rfl, (C56_fillUntyped plain_named h2 3 (nB 0)).2 (nB 3) rfl rfl⟩

/-- The index 4 is reserved, so a distributer that hands it out again makes `alloc` panic. -/
example : ∃ a, arena56 = .ok a ∧ a.alloc 3 1 = .error .dupAlloc ∧ ∃ a', a.insert 4 (nB 0) = .ok (5, a', 5) := by
  obtain ⟨a, h1, h2⟩ := built56
  exact ⟨a, h1, ((C56_new plain_named h2 3 1 (nB 0)).2 (by simp [cells56, Cells.drop, Cells.visit, Cells.put])).1,
    ((C56_new plain_named h2 4 1 (nB 0)).1 rfl).2⟩

example : ∃ a, arena56 = .ok a ∧ (a.remove 3).1 = some (nB 3) ∧ a.updateWith 4 .ok = .error .updateMissing := by
  obtain ⟨a, h1, h2⟩ := built56
  exact ⟨a, h1, (C56_change plain_named h2 3 .ok id).1, ((C56_change plain_named h2 4 .ok id).2.1 rfl).1⟩

example : (∃ a, Arena.newFromIter [(4, nB 1), (2, nA 0 [] [] 0)] = .ok a) ∧ Arena.newFromIter [(4, nB 1), (4, nA 0 [] [] 0)] = .error .dupIndex :=
  ⟨(C56_fromIter (S := plain) (l := [(4, nB 1), (2, nA 0 [] [] 0)]) (by decide)).1 (by decide),
    (C56_fromIter (S := plain) (l := [(4, nB 1), (4, nA 0 [] [] 0)]) (by decide)).2 (by decide)⟩

/-- Two arenas with an index in common: after `merge` the arena counts two nodes, though `get` finds one, and the iterator yields the index twice. -/
theorem C56_merge_overlap_fails : ∃ a b : Arena, Built plain a (Cells.empty.put 1 (.node (nA 0 [] [] 0))) ∧
    Built plain b (Cells.empty.put 1 (.node (nB 0))) ∧
    (a.merge b).len plain = 2 ∧ (∀ i, (a.merge b).contains i = true → i = 1) ∧
    ∃ it, Walk plain (Iter.start plain (a.merge b)) [(1, nA 0 [] [] 0), (1, nB 0)] it := by
  have h1 := Built.insert (S := plain) (cnt := 0) (n := nA 0 [] [] 0) .new (by decide) rfl
  have h2 := Built.insert (S := plain) (cnt := 0) (n := nB 0) .new (by decide) rfl
  refine ⟨_, _, h1, h2, by decide +kernel, ?_, ?_⟩
  · intro i hi
    rw [Arena.contains_eq, Option.isSome_iff_exists] at hi
    obtain ⟨n, hn⟩ := hi
    obtain ⟨d, hd, _⟩ := Arena.get?_eq_some.1 hn
    by_contra hne
    rw [Arena.merge_disp] at hd
    have e1 := (C56_map plain_named h1 i).2.2.1
    have e2 := (C56_map plain_named h2 i).2.2.1
    rw [Arena.dispatch] at e1 e2
    rw [e1, e2] at hd
    have : (1 : NodeIndex) ≠ i := fun h => hne h.symm
    simp [Cells.put, Cells.empty, this] at hd
  · obtain ⟨it, w, _⟩ := Iter.walk_all plain_named.variants _ (Iter.start_at plain _) (Iter.start_left plain _)
    exact ⟨it, w⟩

/-- `fill_back_untyped` on an index that holds a node of another variant: the old node stays in its container and is still counted. -/
theorem C56_fillUntyped_occupied_fails : ∃ a a' : Arena, Built plain a (Cells.empty.put 1 (.node (nA 0 [] [] 0))) ∧
    a.fillBackUntyped 1 (nB 0) = .ok a' ∧ a'.get? 1 = some (nB 0) ∧ a'.len plain = 2 := by
  have h1 := Built.insert (S := plain) (cnt := 0) (n := nA 0 [] [] 0) .new (by decide) rfl
  exact ⟨_, _, h1, rfl, by decide +kernel, by decide +kernel⟩

end TTGraph.Demo
