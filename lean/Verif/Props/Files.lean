import Verif.Spec.Files
import Verif.Props.Order
import Verif.Props.Switch
import Verif.Props.Types
import Verif.Props.Vec

/-!
# Properties C69 and C70: what `deserialize_graph` makes of an arbitrary file, and reading again
-/

set_option autoImplicit false

namespace TTGraph
open Spec Machine

section
variable [SetImpl] {S : Schema}

omit [SetImpl] in
theorem Spec.wants_iff {v : View} {y x : NodeIndex} {m' : Mirror} : Demanded S (fun _ => none) v y m' x ↔ Wants S v y m' x := by
  constructor
  · rintro ⟨m, d, ⟨h0, h1, _⟩, ⟨_, n, hn, rfl⟩, h3⟩
    exact ⟨h0, m, n, h1, hn, h3⟩
  · rintro ⟨h0, m, n, h1, hn, h3⟩
    refine ⟨m, n.disc, ⟨h0, h1, ?_⟩, ⟨?_, n, hn, rfl⟩, h3⟩
    · rintro ⟨_, h, _⟩; exact absurd h (by simp)
    · obtain ⟨nx, hx, _⟩ := h1
      rw [hx]; simp

omit [SetImpl] in
theorem Spec.no_removed {v : View} {x y : NodeIndex} {m : Mirror} : ¬ RemovedLink (fun _ => none) v x m y := by
  rintro ⟨_, ⟨_, h, _⟩, _⟩
  exact absurd h (by simp)

omit [SetImpl] in
theorem Spec.clash_iff {v : View} : Spec.Conflict S (fun _ => none) v ↔ Clash S v := by
  have h1 : ∀ y m' i, StillLinked S (fun _ => none) v y m' i ↔ v.Link y m' i := fun y m' i =>
    ⟨And.left, fun h => ⟨h, fun ⟨_, _, h, _⟩ => no_removed h⟩⟩
  simp only [Spec.Conflict, Clash, wants_iff, h1]

omit [SetImpl] in
theorem Spec.vecLacks_iff (hone : OneOpposite S) {v : View} : VecMissing S (fun _ => none) v ↔ VecLacks S v := by
  constructor
  · rintro ⟨x, m, y, d, h1, h2, ⟨m', h3, h4⟩, h5⟩
    obtain ⟨h6, h7⟩ := h5 m' h3 h4
    exact ⟨y, m', x, h6, wants_iff.1 ⟨m, d, h1, h2, h3, h4, fun m'' k1 k2 => hone m m'' m' k1 h3 (k2.trans h4.symm)⟩, h7⟩
  · rintro ⟨y, m', x, h1, h2, h3⟩
    obtain ⟨m, d, k1, k2, k3, k4, k5⟩ := wants_iff.2 h2
    refine ⟨x, m, y, d, k1, k2, ⟨m', k3, k4⟩, fun m'' k6 k7 => ?_⟩
    rw [k5 m'' k6 k7]
    exact ⟨h1, h3⟩

omit [SetImpl] in
theorem Spec.answering_of {v v' : View} (h : Completion S (fun _ => none) v v') : Answering S v v' := by
  refine ⟨h.1, fun z t w => ?_⟩
  rw [h.2 z t w]
  constructor
  · rintro (⟨h1, _⟩ | ⟨h1, h2, h3⟩)
    · exact Or.inl h1
    · exact Or.inr ⟨h1, h2, wants_iff.1 h3⟩
  · rintro (h1 | ⟨h1, h2, h3⟩)
    · exact Or.inl ⟨h1, fun ⟨_, _, h, _⟩ => no_removed h⟩
    · exact Or.inr ⟨h1, h2, wants_iff.2 h3⟩

omit [SetImpl] in
theorem Spec.sum_ofVariant (hS : S.discs.Nodup) : ∀ l : List (NodeIndex × Node), (∀ e ∈ l, e.2.disc ∈ S.discs) →
    (S.discs.map fun d => ((l.filter fun e => decide (e.2.disc = d)).map Prod.fst).length).sum = l.length := by
  intro l
  induction l with
  | nil => intro _; simp
  | cons e r ih =>
    intro h
    have h1 := ih fun x hx => h x (List.mem_cons_of_mem _ hx)
    have h2 : ∀ ds : List Ident, ds.Nodup → (ds.map fun d => (((e :: r).filter fun e => decide (e.2.disc = d)).map Prod.fst).length).sum =
        (ds.map fun d => ((r.filter fun e => decide (e.2.disc = d)).map Prod.fst).length).sum + if e.2.disc ∈ ds then 1 else 0 := by
      intro ds hds
      induction ds with
      | nil => simp
      | cons d ds ihd =>
        have hnd := List.nodup_cons.1 hds
        rw [List.map_cons, List.sum_cons, ihd hnd.2, List.map_cons, List.sum_cons]
        by_cases hd : e.2.disc = d
        · have h3 : e.2.disc ∉ ds := hd ▸ hnd.1
          rw [List.filter_cons_of_pos (by simpa using hd), if_neg h3, if_pos (by simp [hd]), List.map_cons, List.length_cons]
          omega
        · rw [List.filter_cons_of_neg (by simpa using hd)]
          simp only [List.mem_cons, hd, false_or]
          omega
    rw [h2 _ hS, h1, if_pos (h e List.mem_cons_self)]
    rfl

/-- A file that uses an index twice is refused, whatever else is in it. -/
theorem C69_duplicates (input : GraphSerializer) (h : ¬ Distinct input.nodes) : Graph.deserializeGraph S input = .error .dupIndex := by
  rcases Arena.newFromIter_cases S input.nodes with ⟨hnd, _⟩ | ⟨_, h1⟩
  · exact absurd hnd h
  · simp only [Graph.deserializeGraph, Graph.doDeserialize, h1]

/-- A graph that is read has the context id of the file; it has exactly the nodes of the file under their indices, and they differ from those of
the file at most in fields that are declared bidirectional.  `iter_type` yields them in the order of the file, the new context issues larger
indices, and `check_backlinks` succeeds.

Full statement of C69: the same for all files, and the links of the graph are internal and well typed.  That is false, see below. -/
theorem C69_graph_partial (hw : WellNamed S) {input : GraphSerializer} (hin : Plausible S input.nodes) {cnt : Nat} {g : Graph}
    (h : Graph.deserializeGraph S input = .ok (cnt, g)) :
    Distinct input.nodes ∧ g.ctxId = input.ctxId ∧ (∃ v, Lists input.nodes v ∧ SameUpToBidir S v g.get?) ∧ g.len S = input.nodes.length ∧
    (∀ d, g.order d = (input.nodes.filter fun e => decide (e.2.disc = d)).map Prod.fst) ∧ (∀ e ∈ input.nodes, (e.1 : Nat) ≤ cnt) ∧
    ∀ dbg, g.checkBacklinks S dbg = .ok () := by
  obtain ⟨h1, rfl, a, h2, h3, h4⟩ := Graph.deserializeGraph_ok hw hin h
  have hord : ∀ d, g.order d = (input.nodes.filter fun e => decide (e.2.disc = d)).map Prod.fst := by
    intro d
    unfold Graph.deserializeGraph at h
    split at h
    · exact absurd h (by simp)
    · rename_i g1 hg1
      simp only [Except.ok.injEq, Prod.mk.injEq] at h
      obtain ⟨_, rfl⟩ := h
      exact Graph.doDeserialize_order hg1 d
  have hlen : g.len S = (S.discs.map fun d => (g.order d).length).sum := by
    have : ∀ d, (g.order d).length = (g.nodes.cont d).len := fun d => by simp [Graph.order, Graph.iterType, OrderMap.len]
    simp only [this]
    rfl
  refine ⟨h1, h4.ctx, ⟨a.get?, fun i n => h2.get i n, h4.same⟩, ?_, hord, (Graph.le_maxIndex input.nodes 0).1,
    fun dbg => (Graph.checkBacklinks_ok h4.inv dbg).2 fun y _ x s hr => h4.inv.exact x s y (Or.inr trivial) hr⟩
  rw [hlen]
  simp only [hord]
  exact sum_ofVariant hw.variants input.nodes fun e he => (hin e he).2.disc

/-- If a field has at most one opposite on each variant and no pair of opposites is declared twice: a file is read iff it uses no index twice,
no direct field would have to hold two nodes, and every answer that only a `Vec` can give is there.  The graph then has the nodes of the file with
the missing answers added. -/
theorem C69_iff_partial (hw : WellNamed S) (hone : OneOpposite S) (ho : DeclaredOnce S) {input : GraphSerializer} (hin : Plausible S input.nodes) :
    ((∃ r, Graph.deserializeGraph S input = .ok r) ↔ Distinct input.nodes ∧ ∀ v, Lists input.nodes v → ¬ Clash S v ∧ ¬ VecLacks S v) ∧
    (∀ v cnt g, Lists input.nodes v → Graph.deserializeGraph S input = .ok (cnt, g) → Answering S v g.get?) := by
  have huniq : ∀ (v : View) (a : Arena), Arena.FromIter S input.nodes a → Lists input.nodes v → v = a.get? := by
    intro v a ha hl
    funext i
    apply Option.ext
    intro n
    rw [hl i n, ha.get i n]
  constructor
  · rcases Graph.deserialize_cases hw hin with ⟨hnd, a, h1, _, ⟨g, k1, k2⟩ | ⟨k1, _, k3⟩ | ⟨k1, k3⟩ | ⟨k1, k3⟩⟩ | ⟨hnd, k1⟩
    · exact ⟨fun _ => ⟨hnd, fun v hl => by rw [huniq v a h1 hl, ← clash_iff, ← vecLacks_iff hone]; exact ⟨k2.noConflict, Graph.not_missing k2.completion k2.covered⟩⟩, fun _ => ⟨_, k1⟩⟩
    · obtain ⟨_, m, _, d, _, _, hmany, _⟩ := k3
      exact absurd hmany (Schema.not_manyWays hw hone ho m d)
    · rw [k1]
      exact ⟨fun ⟨_, h⟩ => absurd h (by simp), fun ⟨_, h⟩ => absurd (clash_iff.1 k3) (h a.get? fun i n => h1.get i n).1⟩
    · rw [k1]
      exact ⟨fun ⟨_, h⟩ => absurd h (by simp), fun ⟨_, h⟩ => absurd ((vecLacks_iff hone).1 k3) (h a.get? fun i n => h1.get i n).2⟩
    · rw [k1]
      exact ⟨fun ⟨_, h⟩ => absurd h (by simp), fun ⟨h, _⟩ => absurd h hnd⟩
  · intro v cnt g hl h
    obtain ⟨_, _, a, h2, _, h4⟩ := Graph.deserializeGraph_ok hw hin h
    rw [huniq v a h2 hl]
    exact answering_of h4.completion

/-! ## C70 -/

omit [SetImpl] in
/-- The file that is written for a graph that was read from a plausible file. -/
theorem Spec.plausible_serialize {g : Graph} {P : Prop} (inv : g.Inv S P) : Plausible S (g.serialize S).nodes := by
  rintro ⟨i, n⟩ he
  have hn : g.get? i = some n := (Arena.mem_entries inv.arena).1 he
  refine ⟨?_, inv.wt i n hn⟩
  rintro rfl
  rw [inv.noEmpty] at hn
  exact absurd hn (by simp)

omit [SetImpl] in
theorem Graph.maxIndex_le {l : List (NodeIndex × Node)} {b : Nat} : ∀ m, m ≤ b → (∀ e ∈ l, (e.1 : Nat) ≤ b) →
    l.foldl (fun m e => max m e.1) m ≤ b := by
  induction l with
  | nil => intro m hm _; exact hm
  | cons e r ih => intro m hm h; exact ih _ (Nat.max_le.2 ⟨hm, h e List.mem_cons_self⟩) fun x hx => h x (List.mem_cons_of_mem _ hx)

/-- A graph that was read can be written and read again, and this changes nothing: the context id, the nodes up to the order of sets, the order of
iteration and the counter of the context are the same. -/
theorem C70_stable (hw : WellNamed S) {input : GraphSerializer} (hin : Plausible S input.nodes) {cnt : Nat} {g : Graph}
    (h : Graph.deserializeGraph S input = .ok (cnt, g)) :
    ∃ g', Graph.deserializeGraph S (g.serialize S) = .ok (cnt, g') ∧ g'.ctxId = g.ctxId ∧ View.Same g.get? g'.get? ∧
      (∀ d, g'.order d = g.order d) ∧ ((g'.serialize S).nodes.map Prod.fst = (g.serialize S).nodes.map Prod.fst) := by
  obtain ⟨_, rfl, a, h2, _, h4⟩ := Graph.deserializeGraph_ok hw hin h
  have h0 : a.get? emptyIdx = none := by
    cases hx : a.get? emptyIdx with
    | none => rfl
    | some n => exact absurd rfl (hin _ ((h2.get _ _).1 hx)).1
  have ha : Answered S g.get? := covered_answered h4.completion h4.covered
    (fun x m y n hl => by obtain ⟨s, hs⟩ := View.link_iff.1 hl; obtain ⟨_, k, _⟩ := hs; exact absurd k (by simp))
    (fun x s y ⟨_, k, _⟩ => absurd k (by simp)) (fun x n n6 k => absurd k (by simp)) h0 fun _ _ _ => no_removed
  have hin' := plausible_serialize h4.inv
  have hag : ∀ {a : Arena}, Arena.FromIter S (g.serialize S).nodes a → a.get? = g.get? := by
    intro a h3
    funext i
    refine Option.ext fun n => ?_
    rw [h3.get]
    exact Arena.mem_entries h4.inv.arena
  have hcnt : Graph.maxIndex (g.serialize S).nodes = Graph.maxIndex input.nodes := by
    have hmem : ∀ i, g.get? i ≠ none ↔ a.get? i ≠ none := fun i => not_congr (LoadOut.none_iff h4 i)
    refine Nat.le_antisymm (Graph.maxIndex_le 0 (Nat.zero_le _) ?_) (Graph.maxIndex_le 0 (Nat.zero_le _) ?_)
    · rintro ⟨i, n⟩ he
      have hi : g.get? i = some n := (Arena.mem_entries h4.inv.arena).1 he
      obtain ⟨n', hn'⟩ := Option.ne_none_iff_exists'.1 ((hmem i).1 (by rw [hi]; simp))
      exact (Graph.le_maxIndex input.nodes 0).1 (i, n') ((h2.get _ _).1 hn')
    · rintro ⟨i, n⟩ he
      obtain ⟨n', hn'⟩ := Option.ne_none_iff_exists'.1 ((hmem i).2 (by rw [(h2.get i n).2 he]; simp))
      exact (Graph.le_maxIndex (g.serialize S).nodes 0).1 (i, n') ((Arena.mem_entries h4.inv.arena).2 hn')
  obtain ⟨b, g', h3, k1, k2⟩ := Graph.deserialize_answered hw hin' (Arena.entries_nodup hw.variants h4.inv.arena) fun b h3 => by
    rw [hag h3]; exact ha
  have hsame : View.Same g.get? g'.get? := by
    rw [← hag h3]
    exact Answered.same (by rw [hag h3]; exact h4.inv.wt) (by rw [hag h3]; exact ha) k2.completion
  have hord : ∀ d, g'.order d = g.order d := fun d => by
    rw [(C69_graph_partial hw hin' k1).2.2.2.2.1 d]
    exact Arena.ofVariant_entries hw.variants h4.inv.arena (h4.typed h2.typed) d
  refine ⟨g', by rw [k1, hcnt], k2.ctx, hsame, hord, ?_⟩
  show (g'.iter S).map Prod.fst = (g.iter S).map Prod.fst
  rw [Graph.iter_fst, Graph.iter_fst]
  exact congrArg (fun f => List.flatMap f S.discs) (funext hord)

/-- In particular a graph of a program, whatever reading it back has added to it, stays the same from then on. -/
theorem C70_once {dbg : Bool} {R : World → Call → Prop} (hw : WellNamed S) {g g1 : Graph} {cnt : Nat} (h : Reachable S dbg R g)
    (h1 : Graph.deserializeGraph S (g.serialize S) = .ok (cnt, g1)) :
    ∃ g2, Graph.deserializeGraph S (g1.serialize S) = .ok (cnt, g2) ∧ g2.ctxId = g1.ctxId ∧ View.Same g1.get? g2.get? ∧ ∀ d, g2.order d = g1.order d := by
  have hin := plausible_serialize (h.inv hw)
  obtain ⟨g2, k1, k2, k3, k4, _⟩ := C70_stable hw hin h1
  exact ⟨g2, k1, k2, k3, k4⟩

end
end TTGraph

namespace TTGraph
namespace Demo
open Spec

theorem plausible_sound {S : Schema} {nodes : List (NodeIndex × Node)} (h : nodes.all (fun e => e.1 != emptyIdx && wt S e.2) = true) :
    Plausible S nodes := by
  intro e he
  have := List.all_eq_true.1 h e he
  rw [Bool.and_eq_true, bne_iff_ne] at this
  exact ⟨this.1, wt_sound this.2⟩

/-- A file with three nodes, not in the order of their indices, in which one answer is missing. -/
def file3 : GraphSerializer := ⟨99, [(9, pB [] 0), (4, pA 9 [7]), (7, pB [] 4)]⟩

/-- C69: it is read, and 9 answers the link of 4. -/
example : Plausible pair file3.nodes ∧ Distinct file3.nodes ∧ ∃ cnt g, Graph.deserializeGraph pair file3 = .ok (cnt, g) ∧ cnt = 9 ∧
    g.get? 9 = some (pB [4] 0) ∧ g.order 2 = [9, 7] :=
  ⟨plausible_sound (by decide +kernel), by unfold Distinct; decide +kernel, _, _, got_ok (d := (0, Graph.new 0)) (by decide +kernel), by decide +kernel,
    by decide +kernel, by decide +kernel⟩

/-- C70: what was read from it is written in the order of the variants, with the answer. -/
example : Plausible pair file3.nodes ∧ ∃ g, Graph.deserializeGraph pair file3 = .ok (9, g) ∧
    (g.serialize pair).nodes = [(4, pA 9 [7]), (9, pB [4] 0), (7, pB [] 4)] := by
  have h := got_ok (d := (0, Graph.new 0)) (e := Graph.deserializeGraph pair file3) (by decide +kernel)
  have h2 : (got (0, Graph.new 0) (Graph.deserializeGraph pair file3)).1 = 9 := by decide +kernel
  refine ⟨plausible_sound (by decide +kernel), (got (0, Graph.new 0) (Graph.deserializeGraph pair file3)).2, ?_, by decide +kernel⟩
  rw [← h2]
  exact h

/-- C70: a graph of a program that can be read back. -/
example : let g := graphAt (run pair true World.init pair4) 0
    Reachable pair true SoundKeep g ∧ ∃ cnt g1, Graph.deserializeGraph pair (g.serialize pair) = .ok (cnt, g1) ∧ g1.get? 1 ≠ none :=
  ⟨pair4_reachable, _, _, got_ok (d := (0, Graph.new 0)) (by decide +kernel), by decide +kernel⟩

/-- C69: two nodes claim the same direct field of 9, and the file is refused; a file that uses 4 twice is refused too. -/
example : Plausible pair [(9, pB [] 0), (4, pA 0 [9]), (7, pA 0 [9])] ∧
    Graph.deserializeGraph pair ⟨99, [(9, pB [] 0), (4, pA 0 [9]), (7, pA 0 [9])]⟩ = .error .addOnExisting ∧
    ¬ Distinct [(4, pA 0 []), (4, pB [] 0)] :=
  ⟨plausible_sound (by decide +kernel), panic_of (by decide +kernel), by unfold Distinct; decide +kernel⟩

/-- C69 with a bidirectional `Vec`: a file in which the children are answered by the parent or the other way round is read, and a child whose parent
does not list it makes the file be refused. -/
example : WellNamed owner ∧ OneOpposite owner ∧ DeclaredOnce owner ∧ Plausible owner [(1, cC 3), (2, cC 0), (3, cP [2, 1])] ∧
    (∃ cnt g, Graph.deserializeGraph owner ⟨99, [(1, cC 3), (2, cC 0), (3, cP [2, 1])]⟩ = .ok (cnt, g) ∧ g.get? 2 = some (cC 3) ∧
      g.get? 3 = some (cP [2, 1])) ∧
    Plausible owner [(1, cC 3), (3, cP [])] ∧ Graph.deserializeGraph owner ⟨99, [(1, cC 3), (3, cP [])]⟩ = .error .addOnVec :=
  ⟨owner_named, owner_one, owner_once, plausible_sound (by decide +kernel),
    ⟨_, _, got_ok (d := (0, Graph.new 0)) (by decide +kernel), by decide +kernel, by decide +kernel⟩, plausible_sound (by decide +kernel),
    panic_of (by decide +kernel)⟩

/-- C69 fails: a node under the empty index is accepted.  `get` and `iter` show it, and a link to it is taken for no link. -/
theorem C69_empty_fails : ∃ cnt g, Graph.deserializeGraph plain ⟨99, [(1, nB 0), (0, nB 1)]⟩ = .ok (cnt, g) ∧
    g.get? emptyIdx = some (nB 1) ∧ (g.iter plain).map Prod.fst = [1, 0] ∧ ∀ s y, ¬ (nB 0).Holds s y := by
  refine ⟨_, _, got_ok (d := (0, Graph.new 0)) (by decide +kernel), by decide +kernel, by decide +kernel, ?_⟩
  rintro ⟨d, p, k⟩ y ⟨_, v, h1, h2⟩
  match p with
  | 0 =>
    simp only [nB, List.getElem?_cons_zero, Option.some.injEq] at h1
    subst h1
    exact h2.2.2 h2.2.1.symm
  | p + 1 => simp [nB] at h1

/-- C69 fails: a link that `link_type!` forbids is accepted, although the commit that makes the same link panics. -/
theorem C69_types_fails : ∃ cnt g, Plausible typed [(1, pA 2 []), (2, pA 0 [])] ∧
    Graph.deserializeGraph typed ⟨99, [(1, pA 2 []), (2, pA 0 [])]⟩ = .ok (cnt, g) ∧ ¬ WellTyped typed g.get? := by
  refine ⟨_, _, plausible_sound (by decide +kernel), got_ok (d := (0, Graph.new 0)) (by decide +kernel),
    not_wellTyped (x := 1) (y := 2) (n := pA 2 []) (n' := pA 0 []) (s := ⟨1, 0, 0⟩) (a := ⟨1, 10, [2]⟩)
    (by decide +kernel) (by decide) (by decide +kernel) (by decide) ?_ ?_⟩
  · exact ⟨Or.inl ⟨rfl, by decide⟩, ⟨[lnk 10 .direct, lnk 11 .set], []⟩, by decide, lnk 10 .direct, rfl, Or.inl rfl⟩
  · rintro ⟨v, hv, h⟩
    have e : v = 2 := by simpa using hv
    subst e
    rcases h with ⟨h, _⟩ | ⟨ds, h, _⟩
    · exact absurd h (by decide)
    · exact absurd h (by simp [typed, pair])

/-- C69 fails: a link to an index that the file does not have is accepted, and the first node that is inserted afterwards gets that index. -/
theorem C69_external_fails : ∃ cnt g, Plausible plain [(1, nB 2)] ∧ Graph.deserializeGraph plain ⟨99, [(1, nB 2)]⟩ = .ok (cnt, g) ∧
    ¬ Internal g.get? ∧ ((Trans.new 99).insert cnt (nB 0)).toOption.map Prod.fst = some 2 := by
  refine ⟨_, _, plausible_sound (by decide +kernel), got_ok (d := (0, Graph.new 0)) (by decide +kernel), ?_, by decide +kernel⟩
  intro h
  rcases h 1 ⟨2, 0, 0⟩ 2 ⟨nB 2, by decide +kernel, Node.mem_iterSources.1 (by decide)⟩ with h | h
  · exact absurd h (by decide)
  · exact h (by decide +kernel)

end Demo
end TTGraph
