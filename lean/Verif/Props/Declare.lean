import Verif.Lemmas.Redeclare
import Verif.Lemmas.Meets
import Verif.Props.Rename

/-!
# C81: the order in which things are declared does not matter

`Redeclared S S'`: the block `S'` lists the variants and groups of `S` in another order, and writes the lines of `bidirectional!` and
`link_type!` in another order, repeated, or (for `bidirectional!`) the other way around.
-/

set_option autoImplicit false

namespace TTGraph
open Spec

/-- Both blocks compile or neither does. -/
theorem C81_compiles {S S' : Schema} (hw : WellNamed S) (h : Redeclared S S') (nm : Naming) :
    WellNamed S' ∧ (S'.Compiles nm ↔ S.Compiles nm) :=
  ⟨h.named hw, h.symm.compiles (h.named hw), h.compiles hw⟩

/-- The generated methods of nodes return the same.  The fields on the other side of a link may come in another order. -/
theorem C81_queries {S S' : Schema} (hw : WellNamed S) (h : Redeclared S S') :
    (∀ n name, Node.getLinksByName S' n name = Node.getLinksByName S n name) ∧
    (∀ n name, Node.getLinksByGroup S' n name = Node.getLinksByGroup S n name) ∧
    (∀ n name ty, Node.dataRefByName S' n name ty = Node.dataRefByName S n name ty) ∧
    (∀ d name, S'.inGroup d name = S.inGroup d name) ∧
    (∀ d m, S'.checkLinkType d m = S.checkLinkType d m) ∧
    ∀ m, (S'.mirrorsOf m).Perm (S.mirrorsOf m) := by
  refine ⟨fun n name => ?_, fun n name => ?_, fun n name ty => ?_, h.inGroup hw, h.checkLinkType hw, h.mirrorsOf hw⟩
  · simp only [Node.getLinksByName, h.struct? hw]
  · simp only [Node.getLinksByGroup, h.struct? hw]
  · simp only [Node.dataRefByName, h.struct? hw]

/-- The iterators over a graph yield the same items, perhaps in another order, and the number of nodes is the same. -/
theorem C81_iter {S S' : Schema} (hw : WellNamed S) (h : Redeclared S S') (g : Graph) :
    (g.iter S').Perm (g.iter S) ∧ (∀ name, (g.iterGroup S' name).Perm (g.iterGroup S name)) ∧ g.len S' = g.len S ∧
    (S'.variants = S.variants → g.iter S' = g.iter S) := by
  have h1 : (g.iter S').Perm (g.iter S) := h.discs.flatMap_right _
  refine ⟨h1, fun name => ?_, ?_, fun e => by simp only [Graph.iter, Arena.entries, Schema.discs, e]⟩
  · simp only [Graph.iterGroup, h.inGroup hw]
    exact h1.filter _
  · simp only [Graph.len, Arena.len_eq]
    exact h1.length_eq

/-- If the variants are listed in the same order and no field has two possible opposites on one variant, then every call does exactly the
same, even in the order of iteration, and programs may do the same. -/
theorem C81_exact [SetImpl] {S S' : Schema} (hw : WellNamed S) (ho : OneOpposite S) (h : Redeclared S S') (hv : S'.variants = S.variants)
    (dbg : Bool) : (∀ w c, World.exec S' dbg w c = World.exec S dbg w c) ∧ ∀ R w, Reaches S' dbg R w ↔ Reaches S dbg R w := by
  have hex : ∀ w c, World.exec S' dbg w c = World.exec S dbg w c := fun w c =>
    World.exec_congr (by simp only [Schema.discs, hv]) (h.kind? hw) (h.opposites_eq hw ho) (h.checkLinkType hw) dbg w c
  refine ⟨hex, fun R w => ⟨fun hr => ?_, fun hr => ?_⟩⟩
  · induction hr with
    | init => exact .init
    | step _ ha hR ih => rw [hex]; exact .step ih ((h.allowed hw).1 ha) hR
  · induction hr with
    | init => exact .init
    | step _ ha hR ih => rw [← hex]; exact .step ih ((h.allowed hw).2 ha) hR

/-- With any number of possible opposites: a commit returns graphs with the same nodes, or panics in the same way. -/
theorem C81_commit [SetImpl] {S S' : Schema} {dbg : Bool} {R : World → Call → Prop} (hw : WellNamed S) (h : Redeclared S S')
    (hv : S'.variants = S.variants) {g : Graph} {t : Trans} (hm : Meets S dbg R g t) :
    (∃ g1 g1', g.commit S dbg t = .ok g1 ∧ g.commit S' dbg t = .ok g1' ∧ View.Same g1.get? g1'.get?) ∨
      ∃ e, g.commit S dbg t = .error e ∧ g.commit S' dbg t = .error e :=
  Graph.commit_redeclared hw h hv (hm.inv hw) (hm.ready hw).good (hm.disjoint hw).1 (hm.ready hw).noFrom

/-- With the variants in any order: corresponding commits to corresponding graphs, if both return, give corresponding graphs.  `σ` may be
the identity. -/
theorem C81_both [SetImpl] {S S' : Schema} {dbg : Bool} {R : World → Call → Prop} {σ : Equiv.Perm NodeIndex} (hσ : σ emptyIdx = emptyIdx)
    (hw : WellNamed S) (h : Redeclared S S') {g g' g2 g2' : Graph} {t t2 : Trans} (hst : SteadyBidir S t g.get?) (hst2 : SteadyBidir S' t2 g2.get?)
    (hm : Meets S dbg R g t) (hm2 : Meets S' dbg R g2 t2) (hg : Alike σ g.get? g2.get?) (hp : AlikePending σ t.pending t2.pending)
    (hc : g.commit S dbg t = .ok g') (hc2 : g2.commit S' dbg t2 = .ok g2') : Alike σ g'.get? g2'.get? :=
  Graph.commit_alike hσ hw (h.named hw) (h.tables hw) hst hst2 (hm.inv hw) (hm2.inv (h.named hw)) (hm.ready hw).good (hm2.ready (h.named hw)).good
    (hm.disjoint hw).1 (hm2.disjoint (h.named hw)).1 (hm.ready hw).noFrom (hm2.ready (h.named hw)).noFrom hg hp hc hc2

/-- If one of them returns, and no field has two possible opposites on one variant, and the other transaction makes sense for its graph,
then the other one returns too. -/
theorem C81_returns [SetImpl] {S S' : Schema} {dbg : Bool} {R : World → Call → Prop} {σ : Equiv.Perm NodeIndex} (hσ : σ emptyIdx = emptyIdx)
    (hw : WellNamed S) (hd : DeclaredOnce S) (ho : OneOpposite S) (h : Redeclared S S')
    {g g' g2 : Graph} {t t2 : Trans} (hst : SteadyBidir S t g.get?) (hst2 : SteadyBidir S' t2 g2.get?)
    (hva : SteadyAnnos S t g.get?) (hva2 : SteadyAnnos S' t2 g2.get?)
    (hm : Meets S dbg R g t) (hm2 : Meets S' dbg R g2 t2) (hg : Alike σ g.get? g2.get?) (hp : AlikePending σ t.pending t2.pending)
    (hvalid : Valid S' g2.get? t2.pending) (hc : g.commit S dbg t = .ok g') :
    ∃ g2', g2.commit S' dbg t2 = .ok g2' ∧ Alike σ g'.get? g2'.get? := by
  have hw2 := h.named hw
  obtain ⟨g6, r6, hperf, _⟩ := hvalid.perform hw2 hm2
  obtain ⟨g2', hc2⟩ := Graph.commit_alike_returns hσ hw hw2 (h.tables hw) (h.declaredOnce.2 hd) ho hst hst2 hva hva2 (hm.inv hw)
    (hm2.inv hw2) (hm.ready hw).good (hm2.ready hw2).good (hm.disjoint hw).1 (hm2.disjoint hw2).1 (hm.ready hw).noFrom
    (hm2.ready hw2).noFrom hg hp (hm2.disjoint hw2).2.1 hc hperf
  exact ⟨g2', hc2, C81_both hσ hw h hst hst2 hm hm2 hg hp hc hc2⟩

/-- The whole program, compiled with the one and the other declaration: at every moment corresponding graphs hold corresponding nodes and
corresponding transactions have corresponding pending operations. -/
theorem C81_program [SetImpl] {S S' : Schema} {dbg : Bool} {σ : Nat → Equiv.Perm NodeIndex} {G T : Nat → Prop}
    (hσ : ∀ c, σ c emptyIdx = emptyIdx) (hw : WellNamed S) (h : Redeclared S S') {R : World → Call → Prop}
    (hst : ∀ w c, R w c → SteadyBidirCalls S w c) {w w2 : World} (ht : Twins S S' dbg R σ G T w w2) :
    (∀ k c c2 g g2, G k → w.graph k = some (c, g) → w2.graph k = some (c2, g2) → c2 = c ∧ Alike (σ c) g.get? g2.get?) ∧
    ∀ k c c2 t t2, T k → w.trans k = some (c, t) → w2.trans k = some (c2, t2) → c2 = c ∧ AlikePending (σ c) t.pending t2.pending :=
  ⟨(ht.inv hσ hw (h.named hw) (h.tables hw) hst).graph, (ht.inv hσ hw (h.named hw) (h.tables hw) hst).trans⟩

end TTGraph

namespace TTGraph.Demo
open Spec

/-- `Redeclared` by evaluation. -/
def redeclared (S S' : Schema) : Bool :=
  let both (l : List BidirDecl) := l ++ l.map turned
  decide (S'.variants.Perm S.variants) && decide (S'.groups.Perm S.groups) && S'.bidirs.all (fun b => decide (b ∈ both S.bidirs)) &&
  S.bidirs.all (fun b => decide (b ∈ both S'.bidirs)) && S'.annos.all (fun a => decide (a ∈ S.annos)) && S.annos.all (fun a => decide (a ∈ S'.annos))

theorem turned_turned (b : BidirDecl) : turned (turned b) = b := rfl

theorem redeclared_sound {S S' : Schema} (h : redeclared S S' = true) : Redeclared S S' := by
  simp only [redeclared, Bool.and_eq_true, List.all_eq_true, decide_eq_true_eq] at h
  obtain ⟨⟨⟨⟨⟨h1, h2⟩, h3⟩, h4⟩, h5⟩, h6⟩ := h
  have key : ∀ l l' : List BidirDecl, (∀ b ∈ l', b ∈ l ++ l.map turned) → ∀ b, b ∈ l' ∨ turned b ∈ l' → b ∈ l ∨ turned b ∈ l := by
    intro l l' hl b hb
    have one : ∀ b, b ∈ l ++ l.map turned → b ∈ l ∨ turned b ∈ l := fun b hb => by
      rcases List.mem_append.1 hb with hb | hb
      · exact Or.inl hb
      · obtain ⟨c, hc, rfl⟩ := List.mem_map.1 hb
        exact Or.inr hc
    rcases hb with hb | hb
    · exact one b (hl b hb)
    · exact (one _ (hl _ hb)).symm
  exact ⟨h1, h2, fun b => ⟨key _ _ h3 b, key _ _ h4 b⟩, fun a => ⟨h5 a, h6 a⟩⟩

/-- `typed` with the variants in the other order, and the lines in the other order, one of them turned around and one of them twice. -/
def typed2 : Schema :=
  { variants := [(2, ⟨[lnk 20 .set, lnk 21 .direct], []⟩), (1, ⟨[lnk 10 .direct, lnk 11 .set], []⟩)],
    bidirs := [⟨2, 21, 1, 11⟩, ⟨1, 10, 2, 20⟩, ⟨1, 11, 2, 21⟩], annos := [⟨1, 11, [2]⟩, ⟨1, 10, [2]⟩, ⟨1, 11, [2]⟩] }

theorem typed2_redeclared : Redeclared typed typed2 := redeclared_sound (by decide +kernel)

/-- `typed2` with the variants in the order of `typed`. -/
def typed3 : Schema := { typed2 with variants := typed.variants }

/-- C81: both are redeclarations of a declaration that satisfies the conditions, and they are different from it. -/
example : WellNamed typed ∧ DeclaredOnce typed ∧ OneOpposite typed ∧ Redeclared typed typed2 ∧ Redeclared typed typed3 ∧
    typed3.variants = typed.variants ∧ typed2 ≠ typed ∧ typed3 ≠ typed ∧ typed2.mirrorsOf ⟨1, 1⟩ = [⟨2, 1⟩] :=
  ⟨typed_named, typed_once, typed_one, typed2_redeclared, redeclared_sound (by decide +kernel), rfl, by decide +kernel, by decide +kernel,
   by decide +kernel⟩

/-- A graph with two nodes and a pending redirect. -/
def declProg : List Step :=
  [.call (.newContext 0 77), .call (.newGraph 0 0), .call (.newTrans 0 0), .call (.op 0 (.insert (pB [] 0))), .call (.op 0 (.insert (pB [] 0))),
   .call (.op 0 (.insert (pA 1 []))), .call (.commit 0 0), .call (.newTrans 1 0), .call (.op 1 (.redirectLinks 1 2))]

theorem same_renamed (n : Node) : Node.Renamed (Equiv.refl NodeIndex) n n := Node.Same.refl n

/-- The same program with both declarations. -/
theorem declTwins : Twins typed typed2 true AnyCall (fun _ => Equiv.refl NodeIndex) (fun g => g = 0) (fun k => k = 0 ∨ k = 1)
    (run typed true World.init declProg) (run typed2 true World.init declProg) := by
  have s0 : Twins typed typed2 true AnyCall (fun _ => Equiv.refl NodeIndex) (fun g => g = 0) (fun k => k = 0 ∨ k = 1) World.init World.init := .start
  have s1 := s0.both (a := .newContext 0 77) (b := .newContext 0 77) ⟨rfl, by decide, fun _ _ h => absurd h (by simp [World.init])⟩
    ⟨rfl, by decide, fun _ _ h => absurd h (by simp [World.init])⟩ trivial trivial trivial rfl
  have s2 := s1.both (a := .newGraph 0 0) (b := .newGraph 0 0) rfl rfl trivial trivial rfl ⟨rfl, rfl⟩
  have s3 := s2.both (a := .newTrans 0 0) (b := .newTrans 0 0) rfl rfl trivial trivial (.inl rfl) ⟨rfl, rfl⟩
  have s4 := s3.both (a := .op 0 (.insert (pB [] 0))) (b := .op 0 (.insert (pB [] 0))) (op_allowed (by decide +kernel)) (op_allowed (by decide +kernel))
    trivial trivial (.inl rfl) (alikeCall_op (by decide +kernel) (by decide +kernel) (same_renamed _) (by decide +kernel))
  have s5 := s4.both (a := .op 0 (.insert (pB [] 0))) (b := .op 0 (.insert (pB [] 0))) (op_allowed (by decide +kernel)) (op_allowed (by decide +kernel))
    trivial trivial (.inl rfl) (alikeCall_op (by decide +kernel) (by decide +kernel) (same_renamed _) (by decide +kernel))
  have s6 := s5.both (a := .op 0 (.insert (pA 1 []))) (b := .op 0 (.insert (pA 1 []))) (op_allowed (by decide +kernel)) (op_allowed (by decide +kernel))
    trivial trivial (.inl rfl) (alikeCall_op (by decide +kernel) (by decide +kernel) (same_renamed _) (by decide +kernel))
  have s7 := s6.both (a := .commit 0 0) (b := .commit 0 0) (sameCtx_sound (by decide +kernel)) (sameCtx_sound (by decide +kernel)) trivial trivial ⟨.inl rfl, rfl⟩
    ⟨rfl, rfl, Option.isSome_iff_ne_none.1 (by decide +kernel), Option.isSome_iff_ne_none.1 (by decide +kernel),
     Option.isSome_iff_ne_none.1 (by decide +kernel), Option.isSome_iff_ne_none.1 (by decide +kernel)⟩
  have s8 := s7.both (a := .newTrans 1 0) (b := .newTrans 1 0) (Option.isNone_iff_eq_none.1 (by decide +kernel))
    (Option.isNone_iff_eq_none.1 (by decide +kernel)) trivial trivial (.inr rfl) ⟨rfl, rfl⟩
  exact s8.both (a := .op 1 (.redirectLinks 1 2)) (b := .op 1 (.redirectLinks 1 2)) (op_allowed (by decide +kernel)) (op_allowed (by decide +kernel))
    trivial trivial (.inr rfl) (alikeCall_op (by decide +kernel) (by decide +kernel) ⟨rfl, rfl⟩ (by decide +kernel))

/-- C81: the hypotheses of `C81_program`, `C81_both`, `C81_commit` and most of `C81_returns` hold for it, and both commits return. -/
example : let w := run typed true World.init declProg
    let w2 := run typed2 true World.init declProg
    (∀ w c, AnyCall w c → SteadyBidirCalls typed w c) ∧
    Meets typed true AnyCall (graphAt w 0) (transAt w 1) ∧ Meets typed2 true AnyCall (graphAt w2 0) (transAt w2 1) ∧
    SteadyBidir typed (transAt w 1) (graphAt w 0).get? ∧ SteadyBidir typed2 (transAt w2 1) (graphAt w2 0).get? ∧
    SteadyAnnos typed (transAt w 1) (graphAt w 0).get? ∧ SteadyAnnos typed2 (transAt w2 1) (graphAt w2 0).get? ∧
    Alike (Equiv.refl NodeIndex) (graphAt w 0).get? (graphAt w2 0).get? ∧
    AlikePending (Equiv.refl NodeIndex) (transAt w 1).pending (transAt w2 1).pending ∧
    ((graphAt w 0).commit typed true (transAt w 1)).toOption.isSome = true ∧
    ((graphAt w2 0).commit typed2 true (transAt w2 1)).toOption.isSome = true ∧
    (graphAt w2 0).get? 1 = some (pB [3] 0) := by
  intro w w2
  have hst : ∀ w c, AnyCall w c → SteadyBidirCalls typed w c := fun w c _ => typed_noVec.steadyBidirCalls w c
  obtain ⟨hg, ht⟩ := C81_program (fun _ => rfl) typed_named typed2_redeclared hst declTwins
  refine ⟨hst, meets_of (reaches declProg (by decide +kernel)) 0 1 (by decide +kernel),
    meets_of (reaches declProg (by decide +kernel)) 0 1 (by decide +kernel), typed_noVec.steadyBidir _ _,
    (typed2_redeclared.tables typed_named).steadyBidir.2 (typed_noVec.steadyBidir _ _),
    (noVecAnnos_sound typed_named (by decide)).steady _ _,
    (noVecAnnos_sound (typed2_redeclared.named typed_named) (by decide)).steady _ _, ?_, ?_, by decide +kernel, by decide +kernel, by decide +kernel⟩
  · obtain ⟨c, e⟩ := graphAt_some (w := w) (h := 0) (by decide +kernel)
    obtain ⟨c2, e2⟩ := graphAt_some (w := w2) (h := 0) (by decide +kernel)
    exact (hg 0 c c2 _ _ rfl e e2).2
  · obtain ⟨c, e⟩ := transAt_some (w := w) (k := 1) (by decide +kernel)
    obtain ⟨c2, e2⟩ := transAt_some (w := w2) (k := 1) (by decide +kernel)
    exact (ht 1 c c2 _ _ (.inr rfl) e e2).2

/-- C81: the transaction makes sense for the graph, as `C81_returns` asks. -/
example : let w := run typed2 true World.init declProg
    Valid typed2 (graphAt w 0).get? (transAt w 1).pending := by
  intro w
  have hmu : (transAt w 1).pending.muts ++ (transAt w 1).pending.upds = [] := by decide +kernel
  have hre : (transAt w 1).pending.redir = [(1, 2)] := by decide +kernel
  have hra : (transAt w 1).pending.redirAll = [] := by decide +kernel
  refine ⟨?_, ?_, ?_, ?_, ?_, ?_, ?_⟩
  · intro i f hf
    rw [hmu] at hf
    exact absurd hf (by simp)
  · intro i hi
    exact absurd hi (show i ∉ ([] : List NodeIndex) by simp)
  · intro i f hf
    rw [hmu] at hf
    exact absurd hf (by simp)
  · intro old new ho
    rw [hre] at ho
    obtain ⟨rfl, -⟩ : old = 1 ∧ new = 2 := by simpa using ho
    exact Or.inl (by decide +kernel)
  · intro old new ho
    rw [hra] at ho
    exact absurd ho (by simp)
  · rw [hre]
    rintro ⟨a, b, hab, hc⟩
    obtain ⟨rfl, rfl⟩ : a = 1 ∧ b = 2 := by simpa using hab
    cases hc with
    | step h _ => exact absurd h (by simp)
  · rw [hra]
    rintro ⟨a, b, hab, _⟩
    exact absurd hab (by simp)

/-! ### Why `C81_returns` asks that a field has one opposite on a variant -/

/-- `P { p: NodeIndex }` (3: 30), `A { f: NodeIndex, s: NodeIndex }` (1: 10, 11), `B { h: Set, g: Set }` (2: 20, 21) with `A.f <-> B.h`,
`A.f <-> B.g` and `A.s <-> B.h`. -/
def twoWays : Schema :=
  { variants := [(1, ⟨[lnk 10 .direct, lnk 11 .direct], []⟩), (2, ⟨[lnk 20 .set, lnk 21 .set], []⟩), (3, ⟨[lnk 30 .direct], []⟩)],
    bidirs := [⟨1, 10, 2, 20⟩, ⟨1, 10, 2, 21⟩, ⟨1, 11, 2, 20⟩] }

/-- The same with `P` first. -/
def twoWays2 : Schema :=
  { twoWays with variants := [(3, ⟨[lnk 30 .direct], []⟩), (1, ⟨[lnk 10 .direct, lnk 11 .direct], []⟩), (2, ⟨[lnk 20 .set, lnk 21 .set], []⟩)] }

/-- Node 1 is a `P`; node 2 is an `A` with both links to it, node 3 is a `P` with a link to it; node 4 is a `B`.  Then node 3 is removed, and
the links to node 1 are redirected to node 4. -/
def twoWaysProg : List Step :=
  [.call (.newContext 0 77), .call (.newGraph 0 0), .call (.newTrans 0 0), .call (.op 0 (.insert ⟨3, [.direct 0], []⟩)),
   .call (.op 0 (.insert ⟨1, [.direct 1, .direct 1], []⟩)), .call (.op 0 (.insert ⟨3, [.direct 1], []⟩)),
   .call (.op 0 (.insert ⟨2, [.set (setOf []), .set (setOf [])], []⟩)), .call (.commit 0 0),
   .call (.newTrans 1 0), .call (.op 1 (.remove 3)), .call (.commit 0 1), .call (.newTrans 2 0), .call (.op 2 (.redirectLinks 1 4))]

/-- With two possible opposites the order of the variants can decide whether a commit panics: here it does with `P` last and returns with `P`
first. -/
theorem C81_choice_differ : Redeclared twoWays twoWays2 ∧ WellNamed twoWays ∧ DeclaredOnce twoWays ∧ ¬ OneOpposite twoWays ∧
    Reaches twoWays true AnyCall (run twoWays true World.init twoWaysProg) ∧ Reaches twoWays2 true AnyCall (run twoWays2 true World.init twoWaysProg) ∧
    (graphAt (run twoWays true World.init twoWaysProg) 0).commit twoWays true (transAt (run twoWays true World.init twoWaysProg) 2) = .error .multiChoice ∧
    ((graphAt (run twoWays2 true World.init twoWaysProg) 0).commit twoWays2 true (transAt (run twoWays2 true World.init twoWaysProg) 2)).toOption.isSome =
      true := by
  have hn : WellNamed twoWays := wellNamed_sound (by decide)
  refine ⟨redeclared_sound (by decide +kernel), hn, declaredOnce_sound hn (by decide +kernel), fun h => ?_,
    reaches twoWaysProg (by decide +kernel), reaches twoWaysProg (by decide +kernel), panic_of (by decide +kernel), by decide +kernel⟩
  have h1 : Opposite twoWays ⟨1, 0⟩ ⟨2, 0⟩ := (Schema.mem_mirrorsOf hn).1 (by decide +kernel)
  have h2 : Opposite twoWays ⟨1, 0⟩ ⟨2, 1⟩ := (Schema.mem_mirrorsOf hn).1 (by decide +kernel)
  exact absurd (h _ _ _ h1 h2 rfl) (by decide)

end TTGraph.Demo
