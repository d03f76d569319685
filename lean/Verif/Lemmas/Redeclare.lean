import Verif.Lemmas.Groups
import Verif.Lemmas.Declare
import Verif.Model.Compile
import Verif.Spec.History

/-!
# The same program with the declarations in another order
-/

set_option autoImplicit false

namespace TTGraph
open Spec

namespace Graph
section
variable [SetImpl] {S S' : Schema} {e0 : Prop}

omit [SetImpl] in
theorem _root_.TTGraph.Spec.Redeclared.inv (h : Redeclared S S') (hw : WellNamed S) {g : Graph} (hg : g.Inv S e0) : g.Inv S' e0 where
  arena := ⟨hg.arena.home, fun i d hd => h.mem_discs.2 (hg.arena.decl i d hd)⟩
  known := hg.known
  recd := hg.recd
  exact := hg.exact
  noEmpty := hg.noEmpty
  wt := fun x n hn => (h.wt hw n).2 (hg.wt x n hn)

omit [SetImpl] in
theorem redeclared_sameOpp (h : Redeclared S S') (hw : WellNamed S) : SameOpp S S' := by
  refine ⟨fun v c m => ?_, fun v c m => ?_⟩
  · simp only [View.Opp, (h.opposites hw _ _).mem_iff]
  · simp only [View.OnlyOpp]
    refine and_congr Iff.rfl (exists_congr fun n => and_congr Iff.rfl ⟨fun e => ?_, fun e => ?_⟩)
    · have := h.opposites hw c.2.2 n.disc
      rw [e] at this
      exact List.perm_singleton.1 this.symm
    · have := h.opposites hw c.2.2 n.disc
      rw [e] at this
      exact List.perm_singleton.1 this

/-- One commit, if the variants are in the same order. -/
theorem commit_redeclared (hw : WellNamed S) (he : Redeclared S S') (hv : S'.variants = S.variants) {dbg : Bool} {g : Graph} {t : Trans}
    (h : g.Inv S e0) (ht : t.Good S) (hdis : g.nodes.Disjoint t.inc) (hz : t.NoFromEmpty) :
    (∃ g1 g1', g.commit S dbg t = .ok g1 ∧ g.commit S' dbg t = .ok g1' ∧ View.Same g1.get? g1'.get?) ∨
      ∃ e, g.commit S dbg t = .error e ∧ g.commit S' dbg t = .error e := by
  have hperf : perform S' g t = perform S g t := by
    simp only [perform, mergeNodes, Arena.entries, Schema.discs, hv]
  simp only [commit, doCommit_eq, hperf]
  by_cases h1 : (dbg && decide (t.ctxId ≠ g.ctxId)) = true
  · simp only [h1, if_true]; exact Or.inr ⟨_, rfl, rfl⟩
  · simp only [h1, if_false, Bool.false_eq_true]
    by_cases h2 : (dbg && !t.allocs.isEmpty) = true
    · simp only [h2, if_true]; exact Or.inr ⟨_, rfl, rfl⟩
    · simp only [h2, if_false, Bool.false_eq_true]
      cases hp : perform S g t with
      | error e => exact Or.inr ⟨e, rfl, rfl⟩
      | ok st =>
        obtain ⟨g6, r6⟩ := st
        have out := perform_out hw.variants h ht hdis hz hp
        rcases applyBidirectional_sim (redeclared_sameOpp he hw) (he.kind? hw) out.inv (he.inv hw out.inv) r6 with
          ⟨g1, g1', a1, b1, hk, hs⟩ | ⟨e, a1, b1⟩
        · have hdisc : ∀ x n, g1.get? x = some n → n.disc ∈ S.discs := by
            intro x n hn
            obtain ⟨sd, hsd, _⟩ := hk.inv.wt x n hn
            exact Schema.mem_discs.2 ⟨sd, (Schema.struct?_iff hw).1 hsd⟩
          have hc := checkLinkType_sim (fun m d _ => he.checkLinkType hw d m) hs hdisc r6
          simp only [a1, b1, hc]
          cases hct : checkLinkType S g1 r6 with
          | error e => exact Or.inr ⟨e, rfl, rfl⟩
          | ok _ => exact Or.inl ⟨g1, g1', rfl, rfl, hs⟩
        · simp only [a1, b1]
          exact Or.inr ⟨e, rfl, rfl⟩

end

/-! ### Equal tables -/

section
variable [SetImpl] {S S' : Schema}

theorem bdRemoveOne_congr (hk : ∀ m, S'.kind? m = S.kind? m) : bdRemoveOne S' = bdRemoveOne S := by
  funext x y g m
  simp only [bdRemoveOne, Schema.toSource, hk]

theorem bdRemove_congr (hk : ∀ m, S'.kind? m = S.kind? m) (ho : ∀ m d, S'.opposites m d = S.opposites m d) : bdRemove S' = bdRemove S := by
  funext g c
  simp only [bdRemove, bdRemoveOne_congr hk, ho]

theorem bdAdd_congr (hk : ∀ m, S'.kind? m = S.kind? m) (ho : ∀ m d, S'.opposites m d = S.opposites m d) : bdAdd S' = bdAdd S := by
  funext g c
  simp only [bdAdd, Schema.toSource, hk, ho]

theorem applyBidirectional_congr (hk : ∀ m, S'.kind? m = S.kind? m) (ho : ∀ m d, S'.opposites m d = S.opposites m d) :
    applyBidirectional S' = applyBidirectional S := by
  funext g r
  simp only [applyBidirectional, bdRemove_congr hk ho, bdAdd_congr hk ho]

theorem bdRemovesLeft_congr (hk : ∀ m, S'.kind? m = S.kind? m) (ho : ∀ m d, S'.opposites m d = S.opposites m d) (l : List Change) :
    ∀ g, bdRemovesLeft S' g l = bdRemovesLeft S g l := by
  induction l with
  | nil => intro g; rfl
  | cons c cs ih => intro g; simp only [bdRemovesLeft, bdRemove_congr hk ho, ih, bdRemoveOne_congr hk, ho]

omit [SetImpl] in
theorem checkLinkType_congr (ht : ∀ d m, S'.checkLinkType d m = S.checkLinkType d m) : checkLinkType S' = checkLinkType S := by
  funext g r
  simp only [checkLinkType, ht]

theorem doCommit_congr (hd : S'.discs = S.discs) (hk : ∀ m, S'.kind? m = S.kind? m) (ho : ∀ m d, S'.opposites m d = S.opposites m d) :
    doCommit S' = doCommit S := by
  funext dbg g t
  simp only [doCommit, mergeNodes, Arena.entries, hd, applyBidirectional_congr hk ho]

/-- Every call does the same. -/
theorem _root_.TTGraph.World.exec_congr (hd : S'.discs = S.discs) (hk : ∀ m, S'.kind? m = S.kind? m) (ho : ∀ m d, S'.opposites m d = S.opposites m d)
    (ht : ∀ d m, S'.checkLinkType d m = S.checkLinkType d m) (dbg : Bool) (w : World) (c : Call) : w.exec S' dbg c = w.exec S dbg c := by
  have hent : ∀ a : Arena, a.entries S' = a.entries S := fun a => by simp only [Arena.entries, hd]
  have hc : ∀ g t, commit S' dbg g t = commit S dbg g t := fun g t => by
    simp only [commit, doCommit_congr hd hk ho, checkLinkType_congr ht]
  have hcc : ∀ g t ch, commitChecked S' dbg g t ch = commitChecked S dbg g t ch := fun g t ch => by
    simp only [commitChecked, doCommit_congr hd hk ho, checkLinkType_congr ht]
  have hl : ∀ g t, commitLeft S' dbg g t = commitLeft S dbg g t := fun g t => by
    simp only [commitLeft, commitLeftWith, mergeNodes, hent, bidirLeft, bdRemove_congr hk ho, bdAdd_congr hk ho, bdRemovesLeft_congr hk ho]
  have hsi : ∀ g cnt, switchInsert S' g cnt = switchInsert S g cnt := fun g cnt => by simp only [switchInsert, iter, hent]
  have hsc : ∀ g u cnt, switchContext S' g u cnt = switchContext S g u cnt := fun g u cnt => by
    simp only [switchContext, switchNodes, hsi, mergeNodes, hent, applyBidirectional_congr hk ho, checkLinkType_congr ht]
  have hde : ∀ i, deserializeGraph S' i = deserializeGraph S i := fun i => by
    simp only [deserializeGraph, doDeserialize, mergeNodes, hent, applyBidirectional_congr hk ho, checkLinkType_congr ht]
  cases c <;> simp only [World.exec, hc, hcc, hl, hsi, hsc, hde]

end
end Graph

/-! ### What compiles and what programs may do -/

section
variable {S S' : Schema}

theorem Schema.mem_bidirRefs {r : Ident × Ident} : r ∈ S.bidirRefs ↔ ∃ e ∈ S.expandedBidirs,
    (e.var1 ∈ S.discs ∧ (r = (e.var1, e.link1) ∨ r = (e.var2, e.link2))) ∨ (e.var2 ∈ S.discs ∧ (r = (e.var2, e.link2) ∨ r = (e.var1, e.link1))) := by
  simp only [Schema.bidirRefs, Schema.bLinkNames, List.mem_flatMap, List.mem_dedup, List.mem_cons, Schema.mem_bLinks, List.mem_append]
  constructor
  · rintro ⟨v, hv, l, ⟨e, he, h1⟩, rfl | ⟨e', he', h2⟩⟩
    · rcases h1 with h1 | h1
      · split at h1
        · rename_i hv1
          obtain rfl := List.mem_singleton.1 h1
          exact ⟨e, he, Or.inl ⟨hv1 ▸ hv, Or.inl (by rw [hv1])⟩⟩
        · exact absurd h1 (by simp)
      · split at h1
        · rename_i hv1
          obtain rfl := List.mem_singleton.1 h1
          exact ⟨e, he, Or.inr ⟨hv1 ▸ hv, Or.inl (by rw [hv1])⟩⟩
        · exact absurd h1 (by simp)
    · rcases h2 with ⟨rfl, rfl, rfl⟩ | ⟨rfl, rfl, rfl⟩
      · exact ⟨e', he', Or.inl ⟨hv, Or.inr rfl⟩⟩
      · exact ⟨e', he', Or.inr ⟨hv, Or.inr rfl⟩⟩
  · rintro ⟨e, he, ⟨hv, hr⟩ | ⟨hv, hr⟩⟩
    · refine ⟨e.var1, hv, e.link1, ⟨e, he, Or.inl (by simp)⟩, ?_⟩
      rcases hr with rfl | rfl
      · exact Or.inl rfl
      · exact Or.inr ⟨e, he, Or.inl ⟨rfl, rfl, rfl⟩⟩
    · refine ⟨e.var2, hv, e.link2, ⟨e, he, Or.inr (by simp)⟩, ?_⟩
      rcases hr with rfl | rfl
      · exact Or.inl rfl
      · exact Or.inr ⟨e, he, Or.inr ⟨rfl, rfl, rfl⟩⟩

theorem Spec.Redeclared.mem_expandedBidirs (h : Redeclared S S') (hw : WellNamed S) {e : BidirDecl} (he : e ∈ S'.expandedBidirs) :
    e ∈ S.expandedBidirs ∨ turned e ∈ S.expandedBidirs := by
  obtain ⟨b, hb, h1, h2, h3, h4⟩ := Schema.mem_expandedBidirs.1 he
  rw [h.expandVar hw] at h1 h3
  rcases (h.bidirs b).1 (Or.inl hb) with hb' | hb'
  · exact Or.inl (Schema.mem_expandedBidirs.2 ⟨b, hb', h1, h2, h3, h4⟩)
  · exact Or.inr (Schema.mem_expandedBidirs.2 ⟨turned b, hb', h3, h4, h1, h2⟩)

theorem Spec.Redeclared.bidirRefs (h : Redeclared S S') (hw : WellNamed S) {r : Ident × Ident} (hr : r ∈ S'.bidirRefs) : r ∈ S.bidirRefs := by
  obtain ⟨e, he, h1⟩ := Schema.mem_bidirRefs.1 hr
  simp only [h.mem_discs] at h1
  rcases h.mem_expandedBidirs hw he with he' | he'
  · exact Schema.mem_bidirRefs.2 ⟨e, he', h1⟩
  · exact Schema.mem_bidirRefs.2 ⟨turned e, he', h1.symm⟩

theorem Spec.Redeclared.usedAnnos (h : Redeclared S S') (hw : WellNamed S) {a : TypeAnno} (ha : a ∈ S'.usedAnnos) : a ∈ S.usedAnnos := by
  simp only [Schema.usedAnnos, Schema.expandedAnnos, List.mem_filter, List.mem_flatMap, h.annos, h.expandVar hw, h.mem_discs,
    show S'.expandVar = S.expandVar from funext (h.expandVar hw)] at ha ⊢
  exact ha

theorem Spec.Redeclared.compiles (h : Redeclared S S') (hw : WellNamed S) {nm : Naming} (hc : S.Compiles nm) : S'.Compiles nm := by
  obtain ⟨h1, h2, ⟨h3, h4⟩, h5, h6, h7, h8, h9⟩ := hc
  have hres : ∀ r, S'.resolves nm r = S.resolves nm r := fun r => by simp only [Schema.resolves, h.struct? hw]
  have hgr : ∀ v, v ∈ S'.discs ++ S'.groups.map Prod.fst ↔ v ∈ S.discs ++ S.groups.map Prod.fst := fun v => by
    simp only [List.mem_append, h.mem_discs, List.mem_map, h.mem_groups]
  refine ⟨fun e => h1 ?_, h.discs.nodup_iff.2 h2, ⟨(h.discs.map _).nodup_iff.2 h3, fun d hd => h4 d (h.mem_discs.1 hd)⟩,
    fun v hv => h5 v (h.mem_variants.1 hv), fun g hg => ⟨(h6 g (h.mem_groups.1 hg)).1, fun i hi => h.mem_discs.2 ((h6 g (h.mem_groups.1 hg)).2 i hi)⟩,
    fun b hb => ?_, fun r hr => ?_, fun a ha => ?_⟩
  · have := h.discs
    rw [e] at this
    exact List.nil_perm.1 this
  · rw [hgr, hgr]
    rcases (h.bidirs b).1 (Or.inl hb) with hb' | hb'
    · exact h7 b hb'
    · exact (h7 _ hb').symm
  · rw [hres]; exact h8 r (h.bidirRefs hw hr)
  · rw [hres]
    obtain ⟨a1, a2, a3⟩ := h9 a (h.usedAnnos hw ha)
    exact ⟨a1, a2, fun v hv => h.mem_discs.2 (a3 v hv)⟩

theorem Spec.Redeclared.allowed (h : Redeclared S S') (hw : WellNamed S) {w : World} {c : Call} : c.Allowed S' w ↔ c.Allowed S w := by
  have hop : ∀ (t : Trans) (o : TOp), o.Allowed S' t ↔ o.Allowed S t := fun t o => by
    cases o <;> simp only [TOp.Allowed, Closure.Typed, h.wt hw, h.mem_discs]
  cases c <;> simp only [Call.Allowed, hop, h.wt hw]

end
end TTGraph
