import Verif.Spec.Split
import Verif.Lemmas.Split
import Verif.Props.Feature

/-!
# C71: cutting a transaction in two
-/

set_option autoImplicit false

namespace TTGraph
open Spec

section
variable [SetImpl] {S : Schema} {dbg : Bool}

/-- The operations of the two pieces, one after the other. -/
theorem Spec.Cut.operate {t t1 t2 : Trans} (h : Cut t t1 t2) (g : Graph) :
    Graph.operateOff S g t = (Graph.operateOff S g t1).bind fun g1 => Graph.operateOff S g1 t2 := by
  have hbind : ∀ {α β : Type} (a : α) (f : α → Except Panic β), (Except.ok a : Except Panic α).bind f = f a := fun _ _ => rfl
  have hassoc : ∀ {α β γ : Type} (x : Except Panic α) (f : α → Except Panic β) (k : β → Except Panic γ),
      (x.bind f).bind k = x.bind fun a => (f a).bind k := fun x _ _ => by cases x <;> rfl
  have hok : ∀ {α : Type} (x : Except Panic α), x.bind Except.ok = x := fun x => by cases x <;> rfl
  simp only [Graph.operateOff_chain]
  cases h with
  | redirected => simp only [Trans.new, Graph.opMerge_new, Graph.opRedir_nil, Graph.opMuts_nil, Graph.opUpds_nil, Graph.opRemoves_nil, hbind, hassoc, OrderSet.empty]
  | inserted => simp only [Trans.new, Graph.opMerge_new, Graph.opRedir_nil, Graph.opMuts_nil, Graph.opUpds_nil, Graph.opRemoves_nil, hbind, hassoc, OrderSet.empty]
  | mutated l1 l2 e =>
    simp only [e, Graph.opMuts_append, Trans.new, Graph.opMerge_new, Graph.opRedir_nil, Graph.opUpds_nil, Graph.opRemoves_nil, hbind, hassoc, OrderSet.empty]
  | updated l1 l2 e =>
    simp only [e, Graph.opUpds_append, Trans.new, Graph.opMerge_new, Graph.opRedir_nil, Graph.opMuts_nil, Graph.opRemoves_nil, hbind, hassoc, OrderSet.empty]
  | removed s1 s2 e =>
    have : Graph.opRemoves t.dec.elems = fun g => (Graph.opRemoves s1.elems g).bind (Graph.opRemoves s2.elems) := by
      funext g
      rw [e, Graph.opRemoves_append]
    simp only [this, Trans.new, Graph.opMerge_new, Graph.opRedir_nil, Graph.opMuts_nil, Graph.opUpds_nil, hbind, hassoc]

/-- Without the feature `debug`, and so without completion of opposite links and without the check of link types (C68), a transaction may be committed
in pieces for all declarations: the result is the same graph, or the same panic. -/
theorem C71_off {t t1 t2 : Trans} (h : Cut t t1 t2) (hf : t.allocs.isEmpty = true) (g : Graph) :
    g.commitOff S dbg t = match g.commitOff S dbg t1 with
      | .error e => .error e
      | .ok g1 => g1.commitOff S dbg t2 := by
  have hoff : ∀ (g : Graph) (t : Trans), g.commitOff S dbg t =
      if dbg && decide (t.ctxId ≠ g.ctxId) then .error .ctxMismatch
      else if dbg && !t.allocs.isEmpty then .error .unfilledAlloc
      else Graph.operateOff S g t := fun g t => by
    rw [Graph.commitOff_eq, Graph.operateOff_eq]
  have hctx : t1.ctxId = t.ctxId ∧ t2.ctxId = t.ctxId := by cases h <;> exact ⟨rfl, rfl⟩
  have hal : t1.allocs.isEmpty = true ∧ t2.allocs.isEmpty = true := by cases h <;> first | exact ⟨rfl, hf⟩ | exact ⟨rfl, rfl⟩
  rw [hoff g t, hoff g t1, hctx.1, hf, hal.1]
  by_cases hc : (dbg && decide (t.ctxId ≠ g.ctxId)) = true
  · simp only [hc, if_true]
  · simp only [hc, if_false, Bool.not_true, Bool.and_false, Bool.false_eq_true, h.operate]
    cases h1 : Graph.operateOff S g t1 with
    | error e => rfl
    | ok g1 =>
      simp only [Except.bind]
      have hg : g1.ctxId = g.ctxId := Graph.operateOff_ctx t1 g g1 h1
      rw [hoff g1 t2, hctx.2, hg, hal.2]
      simp only [hc, if_false, Bool.not_true, Bool.and_false, Bool.false_eq_true]

/-- Without `bidirectional!` and `link_type!`, a transaction may be committed in pieces: the result is the same graph, or the same panic.

Full statement of C71: the same for all declarations.  That is false, see below. -/
theorem C71_cut_partial (hw : WellNamed S) (hb : ∀ m m', ¬ Opposite S m m') (ha : ∀ m d, AllAccept S m d) {t t1 t2 : Trans} (h : Cut t t1 t2)
    (hf : t.allocs.isEmpty = true) (g : Graph) :
    g.commit S dbg t = match g.commit S dbg t1 with
      | .error e => .error e
      | .ok g1 => g1.commit S dbg t2 := by
  simp only [← C68_commit_partial hw hb ha]
  exact C71_off h hf g

/-- Without `bidirectional!`, the same if none of the three commits panics because of the type of a link.

Full statement of C71: the same for all declarations and without the condition on link types. -/
theorem C71_types_partial (hw : WellNamed S) (hb : ∀ m m', ¬ Opposite S m m') {t t1 t2 : Trans} (h : Cut t t1 t2) (hf : t.allocs.isEmpty = true)
    (g : Graph) (h0 : g.commit S dbg t ≠ .error .linkType) (h1 : g.commit S dbg t1 ≠ .error .linkType)
    (h2 : ∀ g1, g.commit S dbg t1 = .ok g1 → g1.commit S dbg t2 ≠ .error .linkType) :
    g.commit S dbg t = match g.commit S dbg t1 with
      | .error e => .error e
      | .ok g1 => g1.commit S dbg t2 := by
  have off : ∀ (g : Graph) (t : Trans), g.commit S dbg t ≠ .error .linkType → g.commit S dbg t = g.commitOff S dbg t := fun g t hn =>
    ((C68_types_partial hw hb g t).resolve_left hn).symm
  rw [off g t h0, C71_off h hf g, off g t1 h1]
  cases hc : g.commitOff S dbg t1 with
  | error e => rfl
  | ok g1 => exact (off g1 t2 (h2 g1 (by rw [off g t1 h1, hc]))).symm

/-- Without `bidirectional!`: if the pieces can be committed one after the other and the links of the result are well typed (which C27 guarantees for
programs that keep to its conditions), the whole transaction can be committed, with this result.

Full statement of C71: the same for all declarations, and the converse. -/
theorem C71_whole_partial {R : World → Call → Prop} (hw : WellNamed S) (hb : ∀ m m', ¬ Opposite S m m') {t t1 t2 : Trans} (h : Cut t t1 t2)
    (hf : t.allocs.isEmpty = true) {g g1 g2 : Graph} (hm : Meets S dbg R g t) (hs : SteadyAnnos S t g.get?)
    (h1 : g.commit S dbg t1 = .ok g1) (h2 : g1.commit S dbg t2 = .ok g2) (hty : WellTyped S g2.get?) : g.commit S dbg t = .ok g2 := by
  have off : ∀ {g g' : Graph} {t : Trans}, g.commit S dbg t = .ok g' → g.commitOff S dbg t = .ok g' := fun {g g' t} hc => by
    rcases C68_types_partial (dbg := dbg) hw hb g t with hn | hn
    · rw [hc] at hn; exact absurd hn (by simp)
    · rw [hn, hc]
  have hoff : g.commitOff S dbg t = .ok g2 := by rw [C71_off h hf g, off h1]; exact off h2
  rcases Graph.commit_eq_off (S := S) dbg g t with ⟨e', k1, _⟩ | ⟨g6, r6, k1, k2, _, _, k3⟩
  · rw [hoff] at k1; exact absurd k1 (by simp)
  · rw [hoff, Except.ok.injEq] at k1
    subst k1
    have out := Graph.perform_out hw.variants (hm.inv hw) (hm.ready hw).good (hm.disjoint hw).1 (hm.ready hw).noFrom k2
    rw [k3, Graph.applyBidirectional_none hw hb]
    simp only
    rw [Graph.checkLinkType_ok.2 fun c hcr n hn => ?_]
    rcases hs c.1 c.2.2 c.2.1 with h4 | h4
    · exact Schema.checkLinkType_of_accept hw (hty _ _ _ n ((out.adds h4).1 hcr).2.1 hn)
    · exact Schema.checkLinkType_of_accept hw (h4 _)

end
end TTGraph

namespace TTGraph
namespace Demo
open Spec

/-- Four nodes, and a transaction with operations of all kinds: 2 is redirected to a new node, 3 to 1, two nodes are changed and one is removed. -/
def mixed5 : List Step :=
  [.call (.newContext 0 77), .call (.newGraph 0 0), .call (.newTrans 0 0), .call (.op 0 (.insert (nB 0))), .call (.op 0 (.insert (nB 1))),
   .call (.op 0 (.insert (nA 1 [2] [3] 5))), .call (.op 0 (.insert (nB 2))), .call (.commit 0 0), .call (.newTrans 1 0),
   .call (.op 1 (.insert (nB 3))), .call (.op 1 (.redirectLinks 2 5)), .edit 1 1 (nB 4), .edit 1 2 (nB 3), .call (.op 1 (.redirectAllLinks 3 1)),
   .call (.op 1 (.remove 4))]

/-- C71: the transaction, cut after its first mutation. -/
example : let w := run plain true World.init mixed5
    let t := transAt w 1
    WellNamed plain ∧ (∀ m m', ¬ Opposite plain m m') ∧ (∀ m d, AllAccept plain m d) ∧ t.allocs.isEmpty = true ∧
    Cut t { Trans.new t.ctxId with redir := t.redir, inc := t.inc, muts := t.muts.take 1 } { t with redir := [], inc := Arena.new, muts := t.muts.drop 1 } ∧
    t.muts.length = 2 ∧ t.redir = [(2, 5)] ∧ t.redirAll = [(3, 1)] ∧ t.dec.elems = [4] ∧
    ∃ g', (graphAt w 0).commit plain true t = .ok g' ∧ g'.get? 3 = some (nA 1 [5] [1] 5) ∧ g'.get? 2 = some (nB 1) ∧ g'.get? 1 = some (nB 0) :=
  ⟨plain_named, fun _ _ ⟨_, h, _⟩ => (nomatch h), fun _ _ _ h => (nomatch h), by decide +kernel, .mutated _ _ (List.take_append_drop 1 _).symm,
    by decide +kernel, by decide +kernel, by decide +kernel, by decide +kernel, _, got_ok (d := Graph.new 0) (by decide +kernel), by decide +kernel⟩

/-- `plain` with the annotation `A.f : {B}`. -/
def annotated : Schema := { plain with annos := [⟨1, 10, [2]⟩] }

theorem annotated_named : WellNamed annotated := wellNamed_sound (by decide)

/-- `WellTyped` by evaluation. -/
def typedGraph (S : Schema) (g : Graph) : Bool :=
  (g.nodes.entries S).all fun e => e.2.iterSources.all fun p => match g.get? p.1 with
    | none => true
    | some n => S.checkLinkType n.disc p.2.mirror && decide (n.disc ∈ S.discs)

theorem typedGraph_sound {S : Schema} {e0 : Prop} {g : Graph} (hw : WellNamed S) (ha : AnnotatedOnce S) (h : g.Inv S e0) (hk : typedGraph S g = true) :
    WellTyped S g.get? := by
  rintro x m y n ⟨n0, hn0, s, hs⟩ hn
  simp only [typedGraph, List.all_eq_true] at hk
  have := hk (x, n0) ((Arena.mem_entries h.arena).2 hn0) (y, ⟨m.disc, m.pos, s⟩) (Node.mem_iterSources.2 hs)
  simp only [hn, Bool.and_eq_true, decide_eq_true_eq] at this
  exact Schema.accept_of_checkLinkType hw ha this.2 this.1

theorem mixed5_meets : Meets annotated true AnyCall (graphAt (run annotated true World.init mixed5) 0) (transAt (run annotated true World.init mixed5) 1) :=
  meets_of (reaches mixed5 (by decide +kernel)) 0 1 (by decide +kernel)

/-- `C71_types_partial` and `C71_whole_partial` when all commits return. -/
theorem cut_pieces [SetImpl] {S : Schema} {dbg : Bool} {R : World → Call → Prop} (hw : WellNamed S) (ha : AnnotatedOnce S) (hv : NoVecAnnos S)
    (hb : ∀ m m', ¬ Opposite S m m') {t t1 t2 : Trans} (h : Cut t t1 t2) (hf : t.allocs.isEmpty = true) {g g1 g2 g' : Graph} (hm : Meets S dbg R g t)
    (h0 : g.commit S dbg t = .ok g') (h1 : g.commit S dbg t1 = .ok g1) (h2 : g1.commit S dbg t2 = .ok g2) (hk : typedGraph S g2 = true) :
    ∃ g1 g2, Cut t t1 t2 ∧ SteadyAnnos S t g.get? ∧ g.commit S dbg t1 = .ok g1 ∧ g1.commit S dbg t2 = .ok g2 ∧ WellTyped S g2.get? ∧
      g.commit S dbg t = .ok g2 := by
  have heq := C71_types_partial hw hb h hf g (by rw [h0]; simp) (by rw [h1]; simp)
    (fun g1 e => by rw [h1, Except.ok.injEq] at e; subst e; rw [h2]; simp)
  rw [h1] at heq
  simp only [h2] at heq
  obtain ⟨v6, out⟩ := hm.commit hw heq
  have hty := typedGraph_sound hw ha out.inv hk
  exact ⟨g1, g2, h, hv.steady _ _, h1, h2, hty, C71_whole_partial hw hb h hf hm (hv.steady _ _) h1 h2 hty⟩

/-- The same transaction with an annotation, cut after its first mutation: the pieces return, and the hypotheses of `C71_types_partial` and
`C71_whole_partial` are met. -/
example : let g := graphAt (run annotated true World.init mixed5) 0
    let t := transAt (run annotated true World.init mixed5) 1
    let t1 : Trans := { Trans.new t.ctxId with redir := t.redir, inc := t.inc, muts := t.muts.take 1 }
    let t2 : Trans := { t with redir := [], inc := Arena.new, muts := t.muts.drop 1 }
    ∃ g1 g2, Cut t t1 t2 ∧ SteadyAnnos annotated t g.get? ∧ g.commit annotated true t1 = .ok g1 ∧ g1.commit annotated true t2 = .ok g2 ∧
      WellTyped annotated g2.get? ∧ g.commit annotated true t = .ok g2 :=
  cut_pieces annotated_named (annotatedOnce_sound annotated_named (by decide)) (noVecAnnos_sound annotated_named (by decide))
    (fun _ _ ⟨_, h, _⟩ => (nomatch h)) (.mutated _ _ (List.take_append_drop 1 _).symm) (by decide +kernel) mixed5_meets
    (got_ok (d := Graph.new 0) (by decide +kernel)) (got_ok (d := Graph.new 0) (by decide +kernel)) (got_ok (d := Graph.new 0) (by decide +kernel))
    (by decide +kernel)

/-- C71 fails with `bidirectional!`: a new node takes the place of 1, which is removed.  In two commits the new node comes too early: the direct
field of 4 still holds 1. -/
theorem C71_bidirectional_fails : ∃ g t t1 t2 g', Meets pair true SoundKeep g t ∧ Cut t t1 t2 ∧ g.commit pair true t = .ok g' ∧
    g'.get? 4 = some (pB [3] 5) ∧ g'.get? 1 = none ∧ g.commit pair true t1 = .error .addOnExisting :=
  ⟨_, _, _, _, _, meets_of (reaches_soundKeep pair_named (pair4 ++ [.call (.op 1 (.insert (pA 0 [4]))), .call (.op 1 (.remove 1))]) (by decide +kernel)) 0 1
    (by decide +kernel), .inserted, got_ok (d := Graph.new 0) (by decide +kernel), by decide +kernel, by decide +kernel, panic_of (by decide +kernel)⟩

/-- C71 fails with `link_type!`: a link to a node of the wrong variant is made by a mutation and undone by the next one.  Between the two it is an
error. -/
theorem C71_types_fails : ∃ g t t1 t2 g', Meets typed true SoundKeep g t ∧ Cut t t1 t2 ∧ g.commit typed true t = .ok g' ∧
    g.commit typed true t1 = .error .linkType :=
  ⟨_, _, _, _, _, meets_of (reaches_soundKeep typed_named (pair4 ++ [.edit 1 1 (pA 3 [4]), .edit 1 1 (pA 2 [4])]) (by decide +kernel)) 0 1
    (by decide +kernel), .mutated _ _ (List.take_append_drop 1 _).symm, got_ok (d := Graph.new 0) (by decide +kernel), panic_of (by decide +kernel)⟩

end Demo
end TTGraph
