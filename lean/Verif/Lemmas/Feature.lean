import Verif.Model.Feature
import Verif.Lemmas.CommitSpec
import Verif.Lemmas.Frame

/-!
# The graph does not depend on the record
-/

set_option autoImplicit false

namespace TTGraph
namespace Graph
open Spec

section
variable {S : Schema}

/-- The first component of a step does not depend on the second one of its argument. -/
theorem foldE_fst {α β γ : Type} {f : α × β → γ → Except Panic (α × β)} {h : α → γ → Except Panic α}
    (hf : ∀ a b c, (f (a, b) c).map Prod.fst = h a c) (l : List γ) (a : α) (b : β) : (foldE f (a, b) l).map Prod.fst = foldE h a l := by
  induction l generalizing a b with
  | nil => rfl
  | cons c l ih =>
    simp only [foldE]
    have := hf a b c
    cases hc : f (a, b) c with
    | error e => rw [hc] at this; rw [← this]; rfl
    | ok st => rw [hc] at this; rw [← this]; exact ih st.1 st.2

theorem mergeNodes_fst (g : Graph) (a : Arena) (r r' : Lcr) : (mergeNodes S g a r).1 = (mergeNodes S g a r').1 := by
  have key : ∀ (l : List (NodeIndex × Node)) (b : Back) (r r' : Lcr),
      (l.foldl (fun (st : Back × Lcr) e => (addBackLinks st.1 e.1 e.2, recordAll st.2 e.1 e.2)) (b, r)).1 =
      (l.foldl (fun (st : Back × Lcr) e => (addBackLinks st.1 e.1 e.2, recordAll st.2 e.1 e.2)) (b, r')).1 := by
    intro l
    induction l with
    | nil => intros; rfl
    | cons e l ih => intro b r r'; exact ih _ _ _
  simp only [mergeNodes]
  rw [key _ g.back r r']

theorem unlinkSources_fst (x : NodeIndex) (b : Back) (r r' : Lcr) (l : List (NodeIndex × Source)) :
    (unlinkSources x (b, r) l).map Prod.fst = (unlinkSources x (b, r') l).map Prod.fst := by
  have h : ∀ r, (unlinkSources x (b, r) l).map Prod.fst = foldE (fun b p => b.unlink p.1 (x, p.2)) b l := fun r =>
    foldE_fst (fun a b c => by simp only; cases a.unlink c.1 (x, c.2) <;> rfl) l b r
  rw [h, h]

theorem linkSources_fst (x : NodeIndex) (b : Back) (r r' : Lcr) (l : List (NodeIndex × Source)) :
    (linkSources x (b, r) l).map Prod.fst = (linkSources x (b, r') l).map Prod.fst := by
  have h : ∀ r, (linkSources x (b, r) l).map Prod.fst = foldE (fun b p => b.linkKnown p.1 (x, p.2)) b l := fun r =>
    foldE_fst (fun a b c => by simp only; cases a.linkKnown c.1 (x, c.2) <;> rfl) l b r
  rw [h, h]

/-- Two results with the same first component. -/
theorem map_fst_eq {α β : Type} {x y : Except Panic (α × β)} (h : x.map Prod.fst = y.map Prod.fst) :
    (∃ e, x = .error e ∧ y = .error e) ∨ ∃ a b b', x = .ok (a, b) ∧ y = .ok (a, b') := by
  cases x <;> cases y
  · left
    simp only [Except.map, Except.error.injEq] at h
    exact ⟨_, rfl, by rw [h]⟩
  · simp [Except.map] at h
  · simp [Except.map] at h
  · right
    rename_i a b
    simp only [Except.map, Except.ok.injEq] at h
    refine ⟨a.1, a.2, b.2, rfl, ?_⟩
    rw [h]

theorem modifyNode_fst (g : Graph) (x : NodeIndex) (f : Closure) (r r' : Lcr) :
    (modifyNode g x f r).map Prod.fst = (modifyNode g x f r').map Prod.fst := by
  simp only [modifyNode]
  cases g.nodes.get? x with
  | none => rfl
  | some n =>
    simp only
    rcases map_fst_eq (unlinkSources_fst x g.back r r' n.iterSources) with ⟨e, h1, h2⟩ | ⟨b, r1, r1', h1, h2⟩
    · rw [h1, h2]
    · rw [h1, h2]
      simp only
      cases g.nodes.modifyAt x (fun n => (f n).map (·, ())) with
      | error e => rfl
      | ok st =>
        obtain ⟨nodes1, u⟩ := st
        simp only
        cases nodes1.get? x with
        | none => rfl
        | some n' =>
          simp only
          rcases map_fst_eq (linkSources_fst x b r1 r1' n'.iterSources) with ⟨e, h1, h2⟩ | ⟨b2, r2, r2', h1, h2⟩ <;> (rw [h1, h2]; try rfl)

theorem updateNode_fst (g : Graph) (x : NodeIndex) (f : Closure) (r r' : Lcr) :
    (updateNode g x f r).map Prod.fst = (updateNode g x f r').map Prod.fst := by
  simp only [updateNode]
  cases g.nodes.get? x with
  | none => rfl
  | some n =>
    simp only
    rcases map_fst_eq (unlinkSources_fst x g.back r r' n.iterSources) with ⟨e, h1, h2⟩ | ⟨b, r1, r1', h1, h2⟩
    · rw [h1, h2]
    · rw [h1, h2]
      simp only
      cases g.nodes.updateWith x f with
      | error e => rfl
      | ok nodes1 =>
        simp only
        cases nodes1.get? x with
        | none => rfl
        | some n' =>
          simp only
          rcases map_fst_eq (linkSources_fst x b r1 r1' n'.iterSources) with ⟨e, h1, h2⟩ | ⟨b2, r2, r2', h1, h2⟩ <;> (rw [h1, h2]; try rfl)

variable [SetImpl]

theorem removeNode_fst (g : Graph) (x : NodeIndex) (r r' : Lcr) :
    (removeNode g x r).map Prod.fst = (removeNode g x r').map Prod.fst := by
  have key : ∀ (l : List (NodeIndex × Source)) (a : Arena) (r : Lcr), (foldE (clearLink x) (a, r) l).map Prod.fst =
      foldE (fun a e => (a.modifyAt e.1 (fun n => n.modifyLink e.2 x emptyIdx)).map Prod.fst) a l := fun l a r =>
    foldE_fst (fun a b c => by simp only [clearLink]; cases a.modifyAt c.1 (fun n => n.modifyLink c.2 x emptyIdx) <;> rfl) l a r
  simp only [removeNode]
  cases g.nodes.remove x with
  | mk o nodes1 =>
    cases o with
    | none => rfl
    | some n =>
      simp only
      cases removeBackLinks g.back x n.iterSources with
      | error e => rfl
      | ok back1 =>
        simp only
        cases back1.get? x with
        | none => rfl
        | some bl =>
          simp only
          rcases map_fst_eq ((key bl.elems nodes1 (n.iterSources.foldl (fun r p => r.removeLink x p.1 p.2.mirror) r)).trans
            (key bl.elems nodes1 (n.iterSources.foldl (fun r p => r.removeLink x p.1 p.2.mirror) r')).symm) with
            ⟨e, h1, h2⟩ | ⟨b2, r2, r2', h1, h2⟩ <;> (rw [h1, h2]; try rfl)

theorem redirectLinks_fst (g : Graph) (old new : NodeIndex) (r r' : Lcr) :
    (redirectLinks g old new r).map Prod.fst = (redirectLinks g old new r').map Prod.fst := by
  have key : ∀ (l : List (NodeIndex × Source)) (a : Arena) (b : Back) (r r' : Lcr),
      (∃ e, foldE (redirectOne old new) (a, b, r) l = .error e ∧ foldE (redirectOne old new) (a, b, r') l = .error e) ∨
      ∃ a' b' r1 r1', foldE (redirectOne old new) (a, b, r) l = .ok (a', b', r1) ∧ foldE (redirectOne old new) (a, b, r') l = .ok (a', b', r1') := by
    intro l
    induction l with
    | nil => intro a b r r'; exact Or.inr ⟨a, b, r, r', rfl, rfl⟩
    | cons e l ih =>
      intro a b r r'
      simp only [foldE, redirectOne]
      cases a.modifyAt e.1 (fun n => n.modifyLink e.2 old new) with
      | error p => exact Or.inl ⟨p, rfl, rfl⟩
      | ok st => exact ih _ _ _ _
  simp only [redirectLinks]
  cases g.back.get? old with
  | none => rfl
  | some oldLink =>
    simp only
    rcases key oldLink.elems g.nodes (Back.touch ((g.back.swapRemove old).insert old OrderSet.empty) new) r r' with
      ⟨e, h1, h2⟩ | ⟨a', b', r1, r1', h1, h2⟩ <;> (rw [h1, h2]; try rfl)

theorem redirectLinksVec_fst (g : Graph) (reps : List (NodeIndex × NodeIndex)) (r r' : Lcr) :
    (redirectLinksVec g reps r).map Prod.fst = (redirectLinksVec g reps r').map Prod.fst := by
  have key : ∀ (l : List (NodeIndex × NodeIndex)) (fa : Fa) (g : Graph) (r r' : Lcr),
      (∃ e, foldE redirStep (fa, g, r) l = .error e ∧ foldE redirStep (fa, g, r') l = .error e) ∨
      ∃ fa' g' r1 r1', foldE redirStep (fa, g, r) l = .ok (fa', g', r1) ∧ foldE redirStep (fa, g, r') l = .ok (fa', g', r1') := by
    intro l
    induction l with
    | nil => intro fa g r r'; exact Or.inr ⟨fa, g, r, r', rfl, rfl⟩
    | cons p l ih =>
      intro fa g r r'
      simp only [foldE, redirStep]
      cases fa.get? p.2 with
      | none => exact Or.inl ⟨_, rfl, rfl⟩
      | some y =>
        simp only
        cases chase fa (fa.len + 1) p.2 y with
        | error e => exact Or.inl ⟨_, rfl, rfl⟩
        | ok x =>
          simp only
          rcases map_fst_eq (redirectLinks_fst g p.1 x r r') with ⟨e, h1, h2⟩ | ⟨g1, r1, r1', h1, h2⟩
          · rw [h1, h2]; exact Or.inl ⟨_, rfl, rfl⟩
          · rw [h1, h2]
            simp only
            cases compress x (fa.len + 1) fa p.2 with
            | error e => exact Or.inl ⟨_, rfl, rfl⟩
            | ok fa' => exact ih _ _ _ _
  simp only [redirectLinksVec]
  cases foldE faStep (faInit reps) reps with
  | error e => rfl
  | ok fa =>
    simp only
    rcases key reps fa g r r' with ⟨e, h1, h2⟩ | ⟨fa', g', r1, r1', h1, h2⟩ <;> (rw [h1, h2]; try rfl)

omit [SetImpl] in
theorem applyClosures_fst {step : Graph → NodeIndex → Closure → Lcr → Except Panic (Graph × Lcr)}
    (h : ∀ g x f r r', (step g x f r).map Prod.fst = (step g x f r').map Prod.fst) (g : Graph) (r : Lcr) (l : List (NodeIndex × Closure)) :
    (applyClosures step (g, r) l).map Prod.fst = foldE (fun g (p : NodeIndex × Closure) => (step g p.1 p.2 Lcr.new).map Prod.fst) g l :=
  foldE_fst (fun a b c => h a c.1 c.2 b Lcr.new) l g r

theorem removeAll_fst (g : Graph) (r : Lcr) (l : List NodeIndex) :
    (removeAll (g, r) l).map Prod.fst = foldE (fun g x => (removeNode g x Lcr.new).map Prod.fst) g l :=
  foldE_fst (fun a b c => removeNode_fst a c b Lcr.new) l g r

theorem operateOff_eq (g : Graph) (t : Trans) : operateOff S g t = (perform S g t).map Prod.fst := by
  have hm : ∀ a : Graph × Lcr, Except.map Prod.fst (.ok a : Except Panic (Graph × Lcr)) = .ok a.1 := fun _ => rfl
  simp only [perform, operateOff]
  cases redirectLinksVec g t.redir Lcr.new with
  | error e => rfl
  | ok st1 =>
    obtain ⟨g1, r1⟩ := st1
    simp only
    have h2 : (applyClosures modifyNode (mergeNodes S g1 t.inc r1) t.muts).map Prod.fst = _ :=
      applyClosures_fst (step := modifyNode) modifyNode_fst (mergeNodes S g1 t.inc r1).1 (mergeNodes S g1 t.inc r1).2 t.muts
    rw [mergeNodes_fst g1 t.inc Lcr.new r1, ← h2]
    cases applyClosures modifyNode (mergeNodes S g1 t.inc r1) t.muts with
    | error e => rfl
    | ok st3 =>
      obtain ⟨g3, r3⟩ := st3
      simp only [hm]
      rw [← applyClosures_fst (step := updateNode) updateNode_fst g3 r3]
      cases applyClosures updateNode (g3, r3) t.upds with
      | error e => rfl
      | ok st4 =>
        obtain ⟨g4, r4⟩ := st4
        simp only [hm]
        rcases map_fst_eq (redirectLinksVec_fst g4 t.redirAll Lcr.new r4) with ⟨e, h1, h2⟩ | ⟨g5, r5, r5', h1, h2⟩
        · rw [h1, h2]; rfl
        · rw [h1, h2]
          exact (removeAll_fst g5 r5' t.dec.elems).symm

/-- The commit without the feature: the operations, and nothing else. -/
theorem commitOff_eq (dbg : Bool) (g : Graph) (t : Trans) :
    commitOff S dbg g t =
      if dbg && decide (t.ctxId ≠ g.ctxId) then .error .ctxMismatch
      else if dbg && !t.allocs.isEmpty then .error .unfilledAlloc
      else (perform S g t).map Prod.fst := by
  have hb : ∀ g, applyBidirectional S g Lcr.new = .ok g := fun _ => rfl
  have hc : ∀ g, checkLinkType S g Lcr.new = .ok () := fun _ => rfl
  simp only [commitOff, doCommitOff, operateOff_eq]
  by_cases h1 : (dbg && decide (t.ctxId ≠ g.ctxId)) = true
  · simp only [if_pos h1]
  simp only [if_neg h1]
  by_cases h2 : (dbg && !t.allocs.isEmpty) = true
  · simp only [if_pos h2]
  simp only [if_neg h2]
  cases perform S g t with
  | error e => rfl
  | ok st => simp only [Except.map, hb, hc]

/-- With the feature a commit does the same, then completes links and checks types. -/
theorem commit_eq_off (dbg : Bool) (g : Graph) (t : Trans) :
    (∃ e, commitOff S dbg g t = .error e ∧ commit S dbg g t = .error e) ∨
    ∃ g6 r6, commitOff S dbg g t = .ok g6 ∧ perform S g t = .ok (g6, r6) ∧ (dbg = true → t.ctxId = g.ctxId) ∧ (dbg = true → t.allocs.isEmpty = true) ∧
      commit S dbg g t = match applyBidirectional S g6 r6 with
        | .error e => .error e
        | .ok g7 => match checkLinkType S g7 r6 with
          | .error e => .error e
          | .ok _ => .ok g7 := by
  rw [commitOff_eq, commit, doCommit_eq]
  by_cases h1 : (dbg && decide (t.ctxId ≠ g.ctxId)) = true
  · simp only [if_pos h1]
    exact Or.inl ⟨_, rfl, rfl⟩
  simp only [if_neg h1]
  by_cases h2 : (dbg && !t.allocs.isEmpty) = true
  · simp only [if_pos h2]
    exact Or.inl ⟨_, rfl, rfl⟩
  simp only [if_neg h2]
  cases perform S g t with
  | error e => exact Or.inl ⟨e, rfl, rfl⟩
  | ok st =>
    right
    refine ⟨st.1, st.2, rfl, rfl, ?_, ?_, ?_⟩
    · intro hd
      subst hd
      by_contra hne
      exact h1 (by simp [hne])
    · intro hd
      subst hd
      by_contra hne
      exact h2 (by simp [hne])
    · simp only
      cases applyBidirectional S st.1 st.2 with
      | error e => rfl
      | ok g7 => simp only; cases checkLinkType S g7 st.2 <;> rfl

/-- Without `bidirectional!` there is nothing to complete. -/
theorem applyBidirectional_none (hw : WellNamed S) (hb : ∀ m m', ¬ Opposite S m m') (g : Graph) (r : Lcr) : applyBidirectional S g r = .ok g := by
  have ho : ∀ m d, S.opposites m d = [] := fun m d =>
    List.eq_nil_iff_forall_not_mem.2 fun m' h => hb m m' ((Schema.mem_opposites_iff hw).1 h).1
  have h1 : ∀ c, bdRemove S g c = .ok g := by
    rintro ⟨x, y, l⟩
    simp only [bdRemove]
    cases g.nodes.get? x <;> cases g.nodes.get? y <;> simp [ho, foldE]
  have h2 : ∀ c, bdAdd S g c = .ok g := by
    rintro ⟨x, y, l⟩
    simp only [bdAdd]
    cases g.nodes.get? x <;> cases g.nodes.get? y <;> simp [ho]
  have h3 : ∀ l, foldE (bdRemove S) g l = .ok g := by
    intro l
    induction l with
    | nil => rfl
    | cons c l ih => simp only [foldE, h1, ih]
  have h4 : ∀ l, foldE (bdAdd S) g l = .ok g := by
    intro l
    induction l with
    | nil => rfl
    | cons c l ih => simp only [foldE, h2, ih]
  simp only [applyBidirectional, h3, h4]

end
end Graph
end TTGraph
