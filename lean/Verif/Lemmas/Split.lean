import Verif.Lemmas.Feature

/-!
# The operations of a commit as a chain of steps
-/

set_option autoImplicit false

namespace TTGraph
namespace Graph

section
variable [SetImpl] {S : Schema}

omit [SetImpl] in
theorem mergeNodes_new (g : Graph) (r : Lcr) : (mergeNodes S g Arena.new r).1 = g := by
  have h : (Arena.new.entries S) = [] := by
    simp [Arena.entries, Arena.new, OrderMap.empty]
  simp only [mergeNodes, h]
  rfl

/-- The steps of a commit, without the record of link changes. -/
def opRedir (l : List (NodeIndex × NodeIndex)) (g : Graph) : Except Panic Graph := (redirectLinksVec g l Lcr.new).map Prod.fst
def opMerge (S : Schema) (a : Arena) (g : Graph) : Except Panic Graph := .ok (mergeNodes S g a Lcr.new).1
def opMuts (l : List (NodeIndex × Closure)) (g : Graph) : Except Panic Graph := foldE (fun g p => (modifyNode g p.1 p.2 Lcr.new).map Prod.fst) g l
def opUpds (l : List (NodeIndex × Closure)) (g : Graph) : Except Panic Graph := foldE (fun g p => (updateNode g p.1 p.2 Lcr.new).map Prod.fst) g l
def opRemoves (l : List NodeIndex) (g : Graph) : Except Panic Graph := foldE (fun g x => (removeNode g x Lcr.new).map Prod.fst) g l

theorem operateOff_chain (g : Graph) (t : Trans) : operateOff S g t =
    (opRedir t.redir g).bind fun g1 => (opMerge S t.inc g1).bind fun g2 => (opMuts t.muts g2).bind fun g3 => (opUpds t.upds g3).bind fun g4 =>
      (opRedir t.redirAll g4).bind (opRemoves t.dec.elems) := by
  unfold operateOff
  unfold opRedir
  cases redirectLinksVec g t.redir Lcr.new with
  | error e => rfl
  | ok st =>
    obtain ⟨g1, r1⟩ := st
    show (match opMuts t.muts (mergeNodes S g1 t.inc Lcr.new).1 with | .error e => .error e | .ok g3 => _) = (opMuts t.muts (mergeNodes S g1 t.inc Lcr.new).1).bind _
    cases opMuts t.muts (mergeNodes S g1 t.inc Lcr.new).1 with
    | error e => rfl
    | ok g3 =>
      show (match opUpds t.upds g3 with | .error e => .error e | .ok g4 => _) = (opUpds t.upds g3).bind _
      cases opUpds t.upds g3 with
      | error e => rfl
      | ok g4 =>
        simp only [Except.bind]
        cases redirectLinksVec g4 t.redirAll Lcr.new <;> rfl

theorem opRedir_nil (g : Graph) : opRedir [] g = .ok g := rfl
omit [SetImpl] in
theorem opMerge_new (g : Graph) : opMerge S Arena.new g = .ok g := by rw [opMerge, mergeNodes_new]
omit [SetImpl] in
theorem opMuts_nil (g : Graph) : opMuts [] g = .ok g := rfl
omit [SetImpl] in
theorem opUpds_nil (g : Graph) : opUpds [] g = .ok g := rfl
theorem opRemoves_nil (g : Graph) : opRemoves [] g = .ok g := rfl

omit [SetImpl] in
theorem foldE_bind {α β : Type} (f : β → α → Except Panic β) (l1 l2 : List α) (b : β) :
    foldE f b (l1 ++ l2) = (foldE f b l1).bind fun b' => foldE f b' l2 := by
  rw [foldE_append]
  cases foldE f b l1 <;> rfl

omit [SetImpl] in
theorem opMuts_append (l1 l2 : List (NodeIndex × Closure)) (g : Graph) : opMuts (l1 ++ l2) g = (opMuts l1 g).bind (opMuts l2) := foldE_bind _ _ _ _
omit [SetImpl] in
theorem opUpds_append (l1 l2 : List (NodeIndex × Closure)) (g : Graph) : opUpds (l1 ++ l2) g = (opUpds l1 g).bind (opUpds l2) := foldE_bind _ _ _ _
theorem opRemoves_append (l1 l2 : List NodeIndex) (g : Graph) : opRemoves (l1 ++ l2) g = (opRemoves l1 g).bind (opRemoves l2) := foldE_bind _ _ _ _

/-! ### The context -/

/-- A step that keeps the context. -/
def KeepsCtx (f : Graph → Except Panic Graph) : Prop := ∀ g g', f g = .ok g' → g'.ctxId = g.ctxId

omit [SetImpl] in
theorem KeepsCtx.bind {f h : Graph → Except Panic Graph} (hf : KeepsCtx f) (hh : KeepsCtx h) : KeepsCtx fun g => (f g).bind h := by
  intro g g' e
  dsimp only at e
  cases hg : f g with
  | error e' => rw [hg] at e; exact absurd e (by simp [Except.bind])
  | ok g1 =>
    rw [hg] at e
    exact (hh g1 g' e).trans (hf g g1 hg)

omit [SetImpl] in
theorem keepsCtx_fold {α : Type} {f : Graph → α → Except Panic Graph} (hf : ∀ a, KeepsCtx fun g => f g a) (l : List α) : KeepsCtx fun g => foldE f g l := by
  induction l with
  | nil => intro g g' e; simp only [foldE, Except.ok.injEq] at e; rw [e]
  | cons a l ih =>
    intro g g' e
    dsimp only [foldE] at e
    split at e
    · rename_i g1 hg1
      exact (ih g1 g' e).trans (hf a g g1 hg1)
    · exact absurd e (by simp)

omit [SetImpl] in
theorem keepsCtx_map {f : Graph → Except Panic (Graph × Lcr)} (hf : ∀ g g' r', f g = .ok (g', r') → g'.ctxId = g.ctxId) :
    KeepsCtx fun g => (f g).map Prod.fst := by
  intro g g' e
  dsimp only at e
  cases hg : f g with
  | error _ => rw [hg] at e; exact absurd e (by simp [Except.map])
  | ok st =>
    rw [hg] at e
    simp only [Except.map, Except.ok.injEq] at e
    rw [← e]
    exact hf g st.1 st.2 hg

theorem redirectLinks_ctx {g g' : Graph} {old new : NodeIndex} {r r' : Lcr} (h : redirectLinks g old new r = .ok (g', r')) : g'.ctxId = g.ctxId := by
  simp only [redirectLinks] at h
  split at h
  · exact absurd h (by simp)
  · split at h
    · exact absurd h (by simp)
    · simp only [Except.ok.injEq, Prod.mk.injEq] at h
      rw [← h.1]

theorem opRedir_ctx (l : List (NodeIndex × NodeIndex)) : KeepsCtx (opRedir l) := by
  refine keepsCtx_map fun g g' r' h => ?_
  simp only [redirectLinksVec] at h
  split at h
  · exact absurd h (by simp)
  · split at h
    · exact absurd h (by simp)
    · rename_i fa g1 r1 hf
      simp only [Except.ok.injEq, Prod.mk.injEq] at h
      rw [← h.1]
      refine foldE_inv (fun _ (st : Fa × Graph × Lcr) => st.2.1.ctxId = g.ctxId) rfl ?_ hf
      intro _ a _ s1 s2 _ h1 h2
      simp only [redirStep] at h2
      split at h2
      · exact absurd h2 (by simp)
      · split at h2
        · exact absurd h2 (by simp)
        · split at h2
          · exact absurd h2 (by simp)
          · rename_i hr
            split at h2
            · exact absurd h2 (by simp)
            · simp only [Except.ok.injEq] at h2
              rw [← h2]
              exact (redirectLinks_ctx hr).trans h1

omit [SetImpl] in
theorem opMerge_ctx (a : Arena) : KeepsCtx (opMerge S a) := by
  intro g g' e
  simp only [opMerge, Except.ok.injEq] at e
  rw [← e]
  rfl

omit [SetImpl] in
theorem opMuts_ctx (l : List (NodeIndex × Closure)) : KeepsCtx (opMuts l) := by
  refine keepsCtx_fold (fun p => keepsCtx_map fun g g' r' h => ?_) l
  simp only [modifyNode] at h
  repeat' split at h
  all_goals first
    | (simp only [Except.ok.injEq, Prod.mk.injEq] at h; rw [← h.1])
    | exact absurd h (by simp)

omit [SetImpl] in
theorem opUpds_ctx (l : List (NodeIndex × Closure)) : KeepsCtx (opUpds l) := by
  refine keepsCtx_fold (fun p => keepsCtx_map fun g g' r' h => ?_) l
  simp only [updateNode] at h
  repeat' split at h
  all_goals first
    | (simp only [Except.ok.injEq, Prod.mk.injEq] at h; rw [← h.1])
    | exact absurd h (by simp)

theorem opRemoves_ctx (l : List NodeIndex) : KeepsCtx (opRemoves l) := by
  refine keepsCtx_fold (fun p => keepsCtx_map fun g g' r' h => ?_) l
  simp only [removeNode] at h
  repeat' split at h
  all_goals first
    | (simp only [Except.ok.injEq, Prod.mk.injEq] at h; rw [← h.1])
    | exact absurd h (by simp)

theorem operateOff_ctx (t : Trans) : KeepsCtx fun g => operateOff S g t := by
  simp only [operateOff_chain]
  exact (opRedir_ctx _).bind ((opMerge_ctx _).bind ((opMuts_ctx _).bind ((opUpds_ctx _).bind ((opRedir_ctx _).bind (opRemoves_ctx _)))))

end
end Graph
end TTGraph
