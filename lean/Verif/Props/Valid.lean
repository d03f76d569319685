import Verif.Demo.Traced
import Verif.Demo.Decls
import Verif.Lemmas.Performable
import Verif.Lemmas.Types
import Verif.Props.Commit
import Verif.Spec.Valid

/-!
# When a commit succeeds: C13
-/

set_option autoImplicit false

namespace TTGraph
open Spec
variable [SetImpl] {S : Schema} {dbg : Bool} {R : World → Call → Prop}

/-- A valid transaction is committed without panic.  `v6` is what its operations make of the graph (C03): there, no direct field needs two
values, no link with several possible opposites is without one, no `Vec` would have to be changed to complete the links, and the links to be
checked have targets that their annotations permit.  (No `Vec` of a `bidirectional!` line holds a node twice on the way.) -/
theorem C13_commit_succeeds (hw : WellNamed S) {g : Graph} {t : Trans} (hst : SteadyBidir S t g.get?) (h : Meets S dbg R g t)
    (hfill : dbg = true → ∀ i, ¬ t.pending.unfilled i) (hvalid : Valid S g.get? t.pending)
    (hend : ∀ v6, Performed t g.get? v6 → ¬ Spec.Conflict S g.get? v6 ∧ ¬ Undecided S g.get? v6 ∧ NoVecDue S g.get? v6 ∧
      ∀ x m y n, Checked S t g.get? v6 x m y → v6 y = some n → Permitted S m n.disc) :
    ∃ g', g.commit S dbg t = .ok g' := by
  obtain ⟨_, hctx, _⟩ := h.disjoint hw
  obtain ⟨g6, r6, hp, out⟩ := hvalid.perform hw h
  have hall := Trans.allocs_empty hfill
  obtain ⟨h1, h2, ⟨h4, h5⟩, h3⟩ := hend _ out.performed
  rcases Graph.commit_after hw dbg hst (fun _ => hctx) hall hp out with
    ⟨_, hc⟩ | ⟨_, ⟨g', hc, _⟩ | ⟨_, _, hu⟩ | ⟨_, hc⟩ | ⟨_, x, m, y, n, hn, hl, hl', hf⟩ | ⟨_, hc⟩⟩
  · exact absurd hc h4
  · exact ⟨g', hc⟩
  · exact absurd hu h2
  · exact absurd hc h1
  · rw [(Schema.checkLinkType_iff hw).2 (h3 x m y n ⟨hl, hl'⟩ hn)] at hf
    exact absurd hf (by simp)
  · exact absurd hc h5

/-- The conditions are not stronger than necessary: they hold whenever `commit` returns (for transactions that redirect each node at most
once, with closures that do not look at the order of sets).  What a closure does to nodes
that it is not applied to, and links held by `Vec`s, are not mentioned. -/
theorem C13_needed (hw : WellNamed S) {g g' : Graph} {t : Trans} (hst : SteadyBidir S t g.get?)
    (h : Meets S dbg R g t) (hr : (t.pending.redir.map Prod.fst).Nodup) (hra : (t.pending.redirAll.map Prod.fst).Nodup)
    (hcl : ∀ p ∈ t.pending.muts ++ t.pending.upds, p.2.Respects) (hc : g.commit S dbg t = .ok g') :
    (dbg = true → ∀ i, ¬ t.pending.unfilled i) ∧
    (∀ i f, (i, f) ∈ t.pending.muts ++ t.pending.upds → g.get? i ≠ none ∨ t.pending.new i ≠ none) ∧
    (∀ i, t.pending.removed i → g.get? i ≠ none ∨ t.pending.new i ≠ none) ∧
    ¬ Loop t.pending.redir ∧ ¬ Loop t.pending.redirAll ∧
    ∀ v6, Performed t g.get? v6 → ¬ Spec.Conflict S g.get? v6 ∧ NoVecDue S g.get? v6 ∧
      ∀ x m y n, AddedLink g.get? v6 x m y → Steady S t g.get? x m y → v6 y = some n → Permitted S m n.disc := by
  have hfill : dbg = true → ∀ i, ¬ t.pending.unfilled i := by
    intro hd i hi
    have := (Graph.perform_of_commit hc).2.1 hd
    exact OrderSet.isEmpty_iff.1 this i hi
  obtain ⟨w6, out⟩ := h.commit hw hc
  have hex : ∀ {l : List (NodeIndex × Closure)} {v v' : View}, Applied l v v' → ∀ p ∈ l, v p.1 ≠ none := by
    intro l v v' hl
    induction hl with
    | nil _ => exact fun p hp => absurd hp (by simp)
    | @cons i f l v v1 v' n n' h1 h2 h3 h4 ih =>
      intro p hp
      rcases List.mem_cons.1 hp with rfl | hp
      · rw [h1]; simp
      · have := ih p hp
        rw [h3 p.1] at this
        split at this
        · rename_i e; subst e; rw [h1]; simp
        · exact this
  obtain ⟨v1, v2, v3, v4, v5, a1, a2, a3, a4, a5, a6⟩ := out.performed
  have h2 : ∀ x, v2 x ≠ none → g.get? x ≠ none ∨ t.pending.new x ≠ none := by
    intro x hx
    by_cases hn : t.inc.get? x = none
    · rw [a2.1 x hn] at hx
      exact Or.inl fun e => hx ((renamed_none a1.choose_spec.2 x).2 e)
    · exact Or.inr hn
  refine ⟨hfill, fun i f hf => ?_, fun i hi => ?_, fun hl => C08_never (Or.inl ⟨hr, hl⟩) g' hc,
    fun hl => C08_never (Or.inr ⟨hra, hl⟩) g' hc, fun v6 hp => ?_⟩
  · rcases List.mem_append.1 hf with hf | hf
    · exact h2 i (hex a3 _ hf)
    · exact h2 i fun e => hex a4 _ hf ((applied_none a3 i).2 e)
  · refine h2 i fun e => (a6.1 i hi).1 ?_
    exact (renamed_none a5.choose_spec.2 i).2 ((applied_none a4 i).2 ((applied_none a3 i).2 e))
  · have hs := performed_same rfl hr hra hcl (.refl _) out.performed hp
    refine ⟨fun hcf => out.noConflict hst (((View.Same.refl _).conflict hs).1 hcf),
      ((View.Same.refl _).noVecDue hs).2 ⟨out.noLeft hst, out.noMissing hst⟩, fun x m y n hl hk hn => ?_⟩
    have hl' := ((View.Same.refl g.get?).addedLink hs x m y).1 hl
    obtain ⟨n6, hn6, hns⟩ := hs.symm.some hn
    have hsh := out.same.1 y
    rw [hn6] at hsh
    cases hg : g'.get? y with
    | none => rw [hg] at hsh; exact absurd hsh (by simp)
    | some n7 =>
      rw [hg] at hsh
      simp only [Option.map_some, Option.some.injEq] at hsh
      have hd7 : n7.disc = n.disc := by rw [show n7.disc = n6.disc from congrArg Prod.fst hsh]; exact hns.1
      have hty := out.types x m y n7 hl' hk hg
      rw [hd7] at hty
      exact (Schema.checkLinkType_iff hw).1 hty

end TTGraph

namespace TTGraph
namespace Demo
open Spec

/-- Nodes 1 (variant A, linked with 2), 2 and 3 (variant B); then a transaction with operations of all kinds: the link of 1 to 2 is
redirected to 3, a new node 4 is linked with 2 and 3, and 2 is removed. -/
def valid4 : List Step :=
  [.call (.newContext 0 77), .call (.newGraph 0 0), .call (.newTrans 0 0), .call (.op 0 (.insert (pA 2 []))), .call (.op 0 (.insert (pB [] 0))),
   .call (.op 0 (.insert (pB [] 0))), .call (.commit 0 0), .call (.newTrans 1 0), .call (.op 1 (.insert (pA 3 [2]))),
   .call (.op 1 (.redirectLinks 2 3)), .mutate 1 3 (pB [1] 4), .call (.op 1 (.remove 2))]

theorem valid4_meets : let w := run typed true World.init valid4
    Meets typed true AnyCall (graphAt w 0) (transAt w 1) := meets_of (reaches valid4 (by decide +kernel)) 0 1 (by decide +kernel)

/-- C13: the hypotheses of `C13_needed` hold for it, with a commit that changes the graph. -/
theorem valid4_needed : let w := run typed true World.init valid4
    ((graphAt w 0).commit typed true (transAt w 1)).toOption.isSome = true ∧ ((transAt w 1).pending.redir.map Prod.fst).Nodup ∧
    ((transAt w 1).pending.redirAll.map Prod.fst).Nodup ∧ ∀ p ∈ (transAt w 1).pending.muts ++ (transAt w 1).pending.upds, p.2.Respects := by
  refine ⟨by decide +kernel, by decide +kernel, by decide +kernel, ?_⟩
  have e : (transAt (run typed true World.init valid4) 1).pending.muts ++ (transAt (run typed true World.init valid4) 1).pending.upds
    = [(3, const (pB [1] 4))] := rfl
  rw [e]
  intro p hp
  rw [List.mem_singleton.1 hp]
  exact fun _ _ _ => Or.inr ⟨_, _, rfl, rfl, Node.Same.refl _⟩

/-- C13: it is valid, and the other hypotheses of `C13_commit_succeeds` hold too. -/
example : let w := run typed true World.init valid4
    let g := graphAt w 0
    let t := transAt w 1
    Meets typed true AnyCall g t ∧ (true = true → ∀ i, ¬ t.pending.unfilled i) ∧ Valid typed g.get? t.pending ∧
    ∀ v6, Performed t g.get? v6 → ¬ Spec.Conflict typed g.get? v6 ∧ ¬ Undecided typed g.get? v6 ∧ NoVecDue typed g.get? v6 ∧
      ∀ x m y n, Checked typed t g.get? v6 x m y → v6 y = some n → Permitted typed m n.disc := by
  intro w g t
  have hm : Meets typed true AnyCall g t := valid4_meets
  obtain ⟨hc, hr, hra, hcl⟩ := valid4_needed
  obtain ⟨g', hc'⟩ : ∃ g', g.commit typed true t = .ok g' := ⟨_, got_ok (d := g) hc⟩
  obtain ⟨h1, h2, h3, h4, -, h6⟩ := C13_needed typed_named (typed_noVec.steadyBidir _ _) hm hr hra hcl hc'
  have hmu : t.pending.muts ++ t.pending.upds = [(3, const (pB [1] 4))] := rfl
  have hre : t.pending.redir = [(2, 3)] := by decide +kernel
  have hra0 : t.pending.redirAll = [] := by decide +kernel
  refine ⟨hm, h1, ⟨h2, h3, fun i f hf => ?_, ?_, ?_, h4, ?_⟩, fun v6 hp => ⟨(h6 v6 hp).1, not_undecided typed_named typed_one typed_once _ _, (h6 v6 hp).2.1, fun x m y n hl hn => ?_⟩⟩
  · rw [hmu] at hf
    obtain ⟨rfl, rfl⟩ : i = 3 ∧ f = const (pB [1] 4) := by simpa using hf
    intro n _ _
    refine ⟨_, rfl, wt_sound (by decide), fun s y hy => ?_⟩
    rw [← Node.mem_iterSources] at hy
    have hy' : y ∈ ((pB [1] 4).iterSources.map Prod.fst) := List.mem_map.2 ⟨_, hy, rfl⟩
    rw [show (pB [1] 4).iterSources.map Prod.fst = [1, 4] from by decide] at hy'
    simp only [List.mem_cons, List.not_mem_nil, or_false] at hy'
    rcases hy' with rfl | rfl
    · exact Or.inl (by decide +kernel)
    · exact Or.inr (Or.inr (Or.inl (by decide +kernel)))
  · intro old new ho
    rw [hre] at ho
    obtain ⟨rfl, -⟩ : old = 2 ∧ new = 3 := by simpa using ho
    exact Or.inl (by decide +kernel)
  · intro old new ho
    rw [hra0] at ho
    exact absurd ho (by simp)
  · rw [hra0]
    rintro ⟨a, b, hab, _⟩
    exact absurd hab (by simp)
  · have hk : typed.kind? m ≠ some .vec := by
      intro hk
      unfold Schema.kind? at hk
      cases hs : typed.struct? m.disc with
      | none => rw [hs] at hk; exact absurd hk (by simp)
      | some sd =>
        rw [hs] at hk
        have hsd := (Schema.struct?_iff typed_named).1 hs
        have hmem : LinkKind.vec ∈ sd.linkKinds := List.mem_of_getElem? hk
        have : ∀ p ∈ typed.variants, LinkKind.vec ∉ p.2.linkKinds := by decide
        exact this _ hsd hmem
    have h0 : y ≠ emptyIdx := by
      rintro rfl
      have := (performed_none hp emptyIdx).2 (Or.inl ⟨by decide +kernel, by decide +kernel⟩)
      rw [hn] at this
      exact absurd this (by simp)
    exact (h6 v6 hp).2.2 x m y n ⟨h0, hl.1, hl.2 (Or.inl hk)⟩ (Or.inl hk) hn

end Demo
end TTGraph
