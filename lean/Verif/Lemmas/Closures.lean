import Verif.Lemmas.Frame

/-!
# Transactions that only apply closures
-/

set_option autoImplicit false

namespace TTGraph
open Spec
variable [SetImpl] {S : Schema}

omit [SetImpl] in
/-- What `Applied` means for one node: the closures for this node are applied to it one after the other. -/
theorem applied_at {l : List (NodeIndex × Closure)} {v v' : View} (h : Applied l v v') {x : NodeIndex} {n : Node} (hn : v x = some n) :
    ∃ n', (l.filter (fun p => decide (p.1 = x))).foldlM (fun n p => p.2 n) n = Except.ok n' ∧ v' x = some n' := by
  induction h generalizing n with
  | nil h => exact ⟨n, rfl, by rw [h, hn]⟩
  | @cons i f l v v1 v' m m' h1 h2 h3 h4 ih =>
    by_cases hi : i = x
    · subst hi
      rw [h1, Option.some.injEq] at hn
      subst hn
      obtain ⟨n', k1, k2⟩ := ih (n := m') (by rw [h3, if_pos rfl])
      refine ⟨n', ?_, k2⟩
      rw [List.filter_cons_of_pos (by simp)]
      simp only [List.foldlM_cons, h2]
      exact k1
    · obtain ⟨n', k1, k2⟩ := ih (n := n) (by rw [h3, if_neg hi, hn])
      exact ⟨n', by rw [List.filter_cons_of_neg (by simpa using hi)]; exact k1, k2⟩

/-- A transaction that only mutates and updates, before completion. -/
theorem Graph.perform_closures (hw : WellNamed S) {g g6 : Graph} {t : Trans} {r6 : Lcr} {e0 : Prop} (hinv : g.Inv S e0) (ht : t.Good S)
    (hdis : g.nodes.Disjoint t.inc) (hnew : ∀ i, t.inc.get? i = none) (hrem : ∀ i, i ∉ t.dec.elems) (hr : t.redir = []) (hra : t.redirAll = [])
    (hp : Graph.perform S g t = .ok (g6, r6)) : Applied (t.muts ++ t.upds) g.get? g6.get? := by
  have h1 : ∀ (g : Graph) r, Graph.redirectLinksVec g [] r = .ok (g, r) := fun _ _ => rfl
  have hd : t.dec.elems = [] := List.eq_nil_iff_forall_not_mem.2 hrem
  simp only [Graph.perform, hr, hra, h1, hd, Graph.removeAll, foldE] at hp
  obtain ⟨m1, m2, _⟩ := Graph.mergeNodes_spec (r := Lcr.new) (L0 := View.L g.get?) hw.variants hinv ht.inv hdis ht.noEmpty ht.wt
  have e2 : ∀ x, (Graph.mergeNodes S g t.inc Lcr.new).1.get? x = g.get? x := by
    intro x
    rw [m1, hnew x]
    simp
  cases h3 : Graph.applyClosures Graph.modifyNode (Graph.mergeNodes S g t.inc Lcr.new) t.muts with
  | error e => rw [h3] at hp; exact absurd hp (by simp)
  | ok st3 =>
    rw [h3] at hp
    simp only at hp
    have o3 := Graph.applyClosures_out (L0 := View.L g.get?) (Or.inl rfl) t.muts (fun p hp => ht.closures p (by simp [hp])) m2 h3
    cases h4 : Graph.applyClosures Graph.updateNode st3 t.upds with
    | error e => rw [h4] at hp; exact absurd hp (by simp)
    | ok st4 =>
      rw [h4] at hp
      have o4 := Graph.applyClosures_out (L0 := View.L g.get?) (Or.inr rfl) t.upds (fun p hp => ht.closures p (by simp [hp])) o3.inv h4
      simp only [Except.ok.injEq] at hp
      have := applied_append (applied_append (Applied.nil fun x => e2 x) o3.applied) o4.applied
      rw [(Prod.mk.inj hp).1] at this
      simpa using this

end TTGraph
