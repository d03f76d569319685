import Verif.Lemmas.Unique
import Verif.Lemmas.Errors

/-!
# The order of redirect requests does not matter
-/

set_option autoImplicit false

namespace TTGraph
open Spec
variable {S : Schema}

theorem loop_perm {reqs reqs' : List (NodeIndex × NodeIndex)} (hp : ∀ p, p ∈ reqs ↔ p ∈ reqs') (h : Loop reqs) : Loop reqs' := by
  obtain ⟨a, b, h1, h2⟩ := h
  exact ⟨a, b, (hp _).1 h1, chain_mono (fun p hpm => (hp p).1 hpm) h2⟩

/-- With distinct sources the end of every chain is unique. -/
theorem redirected_perm {reqs reqs' : List (NodeIndex × NodeIndex)} (hn : (reqs.map Prod.fst).Nodup) (hp : reqs.Perm reqs') {v v1 w w1 : View}
    (h : Redirected reqs v v1) (h' : Redirected reqs' w w1) (hs : View.Same v w) : View.Same v1 w1 := by
  obtain ⟨ρ, h1, h2⟩ := h
  obtain ⟨ρ', h1', h2'⟩ := h'
  obtain rfl := redirectMap_perm hn hp h1 h1'
  exact renamed_same h2 h2' hs

/-- The result of a commit does not depend on the order of the redirect requests. -/
theorem committed_reordered {t t' : Trans} (hp : Reordered t.pending t'.pending) (hr : (t.redir.map Prod.fst).Nodup)
    (hra : (t.redirAll.map Prod.fst).Nodup) (hc : ∀ p ∈ t.muts ++ t.upds, p.2.Respects) {v w v' w' : View} (h0 : View.Same v w)
    (h : Committed S t v v') (h' : Committed S t' w w') : View.Same v' w' := by
  obtain ⟨p1, _, p3, p4, p5, p6, p7⟩ := hp
  simp only [Trans.pending] at p1 p3 p4 p5 p6 p7
  obtain ⟨v6, ⟨v1, v2, v3, v4, v5, a1, a2, a3, a4, a5, a6⟩, a7⟩ := h
  obtain ⟨w6, ⟨w1, w2, w3, w4, w5, b1, b2, b3, b4, b5, b6⟩, b7⟩ := h'
  rw [p1] at b2
  rw [p4] at b3
  rw [p5] at b4
  have c1 := redirected_perm hr p7 a1 b1 h0
  have c2 := inserted_same a2 b2 c1
  have c3 := applied_same (fun p hp => hc p (by simp [hp])) a3 b3 c2
  have c4 := applied_same (fun p hp => hc p (by simp [hp])) a4 b4 c3
  have c5 := redirected_perm hra p6 a5 b5 c4
  have c6 := removed_same (fun x => by have := congrFun p3 x; exact iff_of_eq this) a6 b6 c5
  exact completion_same a7 b7 h0 c6

namespace Graph

section
variable {e0 e0' : Prop} {step : Graph → NodeIndex → Closure → Lcr → Except Panic (Graph × Lcr)}

theorem applyClosures_same (hst : IsStep step) (l : List (NodeIndex × Closure)) (hl : ∀ p ∈ l, Closure.Typed S p.2) (hr : ∀ p ∈ l, p.2.Respects) :
    ∀ {g g' : Graph} {r r' : Lcr} {st : Graph × Lcr}, g.Inv S e0 → g'.Inv S e0' → View.Same g.get? g'.get? →
      (∀ y, g'.back.Known y ↔ g.back.Known y) → applyClosures step (g, r) l = .ok st →
      ∃ st', applyClosures step (g', r') l = .ok st' ∧ View.Same st.1.get? st'.1.get? ∧ (∀ y, st'.1.back.Known y ↔ st.1.back.Known y) := by
  induction l with
  | nil =>
    intro g g' r r' st _ _ hg hk hs
    simp only [applyClosures, foldE, Except.ok.injEq] at hs
    subst hs
    exact ⟨(g', r'), rfl, hg, hk⟩
  | cons p l ih =>
    intro g g' r r' st h h' hg hk hs
    simp only [applyClosures, foldE] at hs
    cases hp : step g p.1 p.2 r with
    | error e => rw [hp] at hs; exact absurd hs (by simp)
    | ok st1 =>
      rw [hp] at hs
      obtain ⟨g1, r1⟩ := st1
      obtain ⟨n, n', h1, h2, h3⟩ := step_inv hst h hp
      obtain ⟨n2, hn2, hsame⟩ := hg.some h1
      have hwt : S.WT n' := hl p List.mem_cons_self n n' (h.wt _ _ h1) h2
      rcases hr p List.mem_cons_self _ _ hsame with ⟨e, he, _⟩ | ⟨m, m', he, he', hmm⟩
      · rw [h2] at he; exact absurd he (by simp)
      rw [h2, Except.ok.injEq] at he
      subst he
      have hwt' : S.WT m' := hl p List.mem_cons_self n2 m' (h'.wt _ _ hn2) he'
      obtain ⟨g1', r1', h4, h5, h6, _, _, h9, _, _⟩ := step_ok (r := r) hst h h1 h2 hwt h3 (fun _ => True)
      rw [hp] at h4
      obtain ⟨rfl, rfl⟩ : g1 = g1' ∧ r1 = r1' := by simpa using h4
      obtain ⟨g2, r2, k4, k5, k6, _, _, k9, _, _⟩ := step_ok (r := r') hst h' hn2 he' hwt'
        (fun s y hs => (hk y).2 (h3 s y (((Node.same_iff.1 hmm).2 s y).1 hs))) (fun _ => True)
      obtain ⟨st', h10, h11⟩ := ih (fun q hq => hl q (by simp [hq])) (fun q hq => hr q (by simp [hq])) (r := r1) (r' := r2) (st := st) h6 k6
        (set_same h5 k5 hmm hg) (fun y => by rw [k9, h9, hk]) hs
      refine ⟨st', ?_, h11⟩
      simp only [applyClosures, foldE, k4]
      exact h10

end

section
variable [SetImpl] {e0 e0' : Prop}

theorem redirectLinksVec_perm {reps reps' : List (NodeIndex × NodeIndex)} (hn : (reps.map Prod.fst).Nodup) (hp : reps.Perm reps')
    {g g' g1 : Graph} {r r' r1 : Lcr} (h : g.Inv S e0) (h' : g'.Inv S e0')
    (h0 : ∀ n, (emptyIdx, n) ∉ reps) (hs : View.Same g.get? g'.get?) (hk : ∀ y, g'.back.Known y ↔ g.back.Known y)
    (hr : redirectLinksVec g reps r = .ok (g1, r1)) :
    ∃ g1' r1', redirectLinksVec g' reps' r' = .ok (g1', r1') ∧ View.Same g1.get? g1'.get? ∧ ∀ y, g1'.back.Known y ↔ g1.back.Known y := by
  have hm : ∀ p, p ∈ reps ↔ p ∈ reps' := fun p => hp.mem_iff
  have h0' : ∀ n, (emptyIdx, n) ∉ reps' := fun n hn' => h0 n ((hm _).2 hn')
  rcases redirectLinksVec_uniform S reps with ⟨_, h2⟩ | ⟨R, hR⟩
  · rw [h2] at hr
    exact absurd hr (by simp)
  rcases redirectLinksVec_uniform S reps' with ⟨hcyc, _⟩ | ⟨R', hR'⟩
  · rw [redirect_loop hn (loop_perm (fun p => (hm p).symm) (loop_iff.2 hcyc)) g r] at hr
    exact absurd hr (by simp)
  rcases hR h r (fun ⟨n, hn⟩ => absurd hn (h0 n)) (fun _ => True) with ⟨_, h1⟩ | ⟨h1, g2, r2, h2, h3, _, _, _, h6, h7, _⟩
  · rw [h1] at hr
    exact absurd hr (by simp)
  rw [hr] at h2
  obtain ⟨rfl, rfl⟩ : g1 = g2 ∧ r1 = r2 := by simpa using h2
  rcases hR' h' r' (fun ⟨n, hn⟩ => absurd hn (h0' n)) (fun _ => True) with ⟨⟨p, hp', h4⟩, _⟩ | ⟨_, g2', r2', h2', h3', _, _, _, h6', h7', _⟩
  · exact absurd ((hk _).2 (h1 p ((hm p).2 hp'))) h4
  refine ⟨g2', r2', h2', redirected_perm hn hp ⟨_, redirectMap_firstTarget h3, View.renH_iff.1 h6⟩
    ⟨_, redirectMap_firstTarget h3', View.renH_iff.1 h6'⟩ hs, fun y => ?_⟩
  have hRR : ∀ p ∈ reps, R p.2 = R' p.2 := fun p hpm =>
    chain_unique hn (chain_iff.2 (h3 p hpm).2) (h3 p hpm).1
      (chain_mono (fun q hq => (hm q).2 hq) (chain_iff.2 (h3' p ((hm p).1 hpm)).2)) (fun m hmm => (h3' p ((hm p).1 hpm)).1 m ((hm _).1 hmm))
  rw [h7, h7', hk]
  constructor
  · rintro (h8 | ⟨p, h8, h9⟩)
    · exact Or.inl h8
    · exact Or.inr ⟨p, (hm p).2 h8, by rw [hRR p ((hm p).2 h8)]; exact h9⟩
  · rintro (h8 | ⟨p, h8, h9⟩)
    · exact Or.inl h8
    · exact Or.inr ⟨p, (hm p).1 h8, by rw [← hRR p h8]; exact h9⟩

theorem perform_reordered (hS : S.discs.Nodup) {g g6 : Graph} {t t' : Trans} {r6 : Lcr} (h : g.Inv S e0) (ht : t.Good S) (ht' : t'.Good S)
    (hd : g.nodes.Disjoint t.inc) (hd' : g.nodes.Disjoint t'.inc) (hz : t.NoFromEmpty) (hp : Reordered t.pending t'.pending)
    (hr : (t.redir.map Prod.fst).Nodup) (hra : (t.redirAll.map Prod.fst).Nodup) (hc : ∀ p ∈ t.muts ++ t.upds, p.2.Respects)
    (hs : perform S g t = .ok (g6, r6)) : ∃ g6' r6', perform S g t' = .ok (g6', r6') ∧ View.Same g6.get? g6'.get? := by
  obtain ⟨p1, _, p3, p4, p5, p6, p7⟩ := hp
  simp only [Trans.pending] at p1 p3 p4 p5 p6 p7
  have p1' : ∀ x, t'.inc.get? x = t.inc.get? x := fun x => congrFun p1 x
  simp only [perform] at hs ⊢
  cases h1 : redirectLinksVec g t.redir Lcr.new with
  | error e => rw [h1] at hs; exact absurd hs (by simp)
  | ok st1 =>
    rw [h1] at hs
    obtain ⟨g1, r1⟩ := st1
    simp only at hs ⊢
    obtain ⟨g1', r1', h1', e1, q1⟩ := redirectLinksVec_perm (r' := Lcr.new) hr p7 h h (fun n hn => absurd (List.mem_append_left _ hn) (hz n))
      (View.Same.refl _) (fun _ => Iff.rfl) h1
    rw [h1']
    simp only
    have o1 := redirect_out (L0 := View.L g.get?) h (fun ⟨n, hn⟩ => absurd (List.mem_append_left _ hn) (hz n)) h1
    have o1' := redirect_out (L0 := View.L g.get?) h (fun ⟨n, hn⟩ => absurd (List.mem_append_left _ (p7.mem_iff.2 hn)) (hz n)) h1'
    have hd1 : g1.nodes.Disjoint t.inc := by intro i hi; rw [o1.disp]; exact hd i hi
    have hd1' : g1'.nodes.Disjoint t'.inc := by intro i hi; rw [o1'.disp]; exact hd' i hi
    obtain ⟨m1, m2, _, _, m5, _⟩ := mergeNodes_spec (r := r1) (L0 := View.L g.get?) hS o1.inv ht.inv hd1 ht.noEmpty ht.wt
    obtain ⟨k1, k2, _, _, k5, _⟩ := mergeNodes_spec (r := r1') (L0 := View.L g.get?) hS o1'.inv ht'.inv hd1' ht'.noEmpty ht'.wt
    have e2 : View.Same (mergeNodes S g1 t.inc r1).1.get? (mergeNodes S g1' t'.inc r1').1.get? := by
      intro x
      rw [m1, k1, p1']
      cases hx : t.inc.get? x with
      | none => simpa using e1 x
      | some n => exact Node.Same.refl n
    cases h3 : applyClosures modifyNode (mergeNodes S g1 t.inc r1) t.muts with
    | error e => rw [h3] at hs; exact absurd hs (by simp)
    | ok st3 =>
      rw [h3] at hs
      simp only at hs
      have o3 := applyClosures_out (L0 := View.L g.get?) (Or.inl rfl) t.muts (fun p hp => ht.closures p (by simp [hp])) m2 h3
      have hk5 : ∀ y, (mergeNodes S g1' t'.inc r1').1.back.Known y ↔ (mergeNodes S g1 t.inc r1).1.back.Known y := by
        intro y
        rw [m5, k5, q1]
        simp only [View.Linked, View.Holds, p1']
      obtain ⟨st3', h3', e3, q3⟩ := applyClosures_same (step := modifyNode) (Or.inl rfl) t.muts (fun p hp => ht.closures p (by simp [hp]))
        (fun p hp => hc p (by simp [hp])) (r' := (mergeNodes S g1' t'.inc r1').2) m2 k2 e2 hk5 h3
      have h3'' : applyClosures modifyNode (mergeNodes S g1' t'.inc r1') t'.muts = .ok st3' := by rw [p4]; exact h3'
      have o3' := applyClosures_out (L0 := View.L g.get?) (Or.inl rfl) t.muts (fun p hp => ht.closures p (by simp [hp])) k2 h3'
      rw [h3'']
      simp only
      cases h4 : applyClosures updateNode st3 t.upds with
      | error e => rw [h4] at hs; exact absurd hs (by simp)
      | ok st4 =>
        rw [h4] at hs
        have o4 := applyClosures_out (L0 := View.L g.get?) (Or.inr rfl) t.upds (fun p hp => ht.closures p (by simp [hp])) o3.inv h4
        obtain ⟨st4', h4', e4, q4⟩ := applyClosures_same (step := updateNode) (Or.inr rfl) t.upds (fun p hp => ht.closures p (by simp [hp]))
          (fun p hp => hc p (by simp [hp])) (r' := st3'.2) o3.inv o3'.inv e3 q3 h4
        have h4'' : applyClosures updateNode st3' t'.upds = .ok st4' := by rw [p5]; exact h4'
        have o4' := applyClosures_out (L0 := View.L g.get?) (Or.inr rfl) t.upds (fun p hp => ht.closures p (by simp [hp])) o3'.inv h4'
        rw [h4'']
        obtain ⟨g4, r4⟩ := st4
        obtain ⟨g4', r4'⟩ := st4'
        simp only at hs ⊢
        cases h5 : redirectLinksVec g4 t.redirAll r4 with
        | error e => rw [h5] at hs; exact absurd hs (by simp)
        | ok st5 =>
          rw [h5] at hs
          obtain ⟨g5, r5⟩ := st5
          simp only at hs
          have o5 := redirect_out (L0 := View.L g.get?) o4.inv (fun ⟨n, hn⟩ => absurd (List.mem_append_right _ hn) (hz n)) h5
          obtain ⟨g5', r5', h5', e5, q5⟩ := redirectLinksVec_perm (r' := r4') hra p6 o4.inv o4'.inv
            (fun n hn => absurd (List.mem_append_right _ hn) (hz n)) e4 q4 h5
          have o5' := redirect_out (L0 := View.L g.get?) o4'.inv (fun ⟨n, hn⟩ => absurd (List.mem_append_right _ (p6.mem_iff.2 hn)) (hz n)) h5'
          rw [h5']
          simp only
          have hdec : ∀ x, x ∈ t'.dec.elems ↔ x ∈ t.dec.elems := fun x => iff_of_eq (congrFun p3 x)
          rcases removeAll_cases (S := S) (r := r5) t.dec.elems t.dec.nodup (View.L g.get?) o5.inv with ⟨_, h6⟩ | ⟨hall, g6', r6', h6, o6⟩
          · rw [h6] at hs; exact absurd hs (by simp)
          · rw [h6] at hs
            obtain ⟨rfl, rfl⟩ : g6' = g6 ∧ r6' = r6 := by simpa using hs
            rcases removeAll_cases (S := S) (r := r5') t'.dec.elems t'.dec.nodup (View.L g.get?) o5'.inv with ⟨⟨x, hx, hxn⟩, _⟩ | ⟨hall', g7, r7, h7, o7⟩
            · exact absurd ((e5.none_iff x).1 hxn) (hall x ((hdec x).1 hx))
            · exact ⟨g7, r7, h7, removed_same hdec (removed_of_out o5.inv hall o6) (removed_of_out o5'.inv hall' o7) e5⟩

end
end Graph

section
variable [SetImpl] {dbg : Bool}

/-- Two transactions with the same net effect, on two graphs with the same nodes: if one is committed, so is the other. -/
theorem commit_of_net (hw : WellNamed S) (hd : DeclaredOnce S) (ho : OneOpposite S)
    {g h g' h6 : Graph} {t t' : Trans} {r6' : Lcr} (hst : SteadyBidir S t g.get?) (hst' : SteadyBidir S t' h.get?) (hva : SteadyAnnos S t g.get?)
    (hva' : SteadyAnnos S t' h.get?) (hg : g.Inv S False) (hh : h.Inv S False) (ht : t.Ready S) (ht' : t'.Ready S) (hdis : g.nodes.Disjoint t.inc)
    (hdis' : h.nodes.Disjoint t'.inc) (hs : View.Same g.get? h.get?) (hctx : dbg = true → t'.ctxId = h.ctxId)
    (hal : dbg = true → t'.allocs.isEmpty = true) (hperf' : Graph.perform S h t' = .ok (h6, r6'))
    (hp : ∀ g6 r6, Graph.perform S g t = .ok (g6, r6) → View.Same g6.get? h6.get?)
    (hc : g.commit S dbg t = .ok g') : ∃ h', h.commit S dbg t' = .ok h' ∧ View.Same g'.get? h'.get? := by
  obtain ⟨c1, c2, g6, r6, hperf⟩ := Graph.perform_of_commit hc
  have hsame := hp g6 r6 hperf
  have out := Graph.perform_out hw.variants hg ht.good hdis ht.noFrom hperf
  have out' := Graph.perform_out hw.variants hh ht'.good hdis' ht'.noFrom hperf'
  have h2 := Graph.commit_out hw hperf out hc
  rcases Graph.commit_after hw dbg hst' hctx hal hperf' out' with
    ⟨_, k1⟩ | ⟨_, ⟨g2, k1, k2⟩ | ⟨_, _, k1⟩ | ⟨_, k1⟩ | ⟨_, x, m, y, n, k1, k2, k3, k4⟩ | ⟨_, k1⟩⟩
  · exact absurd ((hs.vecLeft hsame).1 k1) (h2.noLeft hst)
  · exact ⟨g2, k1, completion_same (h2.completion hst) (k2.completion hst') hs hsame⟩
  · exact absurd k1 (not_undecided hw ho hd _ _)
  · exact absurd ((hs.conflict hsame).1 k1) (h2.noConflict hst)
  · exfalso
    have k5 : Spec.Steady S t' h.get? x m y := (hva' x m y).resolve_right fun hk => by
      rw [Schema.checkLinkType_of_accept hw (hk n.disc)] at k4
      exact absurd k4 (by simp)
    have k6 : Spec.Steady S t g.get? x m y := (hva x m y).resolve_right fun hk => by
      rw [Schema.checkLinkType_of_accept hw (hk n.disc)] at k4
      exact absurd k4 (by simp)
    have hy : y ≠ emptyIdx := by
      rintro rfl
      rw [out'.inv.noEmpty] at k1
      exact absurd k1 (by simp)
    obtain ⟨n6, hn6, hs6⟩ := hsame.symm.some k1
    have hsh : View.SameShape g6.get? g'.get? := h2.same.1
    obtain ⟨n7, hn7, hs7⟩ := hsh.some' hn6
    have := h2.types x m y n7 ⟨hy, (hsame.link x m y).1 k2, fun hl => k3 k5 ((hs.link x m y).2 hl)⟩ k6 hn7
    have e : n7.disc = n.disc := by
      have e1 : n6.disc = n.disc := hs6.1
      simp only [Node.shape, Prod.mk.injEq] at hs7
      exact hs7.1.trans e1
    rw [e, k4] at this
    exact absurd this (by simp)
  · exact absurd ((hs.vecMissing hsame).1 k1) (h2.noMissing hst)

/-- The last phases give the same result when the operations before them do. -/
theorem commit_of_same (hw : WellNamed S) (hd : DeclaredOnce S) (ho : OneOpposite S)
    {g g' : Graph} {t t' : Trans} (hst : SteadyBidir S t g.get?) (hst' : SteadyBidir S t' g.get?) (hva : SteadyAnnos S t g.get?) (hva' : SteadyAnnos S t' g.get?)
    (h : g.Inv S False) (ht : t.Ready S) (ht' : t'.Ready S) (hdis : g.nodes.Disjoint t.inc) (hdis' : g.nodes.Disjoint t'.inc)
    (hctx : t'.ctxId = t.ctxId) (hal : t.allocs.isEmpty = true → t'.allocs.isEmpty = true)
    (hp : ∀ g6 r6, Graph.perform S g t = .ok (g6, r6) → ∃ g6' r6', Graph.perform S g t' = .ok (g6', r6') ∧ View.Same g6.get? g6'.get?)
    (hc : g.commit S dbg t = .ok g') : ∃ g'', g.commit S dbg t' = .ok g'' ∧ View.Same g'.get? g''.get? := by
  obtain ⟨c1, c2, g6, r6, hperf⟩ := Graph.perform_of_commit hc
  obtain ⟨g6', r6', hperf', hsame⟩ := hp g6 r6 hperf
  refine commit_of_net hw hd ho hst hst' hva hva' h h ht ht' hdis hdis' (.refl _) (fun e => hctx.trans (c1 e)) (fun e => hal (c2 e)) hperf' ?_ hc
  intro g1 r1 h1
  rw [hperf, Except.ok.injEq, Prod.mk.injEq] at h1
  rw [← h1.1]
  exact hsame

theorem commit_reordered (hw : WellNamed S) (hd : DeclaredOnce S) (ho : OneOpposite S)
    {g g' : Graph} {t t' : Trans} (hst : SteadyBidir S t g.get?) (hst' : SteadyBidir S t' g.get?) (hva : SteadyAnnos S t g.get?) (hva' : SteadyAnnos S t' g.get?)
    (h : g.Inv S False) (ht : t.Ready S) (ht' : t'.Ready S) (hdis : g.nodes.Disjoint t.inc) (hdis' : g.nodes.Disjoint t'.inc)
    (hctx : t'.ctxId = t.ctxId) (hp : Reordered t.pending t'.pending)
    (hr : (t.redir.map Prod.fst).Nodup) (hra : (t.redirAll.map Prod.fst).Nodup) (hcl : ∀ p ∈ t.muts ++ t.upds, p.2.Respects)
    (hc : g.commit S dbg t = .ok g') : ∃ g'', g.commit S dbg t' = .ok g'' ∧ View.Same g'.get? g''.get? := by
  refine commit_of_same hw hd ho hst hst' hva hva' h ht ht' hdis hdis' hctx ?_ (fun g6 r6 hperf =>
    Graph.perform_reordered hw.variants h ht.good ht'.good hdis hdis' ht.noFrom hp hr hra hcl hperf) hc
  intro he
  have p2 : ∀ x, x ∈ t'.allocs ↔ x ∈ t.allocs := fun x => iff_of_eq (congrFun hp.unfilled x)
  unfold OrderSet.isEmpty at *
  rw [List.isEmpty_iff] at *
  rw [List.eq_nil_iff_forall_not_mem]
  intro x hx
  have := (p2 x).1 hx
  unfold OrderSet.instMembership at this
  change x ∈ t.allocs.elems at this
  rw [he] at this
  exact absurd this (by simp)

end
end TTGraph
