import Verif.Demo.Traced
import Verif.Demo.Decls
import Verif.Lemmas.Reorder
import Verif.Lemmas.Closures

/-!
# What a commit does: C03, C06, C07, C08, C09, C10, C11

A graph and a transaction that some program can have at the same moment (`Meets`), and the result of `commit`.  The specification is the
relation `Committed` of `Verif.Spec.Commit`.
-/

set_option autoImplicit false

namespace TTGraph
open Spec
variable [SetImpl] {S : Schema} {dbg : Bool} {R : World → Call → Prop}

/-! ## C03: the documented order -/

/-- If `commit` returns, the operations have been performed in the documented order; afterwards only link fields that `bidirectional!` lines mention
have changed. -/
theorem C03_operations (hw : WellNamed S) {g g' : Graph} {t : Trans} (h : Meets S dbg R g t) (hc : g.commit S dbg t = .ok g') :
    ∃ v6, Performed t g.get? v6 ∧ SameUpToBidir S v6 g'.get? := by
  obtain ⟨v6, out⟩ := h.commit hw hc
  exact ⟨v6, out.performed, out.same⟩

/-- If `commit` returns, the nodes are those that the documented order of the operations gives, completion of bidirectional links included (unless a
`Vec` of a `bidirectional!` line holds a node twice on the way, see C73). -/
theorem C03_order (hw : WellNamed S) {g g' : Graph} {t : Trans} (hst : SteadyBidir S t g.get?) (h : Meets S dbg R g t) (hc : g.commit S dbg t = .ok g') :
    Committed S t g.get? g'.get? := by
  obtain ⟨v6, out⟩ := h.commit hw hc
  exact ⟨v6, out.performed, out.completion hst⟩

omit [SetImpl] in
/-- That specification leaves nothing open but the iteration order of sets: it determines every node, if each node is redirected at most
once in each of the two lists and the closures do not look at the iteration order of sets. -/
theorem C03_determined {t : Trans} (hr : (t.pending.redir.map Prod.fst).Nodup) (hra : (t.pending.redirAll.map Prod.fst).Nodup)
    (hc : ∀ p ∈ t.pending.muts ++ t.pending.upds, p.2.Respects) {v v' v'' : View} (h : Committed S t v v') (h' : Committed S t v v'') :
    View.Same v' v'' :=
  committed_same rfl hr hra hc (.refl v) h h'

/-! ## C06: removal -/

/-- A removed node is gone and nothing points to it. -/
theorem C06_removed (hw : WellNamed S) {g g' : Graph} {t : Trans} (h : Meets S dbg R g t) (hc : g.commit S dbg t = .ok g')
    {x : NodeIndex} (hx : t.pending.removed x) : g'.get? x = none ∧ ∀ y s, ¬ View.Holds g'.get? y s x := by
  obtain ⟨v6, out⟩ := h.commit hw hc
  have hx' : x ∈ t.dec.elems := hx
  have h6 : v6 x = none := (performed_none out.performed x).2 (Or.inr hx')
  have h0 : emptyIdx ∉ t.dec.elems := by
    intro he
    obtain ⟨v1, v2, v3, v4, v5, a1, a2, a3, a4, a5, a6⟩ := out.performed
    have h5 := (a6.1 _ he).1
    refine h5 ((renamed_none a5.choose_spec.2 _).2 ((applied_none a4 _).2 ((applied_none a3 _).2 ?_)))
    have hg := (h.inv hw).noEmpty
    rw [a2.1 _ (h.ready hw).good.noEmpty]
    exact (renamed_none a1.choose_spec.2 _).2 hg
  refine ⟨?_, fun y s hh => ?_⟩
  · have := out.same.1 x
    rw [h6] at this
    simpa using this
  · rcases out.gain y s x hh with h1 | h1
    · exact performed_removed h0 out.performed hx' h1
    · exact h1 h6

/-- Besides that, the removals change nothing: compared with the commit of the same transaction without removals, every other node has the
same variant, data and shape (so that a `Vec` keeps its length), and each of its places holds what it would hold without the removals
unless that was a removed node.  (Places of fields that a `bidirectional!` line mentions are subject to C23.) -/
theorem C06_rest (hw : WellNamed S) {g g' g0 : Graph} {t : Trans} (h : Meets S dbg R g t) (hc : g.commit S dbg t = .ok g')
    (hc0 : g.commit S dbg { t with dec := OrderSet.empty } = .ok g0) {y : NodeIndex} (hy : ¬ t.pending.removed y) :
    (g'.get? y).map Node.shape = (g0.get? y).map Node.shape ∧
    ∀ s u, (∀ m, ¬ Opposite S m s.mirror) → (View.Holds g'.get? y s u ↔ View.Holds g0.get? y s u ∧ ¬ t.pending.removed u) := by
  have hinv := h.inv hw
  have hr := h.ready hw
  obtain ⟨hdis, _⟩ := h.disjoint hw
  have hgood0 : Trans.Good S { t with dec := OrderSet.empty } := ⟨hr.good.inv, hr.good.noEmpty, hr.good.wt, hr.good.closures⟩
  obtain ⟨c1, c2, g6, r6, hp⟩ := Graph.perform_of_commit hc
  obtain ⟨_, _, g5, r5, hp0⟩ := Graph.perform_of_commit hc0
  have out := Graph.perform_out hw.variants hinv hr.good hdis hr.noFrom hp
  have out0 := Graph.perform_out (t := { t with dec := OrderSet.empty }) hw.variants hinv hgood0 hdis hr.noFrom hp0
  have hco := Graph.commit_out hw hp out hc
  have hco0 := Graph.commit_out hw hp0 out0 hc0
  -- the operations before the removals are the same
  have hrem : Graph.removeAll (g5, r5) t.dec.elems = .ok (g6, r6) := by
    simp only [Graph.perform] at hp hp0
    cases h1 : Graph.redirectLinksVec g t.redir Lcr.new with
    | error e => rw [h1] at hp; exact absurd hp (by simp)
    | ok st1 =>
      rw [h1] at hp hp0
      obtain ⟨g1, r1⟩ := st1
      simp only at hp hp0
      cases h3 : Graph.applyClosures Graph.modifyNode (Graph.mergeNodes S g1 t.inc r1) t.muts with
      | error e => rw [h3] at hp; exact absurd hp (by simp)
      | ok st3 =>
        rw [h3] at hp hp0
        simp only at hp hp0
        cases h4 : Graph.applyClosures Graph.updateNode st3 t.upds with
        | error e => rw [h4] at hp; exact absurd hp (by simp)
        | ok st4 =>
          rw [h4] at hp hp0
          obtain ⟨g4, r4⟩ := st4
          simp only at hp hp0
          cases h5 : Graph.redirectLinksVec g4 t.redirAll r4 with
          | error e => rw [h5] at hp; exact absurd hp (by simp)
          | ok st5 =>
            rw [h5] at hp hp0
            simp only [Graph.removeAll, OrderSet.empty, foldE, Except.ok.injEq] at hp0
            subst hp0
            exact hp
  rcases Graph.removeAll_cases (S := S) (r := r5) t.dec.elems t.dec.nodup (View.L g.get?) out0.inv with ⟨_, h6⟩ | ⟨hall, g6', r6', h6, o6⟩
  · rw [h6] at hrem; exact absurd hrem (by simp)
  rw [hrem] at h6
  obtain ⟨rfl, rfl⟩ : g6 = g6' ∧ r6 = r6' := by simpa using h6
  have hy' : y ∉ t.dec.elems := hy
  refine ⟨?_, fun s u hs => ?_⟩
  · rw [hco.same.1 y, hco0.same.1 y, o6.shape y, if_neg hy']
  · rw [hco.same.2 y s u hs, hco0.same.2 y s u hs, o6.holds]
    exact ⟨fun ⟨a, _, b⟩ => ⟨a, b⟩, fun ⟨a, b⟩ => ⟨a, hy', b⟩⟩

/-! ## C07: redirection -/

/-- The effect of the redirects, when nothing else is pending: each link is sent to the end of its chain.  `RedirectMap` says what the ends
are; the fields that `bidirectional!` lines mention are subject to completion besides. -/
theorem C07_redirects (hw : WellNamed S) {g g' : Graph} {t : Trans} (h : Meets S dbg R g t) (hc : g.commit S dbg t = .ok g')
    (hnew : ∀ i, t.pending.new i = none) (hrem : ∀ i, ¬ t.pending.removed i) (hm : t.pending.muts = []) (hu : t.pending.upds = []) :
    ∃ ρ ρ' v1 v2, RedirectMap t.pending.redir ρ ∧ RedirectMap t.pending.redirAll ρ' ∧
      View.Renamed ρ g.get? v1 ∧ View.Renamed ρ' v1 v2 ∧ SameUpToBidir S v2 g'.get? := by
  obtain ⟨v6, out⟩ := h.commit hw hc
  obtain ⟨v1, v2, v3, v4, v5, ⟨ρ, a1, a1'⟩, a2, a3, a4, ⟨ρ', a5, a5'⟩, a6⟩ := out.performed
  have hm' : t.muts = [] := hm
  have hu' : t.upds = [] := hu
  rw [hm'] at a3
  rw [hu'] at a4
  have e2 : v2 = v1 := funext fun x => a2.1 x (hnew x)
  have e3 : v3 = v2 := by cases a3 with | nil h => exact funext h
  have e4 : v4 = v3 := by cases a4 with | nil h => exact funext h
  rw [e4, e3, e2] at a5'
  refine ⟨ρ, ρ', v1, v5, a1, a5, a1', a5', ?_⟩
  have hd : ∀ i, i ∉ t.dec.elems := hrem
  have h6 : View.Same v5 v6 := by
    intro x
    have := a6.2 x (hd x)
    have e : (fun u => if u ∈ t.dec.elems then emptyIdx else u) = id := funext fun u => if_neg (hd u)
    rw [e] at this
    exact this
  obtain ⟨s1, s2⟩ := View.same_iff.1 h6
  obtain ⟨b1, b2⟩ := out.same
  exact ⟨fun x => (b1 x).trans (s1 x), fun x s y hs => (b2 x s y hs).trans (s2 x s y)⟩

/-- After `redirect_all_links`, whatever else the transaction does, no link to a redirected node remains. -/
theorem C07_none_left (hw : WellNamed S) {g g' : Graph} {t : Trans} (h : Meets S dbg R g t) (hc : g.commit S dbg t = .ok g')
    {u n : NodeIndex} (hu : (u, n) ∈ t.pending.redirAll) (x : NodeIndex) (s : Source) (hs : ∀ m, ¬ Opposite S m s.mirror) :
    ¬ View.Holds g'.get? x s u := by
  obtain ⟨v6, out⟩ := h.commit hw hc
  have hu' : (u, n) ∈ t.redirAll := hu
  have hne : u ≠ emptyIdx := fun e => (h.ready hw).noFrom n (by rw [← e]; exact List.mem_append_right _ hu')
  rw [(out.same).2 x s u hs]
  obtain ⟨v1, v2, v3, v4, v5, _, _, _, _, ⟨ρ', a5, a5'⟩, a6⟩ := out.performed
  have h5 : ∀ w, ρ' w ≠ u := by
    intro w hw'
    by_cases hw2 : ∃ k, (w, k) ∈ t.redirAll
    · obtain ⟨k, hk⟩ := hw2
      obtain ⟨pre, k', post, e1, e2⟩ := split_first hk
      exact (a5.first _ _ _ _ e1 e2).2 n (hw' ▸ hu')
    · have := a5.other w (fun k hk => hw2 ⟨k, hk⟩)
      rw [this] at hw'
      exact hw2 ⟨n, hw' ▸ hu'⟩
  rintro ⟨n6, hn6, hh⟩
  by_cases hx : x ∈ t.dec.elems
  · rw [(a6.1 x hx).2] at hn6
    exact absurd hn6 (by simp)
  · have := a6.2 x hx
    rw [hn6] at this
    cases e5 : v5 x with
    | none => rw [e5] at this; exact this
    | some n5 =>
      rw [e5] at this
      obtain ⟨w, hw1, hw2, _⟩ := (Node.Renamed.holds this s u).1 hh
      have hwu : w = u := by
        by_cases hd : w ∈ t.dec.elems
        · rw [if_pos hd] at hw2; exact absurd hw2.symm hne
        · rwa [if_neg hd] at hw2
      subst hwu
      have h4 := a5' x
      rw [e5] at h4
      cases e4 : v4 x with
      | none => rw [e4] at h4; exact h4
      | some n4 =>
        rw [e4] at h4
        obtain ⟨z, _, hz, _⟩ := (Node.Renamed.holds h4 s w).1 hw1
        exact h5 z hz

/-- The order in which the redirects were requested does not matter, if every node is redirected at most once by each of the two methods:
if both transactions can be committed, the results are the same. -/
theorem C07_order (hw : WellNamed S) {g g' g'' : Graph} {t t' : Trans} (hst : SteadyBidir S t g.get?) (hst' : SteadyBidir S t' g.get?) (h : Meets S dbg R g t) (h' : Meets S dbg R g t')
    (hp : Reordered t.pending t'.pending) (hr : (t.pending.redir.map Prod.fst).Nodup) (hra : (t.pending.redirAll.map Prod.fst).Nodup)
    (hcl : ∀ p ∈ t.pending.muts ++ t.pending.upds, p.2.Respects)
    (hc : g.commit S dbg t = .ok g') (hc' : g.commit S dbg t' = .ok g'') : View.Same g'.get? g''.get? :=
  committed_reordered hp hr hra hcl (.refl _) (C03_order hw hst h hc) (C03_order hw hst' h' hc')

/-- And if one of them can be committed then so can the other, for declarations without alternatives and redundancies. -/
theorem C07_order_ok (hw : WellNamed S) (hd : DeclaredOnce S) (ho : OneOpposite S)
    {g g' : Graph} {t t' : Trans} (hst : SteadyBidir S t g.get?) (hst' : SteadyBidir S t' g.get?) (hva : SteadyAnnos S t g.get?)
    (hva' : SteadyAnnos S t' g.get?) (h : Meets S dbg R g t) (h' : Meets S dbg R g t')
    (hp : Reordered t.pending t'.pending) (hr : (t.pending.redir.map Prod.fst).Nodup) (hra : (t.pending.redirAll.map Prod.fst).Nodup)
    (hcl : ∀ p ∈ t.pending.muts ++ t.pending.upds, p.2.Respects)
    (hc : g.commit S dbg t = .ok g') : ∃ g'', g.commit S dbg t' = .ok g'' ∧ View.Same g'.get? g''.get? :=
  commit_reordered hw hd ho hst hst' hva hva' (h.inv hw) (h.ready hw) (h'.ready hw) (h.disjoint hw).1 (h'.disjoint hw).1
    ((h'.disjoint hw).2.1.trans (h.disjoint hw).2.1.symm) hp hr hra hcl hc

/-! ## C08: loops -/

/-- A loop among the `redirect_links` requests, each node redirected at most once, makes `commit` panic with the loop error (once the
assertions of the debug build on context and allocations have passed). -/
theorem C08_loop (hw : WellNamed S) {g : Graph} {t : Trans} (h : Meets S dbg R g t) (ha : dbg = true → ∀ i, ¬ t.pending.unfilled i)
    (hn : (t.pending.redir.map Prod.fst).Nodup) (hl : Loop t.pending.redir) : g.commit S dbg t = .error .redirectLoop := by
  have hctx := (h.disjoint hw).2.1
  have hal : ¬ (dbg && !t.allocs.isEmpty) = true := by
    intro hb
    simp only [Bool.and_eq_true, Bool.not_eq_true'] at hb
    have hel : t.allocs.elems = [] := List.eq_nil_iff_forall_not_mem.2 (fun i hi => ha hb.1 i hi)
    simp [OrderSet.isEmpty, hel] at hb
  simp only [Graph.commit, Graph.doCommit_eq]
  rw [if_neg (by simp [hctx]), if_neg hal]
  have hl' : Graph.redirectLinksVec g t.redir Lcr.new = .error .redirectLoop := Graph.redirect_loop hn hl _ _
  simp only [Graph.perform, hl']

/-- The same for `redirect_all_links`, in a transaction that otherwise only inserts and removes nodes. -/
theorem C08_loop_all (hw : WellNamed S) {g : Graph} {t : Trans} (h : Meets S dbg R g t) (ha : dbg = true → ∀ i, ¬ t.pending.unfilled i)
    (hm : t.pending.muts = []) (hu : t.pending.upds = []) (hr : t.pending.redir = [])
    (hn : (t.pending.redirAll.map Prod.fst).Nodup) (hl : Loop t.pending.redirAll) : g.commit S dbg t = .error .redirectLoop := by
  have hctx := (h.disjoint hw).2.1
  have hal : ¬ (dbg && !t.allocs.isEmpty) = true := by
    intro hb
    simp only [Bool.and_eq_true, Bool.not_eq_true'] at hb
    have hel : t.allocs.elems = [] := List.eq_nil_iff_forall_not_mem.2 (fun i hi => ha hb.1 i hi)
    simp [OrderSet.isEmpty, hel] at hb
  have hr' : t.redir = [] := hr
  have hm' : t.muts = [] := hm
  have hu' : t.upds = [] := hu
  simp only [Graph.commit, Graph.doCommit_eq]
  rw [if_neg (by simp [hctx]), if_neg hal]
  have h1 : Graph.redirectLinksVec g [] Lcr.new = .ok (g, Lcr.new) := rfl
  have hl' : ∀ g r, Graph.redirectLinksVec g t.redirAll r = .error .redirectLoop := Graph.redirect_loop hn hl
  simp only [Graph.perform, hr', hm', hu', h1, Graph.applyClosures, foldE, hl']

/-- Whatever else the transaction does, with a loop among its requests it is never committed. -/
theorem C08_never {g : Graph} {t : Trans}
    (hl : ((t.pending.redir.map Prod.fst).Nodup ∧ Loop t.pending.redir) ∨ ((t.pending.redirAll.map Prod.fst).Nodup ∧ Loop t.pending.redirAll))
    (g' : Graph) : g.commit S dbg t ≠ .ok g' := by
  intro hc
  obtain ⟨_, _, g6, r6, hp⟩ := Graph.perform_of_commit hc
  rcases hl with ⟨hn, hl⟩ | ⟨hn, hl⟩
  · have hl' : Graph.redirectLinksVec g t.redir Lcr.new = .error .redirectLoop := Graph.redirect_loop hn hl g Lcr.new
    simp only [Graph.perform, hl'] at hp
    exact absurd hp (by simp)
  · have hl' : ∀ g r, Graph.redirectLinksVec g t.redirAll r = .error .redirectLoop := Graph.redirect_loop hn hl
    simp only [Graph.perform, hl'] at hp
    repeat (split at hp <;> [exact absurd hp (by simp); skip])
    exact absurd hp (by simp)

/-- A loop among the `redirect_all_links` requests is what `commit` reports, if the transaction could be committed without these requests. -/
theorem C08_loop_last {g g0 : Graph} {t : Trans} (hn : (t.pending.redirAll.map Prod.fst).Nodup) (hl : Loop t.pending.redirAll)
    (hc : g.commit S dbg { t with redirAll := [] } = .ok g0) : g.commit S dbg t = .error .redirectLoop := by
  obtain ⟨c1, c2, g6, r6, hp⟩ := Graph.perform_of_commit hc
  have hl' : ∀ g r, Graph.redirectLinksVec g t.redirAll r = .error .redirectLoop := Graph.redirect_loop hn hl
  have hperf : Graph.perform S g t = .error .redirectLoop := by
    simp only [Graph.perform] at hp ⊢
    cases h1 : Graph.redirectLinksVec g t.redir Lcr.new with
    | error e => rw [h1] at hp; exact absurd hp (by simp)
    | ok st1 =>
      obtain ⟨g1, r1⟩ := st1
      simp only [h1] at hp ⊢
      cases h2 : Graph.applyClosures Graph.modifyNode (Graph.mergeNodes S g1 t.inc r1) t.muts with
      | error e => rw [h2] at hp; exact absurd hp (by simp)
      | ok st3 =>
        simp only [h2] at hp ⊢
        cases h3 : Graph.applyClosures Graph.updateNode st3 t.upds with
        | error e => rw [h3] at hp; exact absurd hp (by simp)
        | ok st4 =>
          obtain ⟨g4, r4⟩ := st4
          simp only [hl']
  simp only [Graph.commit, Graph.doCommit_eq, hperf]
  rw [if_neg, if_neg]
  · intro hb
    simp only [Bool.and_eq_true, Bool.not_eq_true'] at hb
    have := c2 hb.1
    rw [show t.allocs.isEmpty = true from this] at hb
    exact absurd hb.2 (by simp)
  · intro hb
    simp only [Bool.and_eq_true, decide_eq_true_eq] at hb
    exact hb.2 (c1 hb.1)

/-- The loop error is only raised if there is a loop (or by a closure of the user). -/
theorem C08_only (hw : WellNamed S) {g : Graph} {t : Trans} (h : Meets S dbg R g t)
    (hcl : ∀ p ∈ t.pending.muts ++ t.pending.upds, ∀ n, p.2 n ≠ .error .redirectLoop) (hc : g.commit S dbg t = .error .redirectLoop) :
    Loop t.pending.redir ∨ Loop t.pending.redirAll := by
  rcases Graph.commit_panics hw (h.inv hw) (h.ready hw).good (h.disjoint hw).1 (h.ready hw).noFrom hc with
    ⟨h1, _⟩ | h1 | h1 | h1 | h1 | ⟨h1 | h1, _⟩ | h1
  · exact absurd h1 (by simp)
  · exact absurd h1 (by simp)
  · rcases Graph.perform_error hw.variants (h.inv hw) (h.ready hw).good (h.disjoint hw).1 (h.ready hw).noFrom h1 with
      ⟨_, h2⟩ | h2 | ⟨h2, _⟩ | ⟨h2, _⟩ | ⟨p, h2, n, h3⟩
    · exact h2
    · exact absurd h2 (by simp)
    · exact absurd h2 (by simp)
    · exact absurd h2 (by simp)
    · exact absurd h3 (hcl p h2 n)
  all_goals exact absurd h1 (by simp)

/-- `commit` always terminates: none of its loops runs out of the fuel that the model gives it (unless a closure of the user does not
return). -/
theorem C08_terminates (hw : WellNamed S) {g : Graph} {t : Trans} (h : Meets S dbg R g t)
    (hcl : ∀ p ∈ t.pending.muts ++ t.pending.upds, ∀ n, p.2 n ≠ .error .diverge) : g.commit S dbg t ≠ .error .diverge := by
  intro hc
  rcases Graph.commit_panics hw (h.inv hw) (h.ready hw).good (h.disjoint hw).1 (h.ready hw).noFrom hc with
    ⟨h1, _⟩ | h1 | h1 | h1 | h1 | ⟨h1 | h1, _⟩ | h1
  · exact absurd h1 (by simp)
  · exact absurd h1 (by simp)
  · rcases Graph.perform_error hw.variants (h.inv hw) (h.ready hw).good (h.disjoint hw).1 (h.ready hw).noFrom h1 with
      ⟨h2, _⟩ | h2 | ⟨h2, _⟩ | ⟨h2, _⟩ | ⟨p, h2, n, h3⟩
    · exact absurd h2 (by simp)
    · exact absurd h2 (by simp)
    · exact absurd h2 (by simp)
    · exact absurd h2 (by simp)
    · exact absurd h3 (hcl p h2 n)
  all_goals exact absurd h1 (by simp)

/-! ## C09: several requests for one node -/

/-- The links to a node follow the first request for it: they go to an end of a chain that starts there.  Later requests for the node move
none of its links. -/
theorem C09_first_partial (hw : WellNamed S) {g g' : Graph} {t : Trans} (h : Meets S dbg R g t) (hc : g.commit S dbg t = .ok g')
    (hnew : ∀ i, t.pending.new i = none) (hrem : ∀ i, ¬ t.pending.removed i) (hm : t.pending.muts = []) (hu : t.pending.upds = [])
    (hra : t.pending.redirAll = []) {pre post : List (NodeIndex × NodeIndex)} {u n : NodeIndex} (hr : t.pending.redir = pre ++ (u, n) :: post)
    (hfirst : ∀ m, (u, m) ∉ pre) {x : NodeIndex} {s : Source} (hs : ∀ m, ¬ Opposite S m s.mirror) (hx : View.Holds g.get? x s u) :
    ∃ w, Chain t.pending.redir n w ∧ (∀ m, (w, m) ∉ t.pending.redir) ∧ (w ≠ emptyIdx → View.Holds g'.get? x s w) := by
  obtain ⟨ρ, ρ', v1, v2, a1, a2, a3, a4, a5⟩ := C07_redirects hw h hc hnew hrem hm hu
  obtain ⟨b1, b2⟩ := a1.first pre u n post hr hfirst
  refine ⟨ρ u, b1, b2, fun hne => ?_⟩
  rw [a5.2 x s _ hs]
  have e : ρ' = id := funext fun y => a2.other y (by rw [hra]; simp)
  have c1 : View.Holds v1 x s (ρ u) := ((View.renH_iff.2 a3).holds x s (ρ u)).2 ⟨u, hx, rfl, Or.inl hne⟩
  exact ((View.renH_iff.2 a4).holds x s (ρ u)).2 ⟨ρ u, c1, by rw [e]; rfl, Or.inl hne⟩

/-! ## C10: redirects and new nodes -/

/-- The links of a new node are left alone by `redirect_links` and follow the chains of `redirect_all_links`; those that then lead to removed
nodes are cleared.  (If the node is also mutated, updated or removed, C03 says what happens.) -/
theorem C10_new_nodes (hw : WellNamed S) {g g' : Graph} {t : Trans} (h : Meets S dbg R g t) (hc : g.commit S dbg t = .ok g')
    {x : NodeIndex} {n : Node} (hn : t.pending.new x = some n) (hm : ∀ p ∈ t.pending.muts ++ t.pending.upds, p.1 ≠ x)
    (hrem : ¬ t.pending.removed x) :
    ∃ ρ n5 n', RedirectMap t.pending.redirAll ρ ∧ Node.Renamed ρ n n5 ∧ g'.get? x = some n' ∧ n'.shape = n5.shape ∧
      ∀ s y, y ≠ emptyIdx → (∀ m, ¬ Opposite S m s.mirror) → (n'.Holds s y ↔ n5.Holds s y ∧ ¬ t.pending.removed y) := by
  obtain ⟨v6, out⟩ := h.commit hw hc
  obtain ⟨ρ, n5, n6, b1, b2, b3, b4⟩ := performed_new out.performed hn hm hrem
  have hs := out.same
  obtain ⟨n', b5, b6⟩ := hs.exists b4
  refine ⟨ρ, n5, n', b1, b2, b5, b6.trans (Node.Renamed.shape b3), fun s y hy hsy => ?_⟩
  have := hs.2 x s y hsy
  have e7 : View.Holds g'.get? x s y ↔ n'.Holds s y := ⟨fun ⟨k, hk, hh⟩ => by rw [b5, Option.some.injEq] at hk; exact hk ▸ hh, fun hh => ⟨n', b5, hh⟩⟩
  have e6 : View.Holds v6 x s y ↔ n6.Holds s y := ⟨fun ⟨k, hk, hh⟩ => by rw [b4, Option.some.injEq] at hk; exact hk ▸ hh, fun hh => ⟨n6, b4, hh⟩⟩
  rw [← e7, this, e6, Node.Renamed.holds b3]
  constructor
  · rintro ⟨u, h1, h2, _⟩
    by_cases hu : u ∈ t.dec.elems
    · rw [if_pos hu] at h2
      exact absurd h2.symm hy
    · rw [if_neg hu] at h2
      exact h2 ▸ ⟨h1, hu⟩
  · rintro ⟨h1, h2⟩
    exact ⟨y, h1, if_neg h2, Or.inl hy⟩

/-- In particular `redirect_links` alone does not touch the new nodes. -/
theorem C10_spared (hw : WellNamed S) {g g' : Graph} {t : Trans} (h : Meets S dbg R g t) (hc : g.commit S dbg t = .ok g')
    {x : NodeIndex} {n : Node} (hn : t.pending.new x = some n) (hm : ∀ p ∈ t.pending.muts ++ t.pending.upds, p.1 ≠ x)
    (hrem : ¬ t.pending.removed x) (hra : t.pending.redirAll = []) :
    ∃ n', g'.get? x = some n' ∧ n'.shape = n.shape ∧
      ∀ s y, y ≠ emptyIdx → (∀ m, ¬ Opposite S m s.mirror) → (n'.Holds s y ↔ n.Holds s y ∧ ¬ t.pending.removed y) := by
  obtain ⟨ρ, n5, n', b1, b2, b3, b4, b5⟩ := C10_new_nodes hw h hc hn hm hrem
  have := Node.same_iff.1 (b2.same (fun s y _ => b1.other y (by rw [hra]; simp)))
  exact ⟨n', b3, b4.trans this.1, fun s y hy hs => (b5 s y hy hs).trans (and_congr_left fun _ => this.2 s y)⟩

/-! ## C11: mutate and update -/

/-- A commit that only mutates and updates: every node is the result of its own closures, all mutates in call order and then all updates in
call order, up to the fields that `bidirectional!` lines mention. -/
theorem C11_values (hw : WellNamed S) {g g' : Graph} {t : Trans} (h : Meets S dbg R g t) (hc : g.commit S dbg t = .ok g')
    (hnew : ∀ i, t.pending.new i = none) (hrem : ∀ i, ¬ t.pending.removed i) (hr : t.pending.redir = []) (hra : t.pending.redirAll = [])
    {x : NodeIndex} {n : Node} (hn : g.get? x = some n) :
    ∃ n1 n', ((t.pending.muts ++ t.pending.upds).filter (fun p => decide (p.1 = x))).foldlM (fun n p => p.2 n) n = Except.ok n1 ∧
      g'.get? x = some n' ∧ n'.shape = n1.shape ∧ ∀ s y, (∀ m, ¬ Opposite S m s.mirror) → (n'.Holds s y ↔ n1.Holds s y) := by
  have hinv := h.inv hw
  have hre := h.ready hw
  obtain ⟨hdis, _⟩ := h.disjoint hw
  obtain ⟨c1, c2, g6, r6, hp⟩ := Graph.perform_of_commit hc
  have ha := Graph.perform_closures hw hinv hre.good hdis hnew hrem hr hra hp
  have out := Graph.perform_out hw.variants hinv hre.good hdis hre.noFrom hp
  have h2 := Graph.commit_out hw hp out hc
  obtain ⟨n1, k1, k2⟩ := applied_at ha hn
  have hs := h2.same
  obtain ⟨n', k3, k4⟩ := hs.exists k2
  refine ⟨n1, n', k1, k3, k4, fun s y hsy => ?_⟩
  have e7 : View.Holds g'.get? x s y ↔ n'.Holds s y := ⟨fun ⟨k, hk, hh⟩ => by rw [k3, Option.some.injEq] at hk; exact hk ▸ hh, fun hh => ⟨n', k3, hh⟩⟩
  have e6 : View.Holds g6.get? x s y ↔ n1.Holds s y := ⟨fun ⟨k, hk, hh⟩ => by rw [k2, Option.some.injEq] at hk; exact hk ▸ hh, fun hh => ⟨n1, k2, hh⟩⟩
  rw [← e7, hs.2 x s y hsy, e6]

/-- A node that is not itself mutated or updated is unchanged, unless a mutated or updated node has a link to it, before or after, in a field
with an opposite. -/
theorem C11_others (hw : WellNamed S) {g g' : Graph} {t : Trans} (hst : SteadyBidir S t g.get?) (h : Meets S dbg R g t) (hc : g.commit S dbg t = .ok g')
    (hnew : ∀ i, t.pending.new i = none) (hrem : ∀ i, ¬ t.pending.removed i) (hr : t.pending.redir = []) (hra : t.pending.redirAll = [])
    {x : NodeIndex} (hx : ∀ p ∈ t.pending.muts ++ t.pending.upds, p.1 ≠ x)
    (hl : ∀ p ∈ t.pending.muts ++ t.pending.upds, ∀ n n1, g.get? p.1 = some n →
      ((t.pending.muts ++ t.pending.upds).filter (fun q => decide (q.1 = p.1))).foldlM (fun n p => p.2 n) n = Except.ok n1 →
      ∀ m m', Opposite S m m' → ¬ n.HasLink m x ∧ ¬ n1.HasLink m x) :
    (g.get? x = none ∧ g'.get? x = none) ∨ ∃ n n', g.get? x = some n ∧ g'.get? x = some n' ∧ n.Same n' := by
  have hinv := h.inv hw
  have hre := h.ready hw
  obtain ⟨hdis, _⟩ := h.disjoint hw
  obtain ⟨c1, c2, g6, r6, hp⟩ := Graph.perform_of_commit hc
  have ha := Graph.perform_closures hw hinv hre.good hdis hnew hrem hr hra hp
  have out := Graph.perform_out hw.variants hinv hre.good hdis hre.noFrom hp
  have h2 := Graph.commit_out hw hp out hc
  have e6 : g6.get? x = g.get? x := applied_other ha hx
  have hlink : ∀ w m m', Opposite S m m' → (View.Link g.get? w m x ↔ View.Link g6.get? w m x) := by
    intro w m m' hm
    by_cases hwt : ∀ p ∈ t.muts ++ t.upds, p.1 ≠ w
    · have := applied_other ha hwt
      simp only [View.Link, this]
    · push Not at hwt
      obtain ⟨p, hp1, rfl⟩ := hwt
      cases hg : g.get? p.1 with
      | none =>
        have := (applied_none ha p.1).2 hg
        simp only [View.Link, hg, this]
      | some n =>
        obtain ⟨n1, k1, k2⟩ := applied_at ha hg
        obtain ⟨l1, l2⟩ := hl p hp1 n n1 hg k1 m m' hm
        refine iff_of_false ?_ ?_
        · rintro ⟨k, hk, hh⟩
          rw [hg, Option.some.injEq] at hk
          exact l1 (hk ▸ hh)
        · rintro ⟨k, hk, hh⟩
          rw [k2, Option.some.injEq] at hk
          exact l2 (hk ▸ hh)
  have hholds : ∀ s y, View.Holds g'.get? x s y ↔ View.Holds g6.get? x s y := by
    intro s y
    rw [(h2.completion hst).2]
    constructor
    · rintro (⟨k, _⟩ | ⟨_, _, m, d, ⟨_, k1, k2⟩, _, k3⟩)
      · exact k
      · exact absurd ((hlink y m _ k3.1).2 k1) k2
    · exact fun k => Or.inl ⟨k, fun ⟨m, d, ⟨_, k1, k2⟩, _, k3, _⟩ => k2 ((hlink y m _ k3).1 k1)⟩
  have hsh := h2.same.1 x
  cases hg : g.get? x with
  | none =>
    left
    rw [e6, hg] at hsh
    exact ⟨rfl, by simpa using hsh⟩
  | some n =>
    right
    rw [e6, hg] at hsh
    cases hg' : g'.get? x with
    | none => rw [hg'] at hsh; exact absurd hsh (by simp)
    | some n' =>
      rw [hg'] at hsh
      refine ⟨n, n', rfl, rfl, Node.same_iff.2 ⟨by simpa using hsh, fun s y => ?_⟩⟩
      have := hholds s y
      simp only [View.Holds, e6, hg, hg', Option.some.injEq, exists_eq_left'] at this
      exact this

end TTGraph

namespace TTGraph.Demo
open Spec

/-- Nodes 1 (with links of all kinds to 2 and 3), 2 and 3. -/
def base3 : List Step :=
  [.call (.newContext 0 77), .call (.newGraph 0 0), .call (.newTrans 0 0), .call (.op 0 (.insert (nA 2 [2, 3] [2, 3, 2] 5))),
   .call (.op 0 (.insert (nB 1))), .call (.op 0 (.insert (nB 2))), .call (.commit 0 0), .call (.newTrans 1 0)]

/-- A transaction with all kinds of operations. -/
def all3 : List Step := base3 ++
  [.call (.op 1 (.insert (nA 2 [2] [3] 1))), .call (.op 1 (.redirectLinks 2 3)), .call (.op 1 (.redirectAllLinks 3 1)), .mutate 1 3 (nB 4),
   .update 1 1 (nA 3 [] [3] 9), .call (.op 1 (.remove 2))]

/-- C03, C06, C10: the transaction meets the graph and can be committed, with and without the removal. -/
example :
    let w := run plain true World.init all3
    Meets plain true AnyCall (graphAt w 0) (transAt w 1) ∧ ((graphAt w 0).commit plain true (transAt w 1)).toOption.isSome = true ∧
    2 ∈ (transAt w 1).dec ∧ ((graphAt w 0).commit plain true { transAt w 1 with dec := OrderSet.empty }).toOption.isSome = true :=
  ⟨meets_of (reaches all3 (by decide +kernel)) 0 1 (by decide +kernel), by decide +kernel⟩

/-- C03: the redirects have distinct sources, and a constant closure does not look at the order of sets. -/
example : let t := transAt (run plain true World.init all3) 1
    (t.pending.redir.map Prod.fst).Nodup ∧ (t.pending.redirAll.map Prod.fst).Nodup ∧ (const (nB 4)).Respects :=
  ⟨by decide +kernel, by decide +kernel, fun _ _ _ => Or.inr ⟨_, _, rfl, rfl, Node.Same.refl _⟩⟩

/-- Only redirects, of both kinds, in two orders. -/
def redir3 : List Step := base3 ++
  [.call (.op 1 (.redirectLinks 2 3)), .call (.op 1 (.redirectLinks 3 1)), .call (.op 1 (.redirectAllLinks 1 2))]
def redir3' : List Step := base3 ++
  [.call (.op 1 (.redirectLinks 3 1)), .call (.op 1 (.redirectLinks 2 3)), .call (.op 1 (.redirectAllLinks 1 2))]

/-- C07: hypotheses of `C07_redirects`, `C07_none_left`, `C07_order`, `C07_order_ok`. -/
example :
    let w := run plain true World.init redir3
    let w' := run plain true World.init redir3'
    let t' := transAt w' 1
    Meets plain true AnyCall (graphAt w 0) (transAt w 1) ∧ Meets plain true AnyCall (graphAt w' 0) t' ∧ graphAt w' 0 = graphAt w 0 ∧
    Reordered (transAt w 1).pending t'.pending ∧ DeclaredOnce plain ∧ OneOpposite plain ∧
    SteadyAnnos plain (transAt w 1) (graphAt w 0).get? ∧ SteadyAnnos plain t' (graphAt w 0).get? ∧
    ((graphAt w 0).commit plain true (transAt w 1)).toOption.isSome = true ∧ ((graphAt w 0).commit plain true t').toOption.isSome = true ∧
    (transAt w 1).redir = [(2, 3), (3, 1)] ∧ t'.redir = [(3, 1), (2, 3)] ∧ (transAt w 1).muts.length = 0 ∧ (transAt w 1).upds.length = 0 ∧
    (transAt w 1).dec.elems = [] := by
  have hva : ∀ t v, SteadyAnnos plain t v := fun t v x m y => Or.inr fun d a ha => absurd ha (by simp [plain])
  exact ⟨meets_of (reaches redir3 (by decide +kernel)) 0 1 (by decide +kernel), meets_of (reaches redir3' (by decide +kernel)) 0 1 (by decide +kernel),
    rfl, ⟨rfl, rfl, rfl, rfl, rfl, by decide +kernel, by decide +kernel⟩, declaredOnce_sound plain_named (by decide +kernel),
    oneOpposite_sound plain_named (by decide), hva _ _, hva _ _, by decide +kernel⟩

/-- A loop of length 2 and a loop of length 3, in the two lists. -/
def loop3 : List Step := base3 ++ [.call (.op 1 (.redirectLinks 2 3)), .call (.op 1 (.redirectLinks 3 2))]
def loopAll3 : List Step := base3 ++
  [.call (.op 1 (.redirectAllLinks 2 3)), .call (.op 1 (.redirectAllLinks 3 1)), .call (.op 1 (.redirectAllLinks 1 2))]

/-- C08: loops with distinct sources. -/
example :
    let w := run plain true World.init loop3
    let w' := run plain true World.init loopAll3
    Meets plain true AnyCall (graphAt w 0) (transAt w 1) ∧ Meets plain true AnyCall (graphAt w' 0) (transAt w' 1) ∧
    ((transAt w 1).redir.map Prod.fst).Nodup ∧ ((transAt w' 1).redirAll.map Prod.fst).Nodup ∧ Loop (transAt w 1).redir ∧ Loop (transAt w' 1).redirAll := by
  refine ⟨meets_of (reaches loop3 (by decide +kernel)) 0 1 (by decide +kernel), meets_of (reaches loopAll3 (by decide +kernel)) 0 1 (by decide +kernel),
    by decide +kernel, by decide +kernel, ?_, ?_⟩
  · have e : (transAt (run plain true World.init loop3) 1).redir = [(2, 3), (3, 2)] := by decide +kernel
    rw [e]
    exact ⟨2, 3, by simp, .step (b := 2) (by simp) (.here 2)⟩
  · have e : (transAt (run plain true World.init loopAll3) 1).redirAll = [(2, 3), (3, 1), (1, 2)] := by decide +kernel
    rw [e]
    exact ⟨2, 3, by simp, .step (b := 1) (by simp) (.step (b := 2) (by simp) (.here 2))⟩

/-- C08: a transaction that also inserts, mutates and removes, and that could be committed without its loop. -/
example :
    let w := run plain true World.init (base3 ++ [.call (.op 1 (.insert (nB 2))), .edit 1 1 (nA 3 [2] [] 5), .call (.op 1 (.remove 2)),
      .call (.op 1 (.redirectAllLinks 2 3)), .call (.op 1 (.redirectAllLinks 3 2))])
    ((transAt w 1).pending.redirAll.map Prod.fst).Nodup ∧ Loop (transAt w 1).pending.redirAll ∧
    ∃ g0, (graphAt w 0).commit plain true { transAt w 1 with redirAll := [] } = .ok g0 := by
  intro w
  have e : (transAt w 1).pending.redirAll = [(2, 3), (3, 2)] := by decide +kernel
  refine ⟨by rw [e]; decide, ?_, _, got_ok (d := Graph.new 0) (by decide +kernel)⟩
  rw [e]
  exact ⟨2, 3, by simp, .step (b := 2) (by simp) (.here 2)⟩

/-- Requests that redirect node 2 twice. -/
def twice3 : List Step := base3 ++ [.call (.op 1 (.redirectLinks 2 3)), .call (.op 1 (.redirectLinks 2 1)), .call (.op 1 (.redirectLinks 3 2))]

/-- C08: that every node is redirected at most once is needed.  Here 2 is redirected to 3 and 3 to 2, but no loop is reported, because node
2 is also redirected to 1. -/
theorem C08_duplicates : let w := run plain true World.init twice3
    Meets plain true AnyCall (graphAt w 0) (transAt w 1) ∧ Loop (transAt w 1).pending.redir ∧
    ((graphAt w 0).commit plain true (transAt w 1)).toOption.isSome = true := by
  refine ⟨meets_of (reaches twice3 (by decide +kernel)) 0 1 (by decide +kernel), ?_, by decide +kernel⟩
  have e : (transAt (run plain true World.init twice3) 1).pending.redir = [(2, 3), (2, 1), (3, 2)] := by decide +kernel
  rw [e]
  exact ⟨2, 3, by simp, .step (b := 2) (by simp) (.here 2)⟩

/-- Node 2 is redirected twice, and node 3 is redirected to it. -/
def follow3 : List Step := base3 ++
  [.call (.op 1 (.redirectLinks 3 2)), .call (.op 1 (.redirectLinks 2 4)), .call (.op 1 (.redirectLinks 2 1)), .call (.op 1 (.insert (nB 0)))]

/-- C09: hypotheses of `C09_first_partial`, for node 2, whose first target is 3. -/
example :
    let w := run plain true World.init twice3
    Meets plain true AnyCall (graphAt w 0) (transAt w 1) ∧ ((graphAt w 0).commit plain true (transAt w 1)).toOption.isSome = true ∧
    (transAt w 1).redir = [] ++ (2, 3) :: [(2, 1), (3, 2)] ∧ (transAt w 1).redirAll = [] ∧
    ((graphAt w 0).get? 1).map (fun n => decide (n = nA 2 [2, 3] [2, 3, 2] 5)) = some true :=
  ⟨meets_of (reaches twice3 (by decide +kernel)) 0 1 (by decide +kernel), by decide +kernel⟩

/-- C09: the first request decides about the links of node 2 itself (they go to 4), but the links of node 3, which is redirected to 2, follow
the last request for 2 (they go to 1): the chain is not the one of the first requests. -/
theorem C09_chain_fails : let w := run plain true World.init follow3
    Meets plain true AnyCall (graphAt w 0) (transAt w 1) ∧ (transAt w 1).pending.redir = [(3, 2), (2, 4), (2, 1)] ∧
    ∃ g', (graphAt w 0).commit plain true (transAt w 1) = .ok g' ∧ (graphAt w 0).get? 1 = some (nA 2 [2, 3] [2, 3, 2] 5) ∧
      (g'.get? 1).map (fun n => (n.iterSources.map Prod.fst).drop 3) = some [4, 1, 4] := by
  refine ⟨meets_of (reaches follow3 (by decide +kernel)) 0 1 (by decide +kernel), by decide +kernel, ?_⟩
  refine ⟨got (Graph.new 0) ((graphAt (run plain true World.init follow3) 0).commit plain true (transAt (run plain true World.init follow3) 1)),
    got_ok (by decide +kernel), by decide +kernel, by decide +kernel⟩

/-- C11: hypotheses of `C11_values` and `C11_others`. -/
def mut3 : List Step := base3 ++ [.mutate 1 1 (nA 3 [] [] 6), .update 1 1 (nA 1 [2] [2] 7), .mutate 1 3 (nB 3)]

example :
    let w := run plain true World.init mut3
    Meets plain true AnyCall (graphAt w 0) (transAt w 1) ∧ ((graphAt w 0).commit plain true (transAt w 1)).toOption.isSome = true ∧
    (transAt w 1).redir = [] ∧ (transAt w 1).redirAll = [] ∧ (transAt w 1).dec.elems = [] ∧
    (transAt w 1).muts.map Prod.fst = [1, 3] ∧ (transAt w 1).upds.map Prod.fst = [1] ∧ (graphAt w 0).get? 2 = some (nB 1) :=
  ⟨meets_of (reaches mut3 (by decide +kernel)) 0 1 (by decide +kernel), by decide +kernel⟩

end TTGraph.Demo
