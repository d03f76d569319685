import Verif.Model.Macros
import Verif.Lemmas.Closures
import Verif.Lemmas.Errors
import Verif.Lemmas.Meets
import Verif.Lemmas.Symmetric
import Verif.Props.Commit
import Verif.Props.Iter
import Verif.Demo.Traced

/-!
# C43, C44: the macros for single nodes, and operations on one node
-/

set_option autoImplicit false

namespace TTGraph

open Spec

variable [SetImpl] {S : Schema} {dbg : Bool} {R : World → Call → Prop}

/-! ## C43 -/

omit [SetImpl] in
/-- `get_node!(g, V, i)` is `Some` iff the node exists with variant `V`, and gives its struct. -/
theorem C43_get (g : Graph) (d : Ident) (i : NodeIndex) (p : Payload) :
    Macros.getNode g d i = some p ↔ ∃ n, g.get? i = some n ∧ n.disc = d ∧ n = p.toNode d := by
  simp only [Macros.getNode]
  cases h : g.get? i with
  | none => simp
  | some n =>
    simp only [Option.some.injEq, exists_eq_left']
    by_cases hd : n.disc = d
    · subst hd
      simp only [if_true, Option.some.injEq, true_and, Node.payload, Payload.toNode]
      constructor
      · rintro rfl; rfl
      · intro h
        have h1 := congrArg Node.links h
        have h2 := congrArg Node.data h
        simp only at h1 h2
        rw [h1, h2]
    · simp [hd]

omit [SetImpl] in
/-- The closures of `mut_node!` and `update_node!` panic on nodes of other variants, keep the variant, and replace the struct by what the user's
closure makes of it. -/
theorem macro_closures (d : Ident) (f : Payload → Except Panic Payload) (c : Closure) (hc : c = Macros.mutClosure d f ∨ c = Macros.updateClosure d f) :
    (∀ n, n.disc ≠ d → c n = .error .typeMismatch) ∧
    ∀ n, n.disc = d → (∀ e, f n.payload = .error e → c n = .error e) ∧ ∀ p, f n.payload = .ok p → c n = .ok (p.toNode d) := by
  have h : ∀ n, n.disc = d → (Macros.mutClosure d f) n = (Macros.updateClosure d f) n := by
    rintro n rfl
    simp only [Macros.mutClosure, Macros.updateClosure, if_true]
    rfl
  constructor
  · intro n hn
    rcases hc with rfl | rfl
    · simp [Macros.mutClosure, hn]
    · simp [Macros.updateClosure, hn]
  · intro n hn
    have hc' : c n = (Macros.updateClosure d f) n := by
      rcases hc with rfl | rfl
      · exact h n hn
      · rfl
    rw [hc']
    subst hn
    constructor
    · intro e he
      simp [Macros.updateClosure, he, Except.map]
    · intro p hp
      simp [Macros.updateClosure, hp, Except.map]

omit [SetImpl] in
/-- They keep the variant. -/
theorem macro_keeps {d : Ident} {f : Payload → Except Panic Payload} {c : Closure} (hc : c = Macros.mutClosure d f ∨ c = Macros.updateClosure d f) :
    Closure.KeepsVariant c := by
  intro n n' h
  obtain ⟨h1, h2⟩ := macro_closures d f c hc
  by_cases hd : n.disc = d
  · cases hp : f n.payload with
    | error e => rw [(h2 n hd).1 e hp] at h; exact absurd h (by simp)
    | ok p =>
      rw [(h2 n hd).2 p hp, Except.ok.injEq] at h
      rw [← h, hd]
      rfl
  · rw [h1 n hd] at h
    exact absurd h (by simp)

omit [SetImpl] in
/-- On a node of the same transaction, `mut_node!` and `update_node!` panic at once if it is of another variant; otherwise the node of the
transaction is replaced by the result of the closure, with the same variant, and nothing is left for the commit. -/
theorem C43_own {t : Trans} {d : Ident} {i : NodeIndex} {n : Node} (f : Payload → Except Panic Payload) (hn : t.pending.new i = some n) :
    (n.disc ≠ d → Macros.mutNode t d i f = .error .typeMismatch ∧ Macros.updateNode t d i f = .error .typeMismatch) ∧
    (n.disc = d → ∀ p, f n.payload = .ok p → ∃ t1 t2, Macros.mutNode t d i f = .ok t1 ∧ Macros.updateNode t d i f = .ok t2 ∧
      t1.pending = { t.pending with new := upd t.pending.new i (some (p.toNode d)) } ∧
      t2.pending = { t.pending with new := upd t.pending.new i (some (p.toNode d)) }) := by
  have hn' : t.inc.get? i = some n := hn
  have hpend : ∀ (a : Arena) n', (∀ j, a.get? j = if i = j then some n' else t.inc.get? j) →
      ({ t with inc := a } : Trans).pending = { t.pending with new := upd t.pending.new i (some n') } := by
    intro a n' ha
    simp only [Trans.pending, Pending.mk.injEq, and_true]
    funext j
    rw [ha]
    simp only [upd, eq_comm]
  constructor
  · intro hd
    constructor
    · have he := (macro_closures d f _ (Or.inl rfl)).1 n hd
      rcases Trans.mutate_cases t i (Macros.mutClosure d f) with ⟨h, _⟩ | ⟨n1, e, h, h2, h3⟩ | ⟨n1, n2, a, h, h2, _⟩
      · rw [hn'] at h; exact absurd h (by simp)
      · rw [hn', Option.some.injEq] at h
        subst h
        rw [he, Except.error.injEq] at h2
        rw [Macros.mutNode, h3, h2]
      · rw [hn', Option.some.injEq] at h
        subst h
        rw [he] at h2
        exact absurd h2 (by simp)
    · have he := (macro_closures d f _ (Or.inr rfl)).1 n hd
      rcases Trans.update_cases t i (Macros.updateClosure d f) with ⟨h, _⟩ | ⟨n1, e, h, h2, h3⟩ | ⟨n1, n2, a, h, h2, _⟩
      · rw [hn'] at h; exact absurd h (by simp)
      · rw [hn', Option.some.injEq] at h
        subst h
        rw [he, Except.error.injEq] at h2
        rw [Macros.updateNode, h3, h2]
      · rw [hn', Option.some.injEq] at h
        subst h
        rw [he] at h2
        exact absurd h2 (by simp)
  · intro hd p hp
    have e1 := ((macro_closures d f _ (Or.inl rfl)).2 n hd).2 p hp
    have e2 := ((macro_closures d f _ (Or.inr rfl)).2 n hd).2 p hp
    have k1 : ∃ t1, Macros.mutNode t d i f = .ok t1 ∧ t1.pending = { t.pending with new := upd t.pending.new i (some (p.toNode d)) } := by
      rcases Trans.mutate_cases t i (Macros.mutClosure d f) with ⟨h, _⟩ | ⟨n1, e, h, h2, h3⟩ | ⟨n1, n2, a, h, h2, h3, h4, _⟩
      · rw [hn'] at h; exact absurd h (by simp)
      · rw [hn', Option.some.injEq] at h
        subst h
        rw [e1] at h2
        exact absurd h2 (by simp)
      · rw [hn', Option.some.injEq] at h
        subst h
        rw [e1, Except.ok.injEq] at h2
        subst h2
        exact ⟨_, h3, hpend a _ h4⟩
    have k2 : ∃ t1, Macros.updateNode t d i f = .ok t1 ∧ t1.pending = { t.pending with new := upd t.pending.new i (some (p.toNode d)) } := by
      rcases Trans.update_cases t i (Macros.updateClosure d f) with ⟨h, _⟩ | ⟨n1, e, h, h2, h3⟩ | ⟨n1, n2, a, h, h2, h3, h4, _⟩
      · rw [hn'] at h; exact absurd h (by simp)
      · rw [hn', Option.some.injEq] at h
        subst h
        rw [e2] at h2
        exact absurd h2 (by simp)
      · rw [hn', Option.some.injEq] at h
        subst h
        rw [e2, Except.ok.injEq] at h2
        subst h2
        exact ⟨_, h3, hpend a _ h4⟩
    obtain ⟨t1, a1, a2⟩ := k1
    obtain ⟨t2, b1, b2⟩ := k2
    exact ⟨t1, t2, a1, b1, a2, b2⟩

omit [SetImpl] in
/-- On any other node, the calls only record their closures. -/
theorem C43_recorded {t : Trans} {i : NodeIndex} (d : Ident) (f : Payload → Except Panic Payload) (hn : t.pending.new i = none) :
    ∃ t1 t2, Macros.mutNode t d i f = .ok t1 ∧ Macros.updateNode t d i f = .ok t2 ∧
      t1.pending = { t.pending with muts := t.pending.muts ++ [(i, Macros.mutClosure d f)] } ∧
      t2.pending = { t.pending with upds := t.pending.upds ++ [(i, Macros.updateClosure d f)] } := by
  have hn' : t.inc.get? i = none := hn
  rcases Trans.mutate_cases t i (Macros.mutClosure d f) with ⟨_, h1⟩ | ⟨n1, e, h, _⟩ | ⟨n1, n2, a, h, _⟩
  · rcases Trans.update_cases t i (Macros.updateClosure d f) with ⟨_, h2⟩ | ⟨n1, e, h, _⟩ | ⟨n1, n2, a, h, _⟩
    · exact ⟨_, _, h1, h2, rfl, rfl⟩
    · rw [hn'] at h; exact absurd h (by simp)
    · rw [hn'] at h; exact absurd h (by simp)
  · rw [hn'] at h; exact absurd h (by simp)
  · rw [hn'] at h; exact absurd h (by simp)

omit [SetImpl] in
/-- Closures that keep variants, applied to one node. -/
theorem foldlM_keeps {l : List (NodeIndex × Closure)} (hl : ∀ p ∈ l, Closure.KeepsVariant p.2) {n n' : Node}
    (h : l.foldlM (fun n p => p.2 n) n = Except.ok n') : n'.disc = n.disc := by
  induction l generalizing n with
  | nil => simp only [List.foldlM_nil] at h; cases h; rfl
  | cons p l ih =>
    rw [List.foldlM_cons] at h
    cases hp : p.2 n with
    | error e => rw [hp] at h; exact absurd h (by simp [bind, Except.bind])
    | ok n1 =>
      rw [hp] at h
      exact (ih (fun q hq => hl q (List.mem_cons_of_mem _ hq)) h).trans (hl p List.mem_cons_self n n1 hp)

omit [SetImpl] in
/-- A closure among others that keep variants gets a node of the original variant. -/
theorem foldlM_at {l : List (NodeIndex × Closure)} (hl : ∀ p ∈ l, Closure.KeepsVariant p.2) {n n' : Node}
    (h : l.foldlM (fun n p => p.2 n) n = Except.ok n') {p : NodeIndex × Closure} (hp : p ∈ l) : ∃ m m', m.disc = n.disc ∧ p.2 m = .ok m' := by
  obtain ⟨l1, l2, rfl⟩ := List.append_of_mem hp
  rw [List.foldlM_append] at h
  cases h1 : l1.foldlM (fun (n : Node) (p : NodeIndex × Closure) => p.2 n) n with
  | error e => rw [h1] at h; exact absurd h (by simp [bind, Except.bind])
  | ok m =>
    rw [h1] at h
    refine ⟨m, ?_⟩
    have hm := foldlM_keeps (fun q hq => hl q (by simp [hq])) h1
    cases h2 : p.2 m with
    | error e =>
      simp only [bind, Except.bind, List.foldlM_cons, h2] at h
      exact absurd h (by simp)
    | ok m' => exact ⟨m', hm, rfl⟩

/-- Commit of a transaction with a `mut_node!` or `update_node!` for the node `i`, all of whose closures for `i` keep the variant: if the commit
returns, then the node exists with the variant that the macro names, and it still has that variant afterwards. -/
theorem C43_commit (hw : WellNamed S) {g g' : Graph} {t : Trans} (h : Meets S dbg R g t) (hc : g.commit S dbg t = .ok g') {i : NodeIndex}
    {d : Ident} {f : Payload → Except Panic Payload} {c : Closure} (hcl : c = Macros.mutClosure d f ∨ c = Macros.updateClosure d f)
    (hm : (i, c) ∈ t.pending.muts ++ t.pending.upds) (hk : ∀ p ∈ t.pending.muts ++ t.pending.upds, p.1 = i → Closure.KeepsVariant p.2) :
    ∃ n, (g.get? i = some n ∨ t.pending.new i = some n) ∧ n.disc = d ∧ ∀ n', g'.get? i = some n' → n'.disc = d := by
  obtain ⟨v6, out⟩ := h.commit hw hc
  obtain ⟨v1, v2, v3, v4, v5, h1, h2, h3, h4, h5, h6⟩ := out.performed
  have h34 : Applied (t.muts ++ t.upds) v2 v4 := applied_append h3 h4
  -- the node exists before the closures run
  have hex : v2 i ≠ none := by
    have : ∀ {l : List (NodeIndex × Closure)} {v v' : View}, Applied l v v' → ∀ p ∈ l, v p.1 ≠ none := by
      intro l v v' ha
      induction ha with
      | nil _ => intro p hp; exact absurd hp (by simp)
      | @cons j f l v w1 v' m m' a1 a2 a3 a4 ih =>
        intro p hp
        rcases List.mem_cons.1 hp with rfl | hp
        · rw [a1]; simp
        · have := ih p hp
          intro he
          rw [a3] at this
          split at this
          · rename_i e; rw [← e, a1] at he; exact absurd he (by simp)
          · exact this he
    exact this h34 _ hm
  obtain ⟨n2, hn2⟩ := Option.ne_none_iff_exists'.1 hex
  obtain ⟨n4, hf, hn4⟩ := applied_at h34 hn2
  have hkeep : ∀ p ∈ (t.muts ++ t.upds).filter (fun p => decide (p.1 = i)), Closure.KeepsVariant p.2 := fun p hp =>
    hk p (List.mem_filter.1 hp).1 (by simpa using (List.mem_filter.1 hp).2)
  obtain ⟨m, m', hmd, hmc⟩ := foldlM_at hkeep hf (p := (i, c)) (List.mem_filter.2 ⟨hm, by simp⟩)
  have hd2 : n2.disc = d := by
    rw [← hmd]
    by_contra hne
    have hmc : c m = .ok m' := hmc
    rw [(macro_closures d f c hcl).1 m hne] at hmc
    exact absurd hmc (by simp)
  -- where the node comes from
  have horig : ∃ n, (g.get? i = some n ∨ t.pending.new i = some n) ∧ n.disc = d := by
    cases hinc : t.inc.get? i with
    | some n =>
      have := (h2.2 i n hinc).2
      rw [hn2, Option.some.injEq] at this
      exact ⟨n, Or.inr hinc, by rw [← this]; exact hd2⟩
    | none =>
      have e := h2.1 i hinc
      rw [hn2] at e
      obtain ⟨ρ, _, hr⟩ := h1
      have := hr i
      rw [← e] at this
      cases hg : g.get? i with
      | none => rw [hg] at this; exact absurd this (by simp)
      | some n => rw [hg] at this; exact ⟨n, Or.inl rfl, this.1.symm.trans hd2⟩
  obtain ⟨n, hn, hnd⟩ := horig
  refine ⟨n, hn, hnd, fun n' hn' => ?_⟩
  have hd4 : n4.disc = d := (foldlM_keeps hkeep hf).trans hd2
  obtain ⟨n6, hn6, hd6⟩ := Ends.of_shape out.same.1 hn'
  have hni : i ∉ t.dec.elems := fun hi => by rw [(h6.1 i hi).2] at hn6; exact absurd hn6 (by simp)
  have h56 := h6.2 i hni
  rw [hn6] at h56
  obtain ⟨ρ, _, hr⟩ := h5
  have h45 := hr i
  rw [hn4] at h45
  cases hv5 : v5 i with
  | none => rw [hv5] at h45; exact absurd h45 (by simp)
  | some n5 =>
    rw [hv5] at h45 h56
    rw [hd6, h56.1, h45.1, hd4]

/-- So the commit panics if there is no such node, or if it has another variant. -/
theorem C43_panics (hw : WellNamed S) {g : Graph} {t : Trans} (h : Meets S dbg R g t) {i : NodeIndex}
    {d : Ident} {f : Payload → Except Panic Payload} {c : Closure} (hcl : c = Macros.mutClosure d f ∨ c = Macros.updateClosure d f)
    (hm : (i, c) ∈ t.pending.muts ++ t.pending.upds) (hk : ∀ p ∈ t.pending.muts ++ t.pending.upds, p.1 = i → Closure.KeepsVariant p.2)
    (hd : ∀ n, g.get? i = some n ∨ t.pending.new i = some n → n.disc ≠ d) : ∃ e, g.commit S dbg t = .error e := by
  cases hc : g.commit S dbg t with
  | error e => exact ⟨e, rfl⟩
  | ok g' =>
    obtain ⟨n, h1, h2, _⟩ := C43_commit hw h hc hcl hm hk
    exact absurd h2 (hd n h1)

/-- A closure that panics on its node, as the first thing a commit does apart from insertions, makes the commit panic in the same way. -/
theorem commit_closure_error (hw : WellNamed S) {g : Graph} {t : Trans} (h : Meets S dbg R g t) {i : NodeIndex} {n : Node}
    (hn : g.get? i = some n) (hm : t.pending.muts = []) (hu : t.pending.upds = []) (hr : t.pending.redir = []) (ha : ∀ j, ¬ t.pending.unfilled j)
    {c : Closure} (hc : Closure.Typed S c) {e : Panic} (he : c n = .error e) :
    g.commit S dbg { t with muts := [(i, c)] } = .error e ∧ g.commit S dbg { t with upds := [(i, c)] } = .error e := by
  have hm : t.muts = [] := hm
  have hu : t.upds = [] := hu
  have hr : t.redir = [] := hr
  have hctx := (h.disjoint hw).2.1
  have hdis := (h.disjoint hw).1
  have hg := (h.ready hw).good
  have hall : t.allocs.isEmpty = true := by
    unfold OrderSet.isEmpty
    rw [List.isEmpty_iff]
    exact List.eq_nil_iff_forall_not_mem.2 fun j hj => ha j hj
  obtain ⟨m1, m2, _⟩ := Graph.mergeNodes_spec (r := Lcr.new) (L0 := View.L g.get?) hw.variants (h.inv hw) hg.inv hdis hg.noEmpty hg.wt
  have hget : (Graph.mergeNodes S g t.inc Lcr.new).1.get? i = some n := by
    rw [m1]
    cases hi : t.inc.get? i with
    | none => simpa using hn
    | some n' =>
      have h1 : t.inc.disp.get? i ≠ none := fun e => by rw [Arena.get?_of_disp_none e] at hi; exact absurd hi (by simp)
      have := hdis i h1
      rw [show g.get? i = g.nodes.get? i from rfl, Arena.get?_of_disp_none this] at hn
      exact absurd hn (by simp)
  have hstep : ∀ step, IsStep step → step (Graph.mergeNodes S g t.inc Lcr.new).1 i c (Graph.mergeNodes S g t.inc Lcr.new).2 = .error e := by
    intro step hst
    cases hs : step (Graph.mergeNodes S g t.inc Lcr.new).1 i c (Graph.mergeNodes S g t.inc Lcr.new).2 with
    | ok st =>
      have happ : Graph.applyClosures step (Graph.mergeNodes S g t.inc Lcr.new) [(i, c)] = .ok st := by
        simp [Graph.applyClosures, foldE, hs]
      have := (Graph.applyClosures_out (L0 := View.L g.get?) hst [(i, c)] (by simpa using hc) m2 happ).applied
      obtain ⟨n', k1, _⟩ := applied_at this hget
      simp [he, bind, Except.bind] at k1
    | error e' =>
      rcases Graph.step_error hst m2 hc hs with ⟨_, k⟩ | ⟨n', k1, k2⟩ | ⟨_, n', n'', _, _, k1, k2, _⟩
      · rw [hget] at k; exact absurd k (by simp)
      · rw [hget, Option.some.injEq] at k1
        subst k1
        rw [he, Except.error.injEq] at k2
        rw [k2]
      · rw [hget, Option.some.injEq] at k1
        subst k1
        rw [he] at k2
        exact absurd k2 (by simp)
  have h1 : ∀ (g : Graph) r, Graph.redirectLinksVec g [] r = .ok (g, r) := fun _ _ => rfl
  have hfin : ∀ t' : Trans, t'.ctxId = t.ctxId → t'.allocs = t.allocs → Graph.perform S g t' = .error e → g.commit S dbg t' = .error e := by
    intro t' e1 e2 e3
    simp only [Graph.commit, Graph.doCommit_eq, e1, e2, e3, hctx, hall]
    simp
  constructor
  · refine hfin _ rfl rfl ?_
    simp only [Graph.perform, hr, h1]
    rw [show Graph.applyClosures Graph.modifyNode (Graph.mergeNodes S g t.inc Lcr.new) [(i, c)] = .error e from by
      simp [Graph.applyClosures, foldE, hstep _ (Or.inl rfl)]]
  · refine hfin _ rfl rfl ?_
    simp only [Graph.perform, hr, h1, hm]
    rw [show Graph.applyClosures Graph.modifyNode (Graph.mergeNodes S g t.inc Lcr.new) [] = .ok (Graph.mergeNodes S g t.inc Lcr.new) from rfl]
    simp only
    rw [show Graph.applyClosures Graph.updateNode (Graph.mergeNodes S g t.inc Lcr.new) [(i, c)] = .error e from by
      simp [Graph.applyClosures, foldE, hstep _ (Or.inr rfl)]]

/-- If the macro is the only mutation, update or `redirect_links` of the transaction, the panic is "Type does not match!". -/
theorem C43_message (hw : WellNamed S) {g : Graph} {t : Trans} (h : Meets S dbg R g t) {i : NodeIndex} {n : Node} (hn : g.get? i = some n)
    {d : Ident} (hd : n.disc ≠ d) (f : Payload → Except Panic Payload) (h1 : Closure.Typed S (Macros.mutClosure d f))
    (h2 : Closure.Typed S (Macros.updateClosure d f)) (hm : t.pending.muts = []) (hu : t.pending.upds = []) (hr : t.pending.redir = [])
    (ha : ∀ j, ¬ t.pending.unfilled j) :
    (∃ t1, Macros.mutNode t d i f = .ok t1 ∧ g.commit S dbg t1 = .error .typeMismatch) ∧
    ∃ t1, Macros.updateNode t d i f = .ok t1 ∧ g.commit S dbg t1 = .error .typeMismatch := by
  have hi : t.inc.get? i = none := by
    cases hi : t.inc.get? i with
    | none => rfl
    | some n' =>
      have h1 : t.inc.disp.get? i ≠ none := fun e => by rw [Arena.get?_of_disp_none e] at hi; exact absurd hi (by simp)
      have := (h.disjoint hw).1 i h1
      rw [show g.get? i = g.nodes.get? i from rfl, Arena.get?_of_disp_none this] at hn
      exact absurd hn (by simp)
  have hc : t.inc.contains i = false := by rw [Arena.contains_eq, hi]; rfl
  have hm' : t.muts = [] := hm
  have hu' : t.upds = [] := hu
  constructor
  · refine ⟨{ t with muts := [(i, Macros.mutClosure d f)] }, ?_,
      (commit_closure_error hw h hn hm hu hr ha h1 ((macro_closures d f _ (Or.inl rfl)).1 n hd)).1⟩
    simp [Macros.mutNode, Trans.mutate, hc, hm']
  · refine ⟨{ t with upds := [(i, Macros.updateClosure d f)] }, ?_,
      (commit_closure_error hw h hn hm hu hr ha h2 ((macro_closures d f _ (Or.inr rfl)).1 n hd)).2⟩
    simp [Macros.updateNode, Trans.update, hc, hu']

/-- `alloc_node!(t, V)` reserves an index that is not in use.  `fill_back` puts nodes of variant `V` there, and no others. -/
theorem C43_alloc (hw : WellNamed S) {t : Trans} {cnt : Nat} (h : Building S dbg R t cnt) (d : Ident) :
    ∃ i t' cnt', Macros.allocNode t cnt d = .ok (i, t', cnt') ∧ t.pending.new i = none ∧ ¬ t.pending.unfilled i ∧
      t'.pending = { t.pending with unfilled := fun j => t.pending.unfilled j ∨ j = i } ∧
      ∀ n, (n.disc ≠ d → t'.fillBack i n = .error .fillType) ∧
        (n.disc = d → ∃ t'', t'.fillBack i n = .ok t'' ∧ t''.pending = { t.pending with new := upd t.pending.new i (some n) }) := by
  obtain ⟨h1, hb⟩ := h.ready hw
  have hb1 : ∀ i : Nat, t.Owns i → i ≤ cnt := fun i hi => (hb i hi).2
  have hf := Trans.fresh_none h1 hb1
  have hnew : t.inc.get? (cnt + 1) = none := Arena.get?_of_disp_none hf.1
  have hun : (cnt + 1) ∉ t.allocs := fun hi => by
    have := hb1 (cnt + 1) (Or.inr hi)
    omega
  refine ⟨cnt + 1, _, _, Trans.alloc_ok h1 hb1 d, hnew, hun, ?_, fun n => ⟨fun hn => ?_, ?_⟩⟩
  · simp only [Trans.pending, Pending.mk.injEq, and_true]
    refine ⟨funext fun j => Trans.alloc_get? h1 hb1 d j, funext fun j => propext ?_⟩
    simp only [OrderSet.mem_insert]
    exact ⟨fun h => h.elim Or.inr Or.inl, fun h => h.elim Or.inr Or.inl⟩
  · simp [Trans.fillBack, Arena.fillBack, hn]
  · rintro rfl
    obtain ⟨a, e1, h3, h4⟩ := Arena.fillBack_ok (a := { t.inc with disp := t.inc.disp.insert (cnt + 1) n.disc }) (i := cnt + 1) (n := n)
      (by simp) (hf.2 _)
    refine ⟨{ t with inc := a, allocs := (t.allocs.insert (cnt + 1)).swapRemove (cnt + 1) }, by simp only [Trans.fillBack, e1], ?_⟩
    simp only [Trans.pending, Pending.mk.injEq, and_true]
    refine ⟨?_, funext fun j => propext ?_⟩
    · rw [← funext fun j => Trans.alloc_get? h1 hb1 n.disc j]
      exact upd_ext (Arena.eq_store h3 h4 (by simp))
    · simp only [OrderSet.mem_swapRemove, OrderSet.mem_insert]
      constructor
      · rintro ⟨rfl | h, h2⟩
        · exact absurd rfl h2
        · exact h
      · exact fun h => ⟨Or.inr h, fun e => hun (e ▸ h)⟩

/-! ## C44 -/

/-- `modify_link` on a place that holds `old`: it changes only the field of that place, keeps variant, data and lengths of `Vec`s, and replaces
`old` by `new` at that place, or just removes it if `new` is the empty index. -/
theorem C44_modify {n : Node} {s : Source} {old : NodeIndex} (new : NodeIndex) (h : n.Holds s old) :
    ∃ n' rem add, n.modifyLink s old new = .ok (n', rem, add) ∧ n'.shape = n.shape ∧ (∀ q, q ≠ s.pos → n'.links[q]? = n.links[q]?) ∧
      ∀ t w, n'.Holds t w ↔ (n.Holds t w ∧ ¬ (t = s ∧ w = old)) ∨ (t = s ∧ w = new ∧ new ≠ emptyIdx) := by
  obtain ⟨n', rem, add, h1, h2, h3, _⟩ := Node.modifyLink_spec (new := new) h
  refine ⟨n', rem, add, h1, h2, fun q hq => ?_, h3⟩
  simp only [Node.modifyLink] at h1
  split at h1
  · cases hv : n.links[s.pos]? with
    | none => rw [hv] at h1; exact absurd h1 (by simp)
    | some v =>
      rw [hv] at h1
      simp only at h1
      split at h1
      · rw [Except.ok.injEq, Prod.mk.injEq] at h1
        rw [← h1.1, Node.setLink_get hv, if_neg (Ne.symm hq)]
      · exact absurd h1 (by simp)
  · exact absurd h1 (by simp)

/-- It reports truthfully whether the place lost `old` and whether it gained `new`, if they are different.

Full statement: the same also if they are equal.  That is false for sets, see below. -/
theorem C44_modify_reports_partial {n n' : Node} {s : Source} {old new : NodeIndex} {rem add : Bool} (h : n.Holds s old) (hne : old ≠ new)
    (hm : n.modifyLink s old new = .ok (n', rem, add)) :
    (rem = true ↔ n.Holds s old ∧ ¬ n'.Holds s old) ∧ (add = true ↔ n'.Holds s new ∧ ¬ n.Holds s new) := by
  obtain ⟨n1, rem1, add1, h1, h2, h3, h4, h5, h6⟩ := Node.modifyLink_spec (new := new) h
  rw [hm, Except.ok.injEq, Prod.mk.injEq, Prod.mk.injEq] at h1
  obtain ⟨rfl, rfl, rfl⟩ := h1
  refine ⟨⟨fun _ => ⟨h, ?_⟩, fun _ => h4 hne⟩, ?_⟩
  · rw [h3]
    rintro (⟨_, h⟩ | ⟨_, h, _⟩)
    · exact h ⟨rfl, rfl⟩
    · exact hne h
  · have hnew : n'.Holds s new ↔ n.Holds s new ∨ new ≠ emptyIdx := by
      rw [h3]
      constructor
      · rintro (h | h)
        · exact Or.inl h.1
        · exact Or.inr h.2.2
      · rintro (h | h)
        · exact Or.inl ⟨h, fun e => hne e.2.symm⟩
        · exact Or.inr ⟨rfl, rfl, h⟩
    rw [hnew]
    obtain ⟨hd, v, hv, hh⟩ := h
    have hk : n.kindAt s.pos = some v.kind := by simp [Node.kindAt, hv]
    by_cases hvec : v.kind = .vec
    · rw [h5 hne (by rw [hk, hvec])]
      have : ¬ n.Holds s new := by
        rintro ⟨_, v', hv', hh'⟩
        rw [hv, Option.some.injEq] at hv'
        subst hv'
        cases v with
        | direct i => exact absurd hvec (by simp [LinkVal.kind])
        | set s => exact absurd hvec (by simp [LinkVal.kind])
        | vec l =>
          have e := hh.1
          rw [hh'.1, Option.some.injEq] at e
          exact hne e.symm
      simp [this]
    · rw [h6 hne (by rw [hk]; simpa using hvec)]
      have : n.HasLink s.mirror new ↔ n.Holds s new := by
        constructor
        · rintro ⟨k, _, v', hv', hh'⟩
          have hv' : n.links[s.pos]? = some v' := hv'
          rw [hv, Option.some.injEq] at hv'
          subst hv'
          have e1 := LinkVal.holds_slot_zero hh hvec
          have e2 := LinkVal.holds_slot_zero hh' hvec
          simp only at e2
          subst e2
          exact ⟨hd, v, hv, by rw [e1]; exact hh'⟩
        · exact fun h => ⟨s.slot, h⟩
      rw [this]
      constructor
      · rintro ⟨a, b⟩; exact ⟨Or.inr a, b⟩
      · rintro ⟨a | a, b⟩
        · exact absurd a b
        · exact ⟨a, b⟩

/-- `add_link` on a link field that is no `Vec`: it changes only this field, keeps variant, data and lengths of `Vec`s, adds the target, and reports
whether it was missing.  It panics exactly if a direct field holds another index. -/
theorem C44_add {n : Node} {m : Mirror} {v : LinkVal} {y : NodeIndex} (hy : y ≠ emptyIdx) (hd : m.disc = n.disc) (hv : n.links[m.pos]? = some v)
    (hk : v.kind ≠ .vec) :
    (∃ n' added, n.addLink m y = .ok (n', added) ∧ n'.shape = n.shape ∧ (∀ q, q ≠ m.pos → n'.links[q]? = n.links[q]?) ∧
      (∀ t w, n'.Holds t w ↔ n.Holds t w ∨ (t = ⟨m.disc, m.pos, 0⟩ ∧ w = y)) ∧ (added = true ↔ ¬ n.HasLink m y) ∧
      ∀ i, v = .direct i → i = emptyIdx ∨ i = y) ∨
    (n.addLink m y = .error .addOnExisting ∧ ∃ i, v = .direct i ∧ i ≠ emptyIdx ∧ i ≠ y) := by
  by_cases hf : ∀ i, v = .direct i → i = emptyIdx ∨ i = y
  · obtain ⟨n', added, h1, h2, h3, h4⟩ := Node.addLink_spec hy hd hv hk hf
    refine Or.inl ⟨n', added, h1, h2, fun q hq => ?_, h3, ?_, hf⟩
    · simp only [Node.addLink, hd, hv, if_true] at h1
      split at h1
      · rw [Except.ok.injEq, Prod.mk.injEq] at h1
        rw [← h1.1, Node.setLink_get hv, if_neg (Ne.symm hq)]
      · exact absurd h1 (by simp)
    · rw [h4]
      refine not_congr ⟨fun h => ⟨0, h⟩, ?_⟩
      rintro ⟨k, _, v', hv', hh'⟩
      have hv' : n.links[m.pos]? = some v' := hv'
      rw [hv, Option.some.injEq] at hv'
      subst hv'
      have e2 := LinkVal.holds_slot_zero hh' hk
      simp only at e2
      subst e2
      exact ⟨hd, v, hv, hh'⟩
  · simp only [not_forall, not_or] at hf
    obtain ⟨i, hi, h1, h2⟩ := hf
    subst hi
    exact Or.inr ⟨Node.addLink_conflict hd hv h1 h2, i, rfl, h1, h2⟩

/-- `remove_link` on a link field that is no `Vec`: it changes only this field, keeps variant, data and lengths of `Vec`s, removes the target, and
reports whether it was there. -/
theorem C44_remove {n : Node} {m : Mirror} {v : LinkVal} {y : NodeIndex} (hy : y ≠ emptyIdx) (hd : m.disc = n.disc) (hv : n.links[m.pos]? = some v)
    (hk : v.kind ≠ .vec) :
    ∃ n' removed, n.removeLink m y = .ok (n', removed) ∧ n'.shape = n.shape ∧ (∀ q, q ≠ m.pos → n'.links[q]? = n.links[q]?) ∧
      (∀ t w, n'.Holds t w ↔ n.Holds t w ∧ ¬ (t = ⟨m.disc, m.pos, 0⟩ ∧ w = y)) ∧ (removed = true ↔ n.HasLink m y) := by
  obtain ⟨n', removed, h1, h2, h3, h4⟩ := Node.removeLink_spec hy hd hv hk
  refine ⟨n', removed, h1, h2, fun q hq => ?_, h3, ?_⟩
  · simp only [Node.removeLink, hd, hv, if_true] at h1
    split at h1
    · rw [Except.ok.injEq, Prod.mk.injEq] at h1
      rw [← h1.1, Node.setLink_get hv, if_neg (Ne.symm hq)]
    · exact absurd h1 (by simp)
  · rw [h4]
    refine ⟨fun h => ⟨0, h⟩, ?_⟩
    rintro ⟨k, _, v', hv', hh'⟩
    have hv' : n.links[m.pos]? = some v' := hv'
    rw [hv, Option.some.injEq] at hv'
    subst hv'
    have e2 := LinkVal.holds_slot_zero hh' hk
    simp only at e2
    subst e2
    exact ⟨hd, v, hv, hh'⟩

/-- On a `Vec`, `add_link` and `remove_link` panic. -/
theorem C44_vec {n : Node} {m : Mirror} {l : List NodeIndex} (hd : m.disc = n.disc) (hv : n.links[m.pos]? = some (.vec l)) (y : NodeIndex) :
    n.addLink m y = .error .addOnVec ∧ n.removeLink m y = .error .removeOnVec := by
  simp only [Node.addLink, Node.removeLink, hd, hv, if_true]
  exact ⟨rfl, rfl⟩

omit [SetImpl] in
/-- `contains_link` tells whether the field holds the index. -/
theorem C44_contains {n : Node} {m : Mirror} {y : NodeIndex} (hy : y ≠ emptyIdx) : n.containsLink m y = true ↔ n.HasLink m y :=
  Node.containsLink_iff hy

end TTGraph

namespace TTGraph
namespace Demo
open Spec

/-- The struct closures of the examples: `f` is replaced, and the other fields of A are kept. -/
def setF (y : NodeIndex) : Payload → Except Panic Payload := fun p => .ok ⟨p.links.set 0 (.direct y), p.data⟩

theorem setF_typed (y : NodeIndex) (c : Closure) (hc : c = Macros.mutClosure 1 (setF y) ∨ c = Macros.updateClosure 1 (setF y)) : Closure.Typed plain c := by
  intro n n' hwt h
  obtain ⟨k1, k2⟩ := macro_closures 1 (setF y) c hc
  by_cases hd : n.disc = 1
  · rw [(k2 n hd).2 _ rfl, Except.ok.injEq] at h
    subst h
    obtain ⟨sd, a1, a2, a3⟩ := hwt
    rw [hd] at a1
    refine ⟨sd, a1, ?_, a3⟩
    have : plain.struct? 1 = some _ := rfl
    rw [this, Option.some.injEq] at a1
    subst a1
    have a2 : n.links.map LinkVal.kind = [.direct, .set, .vec] := a2
    show (n.links.set 0 (.direct y)).map LinkVal.kind = [.direct, .set, .vec]
    rw [List.map_set, a2]
    rfl
  · rw [k1 n hd] at h
    exact absurd h (by simp)

theorem base3_meets : Meets plain true AnyCall (graphAt (run plain true World.init base3) 0) (transAt (run plain true World.init base3) 1) :=
  meets_of (reaches base3 (by decide +kernel)) 0 1 (by decide +kernel)

/-- C43: `C43_message` for a node of variant B. -/
example : let g := graphAt (run plain true World.init base3) 0
    let t := transAt (run plain true World.init base3) 1
    Meets plain true AnyCall g t ∧ g.get? 3 = some (nB 2) ∧ (nB 2).disc ≠ 1 ∧ Closure.Typed plain (Macros.mutClosure 1 (setF 3)) ∧
    t.pending.muts = [] ∧ t.pending.upds = [] ∧ t.pending.redir = [] ∧ ∀ j, ¬ t.pending.unfilled j :=
  ⟨base3_meets, by decide +kernel, by decide, setF_typed 3 _ (Or.inl rfl), rfl, rfl, rfl, fun j h => absurd h (by
    show j ∉ (transAt (run plain true World.init base3) 1).allocs
    rw [show (transAt (run plain true World.init base3) 1).allocs = OrderSet.empty from rfl]
    exact List.not_mem_nil)⟩

/-- C43: `C43_alloc` for a transaction whose context has given out three indices. -/
example : let w := run plain true World.init base3
    Building plain true AnyCall (transAt w 1) (cntAt w 1) ∧ cntAt w 1 = 3 :=
  ⟨building_of (reaches base3 (by decide +kernel)) 1 (by decide +kernel), by decide +kernel⟩

/-- A program that uses `mut_node!` and `update_node!` on the node 1. -/
def macro3 : World :=
  ((run plain true World.init base3).exec plain true (.op 1 (.mutate 1 (Macros.mutClosure 1 (setF 3))))).exec plain true
    (.op 1 (.update 1 (Macros.updateClosure 1 (setF 2))))

theorem macro3_meets : Meets plain true KeepVariants (graphAt macro3 0) (transAt macro3 1) := by
  have h0 : Reaches plain true KeepVariants (run plain true World.init base3) :=
    reaches_run (us := []) keepStep_ok base3 .init (fun _ _ h => absurd h (by simp [World.init])) (by decide +kernel)
  have h1 := h0.step (c := .op 1 (.mutate 1 (Macros.mutClosure 1 (setF 3)))) (fun _ _ _ => setF_typed 3 _ (Or.inl rfl)) (macro_keeps (Or.inl rfl))
  have h2 := h1.step (c := .op 1 (.update 1 (Macros.updateClosure 1 (setF 2)))) (fun _ _ _ => setF_typed 2 _ (Or.inr rfl)) (macro_keeps (Or.inr rfl))
  exact meets_of h2 0 1 (by decide +kernel)

/-- C43: a commit with `mut_node!` and `update_node!` returns. -/
example : ∃ g', Meets plain true KeepVariants (graphAt macro3 0) (transAt macro3 1) ∧
    (graphAt macro3 0).commit plain true (transAt macro3 1) = .ok g' ∧ g'.get? 1 = some (nA 2 [2, 3] [2, 3, 2] 5) ∧
    (transAt macro3 1).pending.muts = [(1, Macros.mutClosure 1 (setF 3))] ∧
    (transAt macro3 1).pending.upds = [(1, Macros.updateClosure 1 (setF 2))] :=
  ⟨_, macro3_meets, got_ok (d := Graph.new 0) (by decide +kernel), by decide +kernel, rfl, rfl⟩

/-- C44 fails: replacing an element of a set by itself reports that it was removed and added, but the set is the same. -/
theorem C44_modify_fails : (nA 0 [3, 4] [] 5).Holds ⟨1, 1, 0⟩ 3 ∧
    (nA 0 [3, 4] [] 5).modifyLink ⟨1, 1, 0⟩ 3 3 = .ok (nA 0 [4, 3] [] 5, true, true) :=
  ⟨⟨rfl, .set (setOf [3, 4]), rfl, rfl, by decide⟩, by decide⟩

/-- C44: the hypotheses are met. -/
example : (nA 2 [3, 4] [5, 5] 5).Holds ⟨1, 2, 1⟩ 5 ∧ (nA 2 [3, 4] [5, 5] 5).modifyLink ⟨1, 2, 1⟩ 5 6 = .ok (nA 2 [3, 4] [5, 6] 5, true, true) ∧
    (nA 2 [3, 4] [5, 5] 5).addLink ⟨1, 1⟩ 7 = .ok (nA 2 [3, 4, 7] [5, 5] 5, true) ∧ (nA 2 [3, 4] [5, 5] 5).addLink ⟨1, 0⟩ 7 = .error .addOnExisting ∧
    (nA 2 [3, 4] [5, 5] 5).removeLink ⟨1, 0⟩ 2 = .ok (nA 0 [3, 4] [5, 5] 5, true) ∧ (nA 2 [3, 4] [5, 5] 5).links[1]? = some (.set (setOf [3, 4])) :=
  ⟨⟨rfl, .vec [5, 5], rfl, rfl, by decide⟩, by decide, by decide, by decide, by decide, rfl⟩

end Demo
end TTGraph
