import Verif.Lemmas.Renamed
import Verif.Spec.History

/-!
# The phases of `commit` put together
-/

set_option autoImplicit false

namespace TTGraph

/-- The two functions that apply closures. -/
def IsStep (step : Graph → NodeIndex → Closure → Lcr → Except Panic (Graph × Lcr)) : Prop := step = Graph.modifyNode ∨ step = Graph.updateNode

/-- A transaction as the API can build it. -/
structure Trans.Good (S : Schema) (t : Trans) : Prop where
  inv : t.inc.Inv S
  noEmpty : t.inc.get? emptyIdx = none
  wt : ∀ x n, t.inc.get? x = some n → S.WT n
  closures : ∀ p ∈ t.muts ++ t.upds, Closure.Typed S p.2

namespace Graph

section
variable {S : Schema} {e0 : Prop} {step : Graph → NodeIndex → Closure → Lcr → Except Panic (Graph × Lcr)}

theorem step_ok (hst : IsStep step) {g : Graph} {x : NodeIndex} {n n' : Node} {f : Closure} {r : Lcr}
    (h : g.Inv S e0) (hn : g.get? x = some n) (hf : f n = .ok n') (hwt : S.WT n') (hk : ∀ s y, n'.Holds s y → g.back.Known y)
    (L0 : Change → Prop) :
    ∃ g' r', step g x f r = .ok (g', r') ∧ View.Set g.get? x n' g'.get? ∧ g'.Inv S e0 ∧ g'.ctxId = g.ctxId ∧
      g'.nodes.disp = g.nodes.disp ∧ (∀ y, g'.back.Known y ↔ g.back.Known y) ∧
      (g.nodes.Typed → n'.disc = n.disc → g'.nodes.Typed) ∧
      Lcr.Keeps S L0 g.get? r g'.get? r' := by
  rcases hst with rfl | rfl
  · exact modifyNode_ok h hn hf hwt hk L0
  · exact updateNode_ok h hn hf hwt hk L0

theorem step_inv (hst : IsStep step) {g g' : Graph} {x : NodeIndex} {f : Closure} {r r' : Lcr} (h : g.Inv S e0)
    (hs : step g x f r = .ok (g', r')) : ∃ n n', g.get? x = some n ∧ f n = .ok n' ∧ ∀ s y, n'.Holds s y → g.back.Known y := by
  cases hn : g.get? x with
  | none =>
    rcases hst with rfl | rfl
    · rw [modifyNode_missing hn] at hs; exact absurd hs (by simp)
    · rw [updateNode_missing hn] at hs; exact absurd hs (by simp)
  | some n =>
    cases hf : f n with
    | error e =>
      rcases hst with rfl | rfl
      · rw [modifyNode_user h hn hf] at hs; exact absurd hs (by simp)
      · rw [updateNode_user h hn hf] at hs; exact absurd hs (by simp)
    | ok n' =>
      refine ⟨n, n', rfl, hf, ?_⟩
      intro s y hh
      by_contra hc
      rcases hst with rfl | rfl
      · rw [modifyNode_unknown h hn hf ⟨s, y, hh, hc⟩] at hs; exact absurd hs (by simp)
      · rw [updateNode_unknown h hn hf ⟨s, y, hh, hc⟩] at hs; exact absurd hs (by simp)

/-- What the closure phases preserve. -/
structure ClosureOut (S : Schema) (e0 : Prop) (L0 : Change → Prop) (l : List (NodeIndex × Closure)) (g : Graph) (r : Lcr) (g' : Graph) (r' : Lcr) : Prop where
  applied : Spec.Applied l g.get? g'.get?
  inv : g'.Inv S e0
  ctx : g'.ctxId = g.ctxId
  disp : g'.nodes.disp = g.nodes.disp
  known : ∀ y, g'.back.Known y ↔ g.back.Known y
  typed : g.nodes.Typed → (∀ p ∈ l, Closure.KeepsVariant p.2) → g'.nodes.Typed
  ok : ∀ D : Change → Prop, (∀ c, D c → c.2.1 ≠ emptyIdx ∧ (S.kind? c.2.2 ≠ some .vec ∨
      ∀ pre v, pre <+: l → Spec.Applied pre g.get? v → v.Once c.1 c.2.2 c.2.1)) →
    Lcr.Ok D L0 (View.L g.get?) r → Lcr.Ok D L0 (View.L g'.get?) r'

theorem applyClosures_out (hst : IsStep step) (L0 : Change → Prop) (l : List (NodeIndex × Closure)) (hl : ∀ p ∈ l, Closure.Typed S p.2) :
    ∀ {g : Graph} {r : Lcr} {st' : Graph × Lcr}, g.Inv S e0 → applyClosures step (g, r) l = .ok st' →
      ClosureOut S e0 L0 l g r st'.1 st'.2 := by
  induction l with
  | nil =>
    intro g r st' h hs
    simp only [applyClosures, foldE, Except.ok.injEq] at hs
    subst hs
    exact ⟨.nil fun _ => rfl, h, rfl, rfl, fun _ => Iff.rfl, fun ht _ => ht, fun _ _ ho => ho⟩
  | cons p l ih =>
    intro g r st' h hs
    simp only [applyClosures, foldE] at hs
    cases hp : step g p.1 p.2 r with
    | error e => rw [hp] at hs; exact absurd hs (by simp)
    | ok st1 =>
      rw [hp] at hs
      obtain ⟨g1, r1⟩ := st1
      obtain ⟨n, n', h1, h2, h3⟩ := step_inv hst h hp
      obtain ⟨g1', r1', h4, h5, h6, h7, h8, h9, h10, h11⟩ :=
        step_ok (r := r) hst h h1 h2 (hl p (by simp) n n' (h.wt _ _ h1) h2) h3 L0
      rw [hp] at h4
      obtain ⟨rfl, rfl⟩ : g1 = g1' ∧ r1 = r1' := by simpa using h4
      have hrec := ih (fun q hq => hl q (by simp [hq])) h6 (st' := st') hs
      exact {
        applied := .cons h1 h2 h5 hrec.applied
        inv := hrec.inv
        ctx := hrec.ctx.trans h7
        disp := hrec.disp.trans h8
        known := fun y => (hrec.known y).trans (h9 y)
        typed := fun ht hk => hrec.typed (h10 ht (hk p (by simp) _ _ h2)) (fun q hq => hk q (by simp [hq]))
        ok := fun D hD ho => hrec.ok D
          (fun c hc => ⟨(hD c hc).1, (hD c hc).2.imp id fun hs pre v hp hv => hs (p :: pre) v (List.cons_prefix_cons.2 ⟨rfl, hp⟩) (.cons h1 h2 h5 hv)⟩)
          (h11 D (fun c hc => ⟨(hD c hc).1, (hD c hc).2.imp id fun hs => ⟨hs [] _ List.nil_prefix (.nil fun _ => rfl),
            hs [p] _ (List.cons_prefix_cons.2 ⟨rfl, List.nil_prefix⟩) (.cons h1 h2 h5 (.nil fun _ => rfl))⟩⟩) ho) }

/-- A closure that does not panic and only leaves links to indices in `K`. -/
def _root_.TTGraph.Closure.Safe (S : Schema) (K : NodeIndex → Prop) (f : Closure) : Prop :=
  ∀ n, S.WT n → (∀ s y, n.Holds s y → K y) → ∃ n', f n = .ok n' ∧ S.WT n' ∧ ∀ s y, n'.Holds s y → K y

theorem applyClosures_total (hst : IsStep step) (K : NodeIndex → Prop) (l : List (NodeIndex × Closure)) :
    ∀ {g : Graph} {r : Lcr}, g.Inv S e0 → (∀ y, K y → g.back.Known y) → (∀ x s y, View.Holds g.get? x s y → K y) →
      (∀ p ∈ l, g.get? p.1 ≠ none ∧ Closure.Safe S K p.2) →
      ∃ st', applyClosures step (g, r) l = .ok st' ∧ ∀ x s y, View.Holds st'.1.get? x s y → K y := by
  induction l with
  | nil => intro g r h hk hh hl; exact ⟨(g, r), rfl, hh⟩
  | cons p l ih =>
    intro g r h hk hh hl
    obtain ⟨hp1, hp2⟩ := hl p (by simp)
    obtain ⟨n, hn⟩ := Option.ne_none_iff_exists'.1 hp1
    obtain ⟨n', hf, hw, hK⟩ := hp2 n (h.wt _ _ hn) (fun s y hs => hh p.1 s y ⟨n, hn, hs⟩)
    obtain ⟨g1, r1, h4, h5, h6, h7, h8, h9, h10, h11⟩ := step_ok (r := r) hst h hn hf hw (fun s y hs => hk y (hK s y hs)) (fun _ => True)
    obtain ⟨st', h12, h13⟩ := ih (g := g1) (r := r1) h6 (fun y hy => (h9 y).2 (hk y hy))
      (by
        rintro x s y ⟨m, hm, hs⟩
        rw [h5] at hm
        split at hm
        · simp only [Option.some.injEq] at hm; subst hm; exact hK s y hs
        · exact hh x s y ⟨m, hm, hs⟩)
      (by
        intro q hq
        refine ⟨?_, (hl q (by simp [hq])).2⟩
        rw [h5]
        split
        · simp
        · exact (hl q (by simp [hq])).1)
    refine ⟨st', ?_, h13⟩
    simp only [applyClosures, foldE, h4]
    exact h12

end

section
variable [SetImpl] {S : Schema} {e0 : Prop}

omit [SetImpl] in
theorem reach_new {reps : List (NodeIndex × NodeIndex)} {a b : NodeIndex} (h : Reach reps a b) : b = a ∨ ∃ p ∈ reps, b = p.2 := by
  induction h with
  | refl => exact Or.inl rfl
  | tail _ h _ => exact Or.inr ⟨_, h, rfl⟩

/-- What a redirect phase does. -/
structure RedirectOut (S : Schema) (e0 : Prop) (L0 : Change → Prop) (reps : List (NodeIndex × NodeIndex)) (g : Graph) (r : Lcr) (g' : Graph) (r' : Lcr) :
    Prop where
  redirected : Spec.Redirected reps g.get? g'.get?
  inv : g'.Inv S (e0 ∧ ∀ p ∈ reps, p.2 ≠ emptyIdx)
  ctx : g'.ctxId = g.ctxId
  disp : g'.nodes.disp = g.nodes.disp
  known : ∀ y, g.back.Known y → g'.back.Known y
  known' : ∀ y, g'.back.Known y → g.back.Known y ∨ ∃ p ∈ reps, y = p.2
  knownNew : ∀ p ∈ reps, g'.back.Known p.2
  links : ∀ x s w, View.Holds g'.get? x s w → (∃ s', View.Holds g.get? x s' w) ∨ ∃ p ∈ reps, w = p.2
  shape : View.SameShape g.get? g'.get?
  typed : g.nodes.Typed → g'.nodes.Typed
  ok : Lcr.Keeps S L0 g.get? r g'.get? r'

theorem redirect_cases {g : Graph} {reps : List (NodeIndex × NodeIndex)} (h : g.Inv S e0) (r : Lcr)
    (h0 : (∃ n, (emptyIdx, n) ∈ reps) → e0) (L0 : Change → Prop) :
    (Spec.Loop reps ∧ redirectLinksVec g reps r = .error .redirectLoop) ∨
    ((∃ p ∈ reps, ¬ g.back.Known p.1) ∧ redirectLinksVec g reps r = .error .backMissing) ∨
    ((∀ p ∈ reps, g.back.Known p.1) ∧ ∃ g' r', redirectLinksVec g reps r = .ok (g', r') ∧ RedirectOut S e0 L0 reps g r g' r') := by
  rcases redirectLinksVec_cases h r h0 L0 with ⟨h1, h2⟩ | h1 | ⟨hk, R, g', r', h1, h2, h3, h4, h5, h6, h7, h8, h9⟩
  · exact Or.inl ⟨Spec.loop_iff.2 h1, h2⟩
  · exact Or.inr (Or.inl h1)
  · refine Or.inr (Or.inr ⟨hk, g', r', h1, ?_⟩)
    have hR : ∀ p ∈ reps, ∃ q ∈ reps, R p.2 = q.2 := by
      intro p hp
      rcases reach_new (h2 p hp).2 with e | ⟨q, hq, e⟩
      · exact ⟨p, hp, e⟩
      · exact ⟨q, hq, e⟩
    exact {
      redirected := ⟨_, Spec.redirectMap_firstTarget h2, View.renH_iff.1 h6⟩
      inv := h3.mono (by
        rintro ⟨he, hn⟩
        refine ⟨he, ?_⟩
        intro p hp
        obtain ⟨q, hq, e⟩ := hR p hp
        rw [e]; exact hn q hq)
      ctx := h4
      disp := h5
      known := fun y hy => (h7 y).2 (Or.inl hy)
      known' := fun y hy => by
        rcases (h7 y).1 hy with h | ⟨p, hp, e⟩
        · exact Or.inl h
        · obtain ⟨q, hq, e'⟩ := hR p hp
          exact Or.inr ⟨q, hq, e.trans e'⟩
      knownNew := fun p hp => by
        rw [h7]
        by_cases ho : ∃ n, (p.2, n) ∈ reps
        · obtain ⟨n, hn⟩ := ho
          exact Or.inl (hk _ hn)
        · refine Or.inr ⟨p, hp, ?_⟩
          rcases Relation.ReflTransGen.cases_head (h2 p hp).2 with e | ⟨c, hc, _⟩
          · exact e
          · exact absurd ⟨c, hc⟩ ho
      links := fun x s w hw => by
        obtain ⟨u, h10, h11, _⟩ := (h6.holds x s w).1 hw
        rcases firstTarget_cases R reps u with ⟨_, e⟩ | ⟨n, hn, e⟩
        · left; exact ⟨s, by rw [← h11, e]; exact h10⟩
        · obtain ⟨q, hq, e'⟩ := hR _ hn
          exact Or.inr ⟨q, hq, by rw [← h11, e, e']⟩
      shape := h6.shape
      typed := h8
      ok := h9 }

theorem redirect_out {g g' : Graph} {reps : List (NodeIndex × NodeIndex)} {r r' : Lcr} (h : g.Inv S e0)
    (h0 : (∃ n, (emptyIdx, n) ∈ reps) → e0) (L0 : Change → Prop) (hs : redirectLinksVec g reps r = .ok (g', r')) :
    RedirectOut S e0 L0 reps g r g' r' := by
  rcases redirect_cases h r h0 L0 with ⟨_, h1⟩ | ⟨_, h1⟩ | ⟨_, g1, r1, h1, h2⟩
  · rw [h1] at hs; exact absurd hs (by simp)
  · rw [h1] at hs; exact absurd hs (by simp)
  · rw [h1] at hs
    obtain ⟨rfl, rfl⟩ : g1 = g' ∧ r1 = r' := by simpa using hs
    exact h2

/-- The removal phase. -/
structure RemoveOut (S : Schema) (e0 : Prop) (L0 : Change → Prop) (xs : List NodeIndex) (g : Graph) (r : Lcr) (g' : Graph) (r' : Lcr) : Prop where
  inv : g'.Inv S e0
  ctx : g'.ctxId = g.ctxId
  disp : ∀ j, g'.nodes.disp.get? j = if j ∈ xs then none else g.nodes.disp.get? j
  shape : ∀ y, (g'.get? y).map Node.shape = if y ∈ xs then none else (g.get? y).map Node.shape
  holds : ∀ y s w, View.Holds g'.get? y s w ↔ View.Holds g.get? y s w ∧ y ∉ xs ∧ w ∉ xs
  known : ∀ y, g'.back.Known y ↔ g.back.Known y ∧ y ∉ xs
  typed : g.nodes.Typed → g'.nodes.Typed
  ok : Lcr.Keeps S L0 g.get? r g'.get? r'

/-- The loop over the removed nodes. -/
def removeAll (st : Graph × Lcr) (xs : List NodeIndex) : Except Panic (Graph × Lcr) :=
  foldE (fun (st : Graph × Lcr) x => removeNode st.1 x st.2) st xs

theorem removeAll_cases (xs : List NodeIndex) (hnd : xs.Nodup) (L0 : Change → Prop) : ∀ {g : Graph} {r : Lcr}, g.Inv S e0 →
    ((∃ x ∈ xs, g.get? x = none) ∧ removeAll (g, r) xs = .error .removeMissing) ∨
    ((∀ x ∈ xs, g.get? x ≠ none) ∧ ∃ g' r', removeAll (g, r) xs = .ok (g', r') ∧ RemoveOut S e0 L0 xs g r g' r') := by
  induction xs with
  | nil =>
    intro g r h
    exact Or.inr ⟨by simp, g, r, rfl, ⟨h, rfl, by simp, by simp, by simp, by simp, id, fun _ _ ho => ho⟩⟩
  | cons x xs ih =>
    intro g r h
    cases hn : g.get? x with
    | none => exact Or.inl ⟨⟨x, by simp, hn⟩, by simp only [removeAll, foldE, removeNode_missing (r := r) hn]⟩
    | some n =>
      obtain ⟨hx, hnd'⟩ := List.nodup_cons.1 hnd
      obtain ⟨g1, r1, h1, h2, h3, h4, h5, h6, h7, h8, h9⟩ := removeNode_ok (r := r) h hn L0
      have hex : ∀ y ∈ xs, (g1.get? y = none ↔ g.get? y = none) := by
        intro y hy
        have := h5 y
        rw [if_neg (by rintro rfl; exact hx hy)] at this
        cases h1y : g1.get? y <;> cases hy : g.get? y <;> simp_all
      have hstep : removeAll (g, r) (x :: xs) = removeAll (g1, r1) xs := by simp only [removeAll, foldE, h1]
      rcases ih hnd' (g := g1) (r := r1) h2 with ⟨⟨y, hy, hyn⟩, he⟩ | ⟨hall, g', r', h10, ho⟩
      · exact Or.inl ⟨⟨y, by simp [hy], (hex y hy).1 hyn⟩, by rw [hstep, he]⟩
      · refine Or.inr ⟨?_, g', r', by rw [hstep, h10], ?_⟩
        · intro y hy
          rcases List.mem_cons.1 hy with rfl | hy
          · rw [hn]; simp
          · exact fun hc => hall y hy ((hex y hy).2 hc)
        · exact {
            inv := ho.inv
            ctx := ho.ctx.trans h3
            disp := fun j => by
              rw [ho.disp, h4]
              by_cases hj : x = j
              · subst hj; simp
              · by_cases hjx : j ∈ xs
                · simp [hjx]
                · have hj' : ¬ j = x := fun e => hj e.symm
                  simp [hjx, hj, hj']
            shape := fun j => by
              rw [ho.shape, h5]
              by_cases hj : x = j
              · subst hj; simp
              · by_cases hjx : j ∈ xs
                · simp [hjx]
                · have hj' : ¬ j = x := fun e => hj e.symm
                  simp [hjx, hj, hj']
            holds := fun y s w => by
              rw [ho.holds, h6]
              simp only [List.mem_cons, not_or]
              tauto
            known := fun y => by
              rw [ho.known, h7]
              simp only [List.mem_cons, not_or]
              tauto
            typed := fun ht => ho.typed (h8 ht)
            ok := fun D hD hk => ho.ok D
              (fun c hc => ⟨(hD c hc).1, (hD c hc).2.imp id fun hs => ⟨fun k k' k1 k2 => hs.1 k k' ((h6 _ _ _).1 k1).1 ((h6 _ _ _).1 k2).1, hs.2⟩⟩)
              (h9 D (fun c hc => ⟨(hD c hc).1, (hD c hc).2.imp id fun hs =>
                ⟨hs.1, fun k k' k1 k2 => hs.1 k k' ((h6 _ _ _).1 k1).1 ((h6 _ _ _).1 k2).1⟩⟩) hk) }

omit [SetImpl] in
theorem removed_of_out {xs : List NodeIndex} {g g' : Graph} {r r' : Lcr} {L0 : Change → Prop} (h : g.Inv S e0)
    (hall : ∀ x ∈ xs, g.get? x ≠ none) (ho : RemoveOut S e0 L0 xs g r g' r') : Spec.Removed xs g.get? g'.get? := by
  constructor
  · intro x hx
    refine ⟨hall x hx, ?_⟩
    have := ho.shape x
    rw [if_pos hx] at this
    cases hg : g'.get? x <;> simp_all
  · intro x hx
    have hs := ho.shape x
    rw [if_neg hx] at hs
    cases hg : g.get? x with
    | none =>
      cases hg' : g'.get? x with
      | none => trivial
      | some n => rw [hg, hg'] at hs; simp at hs
    | some n =>
      cases hg' : g'.get? x with
      | none => rw [hg, hg'] at hs; simp at hs
      | some n' =>
        rw [hg, hg'] at hs
        simp only [Option.map_some, Option.some.injEq] at hs
        refine Node.renamed_of_holds hs ?_
        intro t w
        have hh := ho.holds x t w
        simp only [View.Holds, hg, hg', Option.some.injEq, exists_eq_left'] at hh
        rw [hh]
        constructor
        · rintro ⟨h1, _, h3⟩
          refine ⟨w, h1, by rw [if_neg h3], ?_⟩
          by_cases hw : w = emptyIdx
          · exact Or.inr hw
          · exact Or.inl hw
        · rintro ⟨u, h1, h2, h3⟩
          by_cases hu : u ∈ xs
          · rw [if_pos hu] at h2
            rcases h3 with h3 | h3
            · exact absurd h2.symm h3
            · subst h3; exact absurd h.noEmpty (hall _ hu)
          · rw [if_neg hu] at h2
            subst h2
            exact ⟨h1, hx, hu⟩

/-- Everything `do_commit` does before bidirectional completion. -/
def perform (S : Schema) (g : Graph) (t : Trans) : Except Panic (Graph × Lcr) :=
  match redirectLinksVec g t.redir Lcr.new with
  | .error e => .error e
  | .ok (g1, r1) =>
    match applyClosures modifyNode (mergeNodes S g1 t.inc r1) t.muts with
    | .error e => .error e
    | .ok st3 =>
      match applyClosures updateNode st3 t.upds with
      | .error e => .error e
      | .ok (g4, r4) =>
        match redirectLinksVec g4 t.redirAll r4 with
        | .error e => .error e
        | .ok st5 => removeAll st5 t.dec.elems

theorem doCommit_eq (dbg : Bool) (g : Graph) (t : Trans) :
    doCommit S dbg g t =
      if dbg && decide (t.ctxId ≠ g.ctxId) then .error .ctxMismatch
      else if dbg && !t.allocs.isEmpty then .error .unfilledAlloc
      else match perform S g t with
        | .error e => .error e
        | .ok (g6, r6) =>
          match applyBidirectional S g6 r6 with
          | .error e => .error e
          | .ok g7 => .ok (g7, r6) := by
  simp only [doCommit, perform, removeAll]
  split
  · rfl
  · split
    · rfl
    · cases redirectLinksVec g t.redir Lcr.new with
      | error e => rfl
      | ok st1 =>
        simp only
        cases applyClosures modifyNode (mergeNodes S st1.1 t.inc st1.2) t.muts with
        | error e => rfl
        | ok st3 =>
          simp only
          cases applyClosures updateNode st3 t.upds with
          | error e => rfl
          | ok st4 =>
            simp only
            cases redirectLinksVec st4.1 t.redirAll st4.2 with
            | error e => rfl
            | ok st5 =>
              simp only
              cases foldE (fun (st : Graph × Lcr) x => removeNode st.1 x st.2) st5 t.dec.elems with
              | error e => rfl
              | ok st6 => rfl

/-- No request redirects the links that hold the empty index. -/
def _root_.TTGraph.Trans.NoFromEmpty (t : Trans) : Prop := ∀ n, (emptyIdx, n) ∉ t.redir ++ t.redirAll

/-- No request redirects to the empty index. -/
def _root_.TTGraph.Trans.NoToEmpty (t : Trans) : Prop := ∀ p ∈ t.redir ++ t.redirAll, p.2 ≠ emptyIdx

/-- What the phases before bidirectional completion do. -/
structure PerformOut (S : Schema) (e0 : Prop) (t : Trans) (g g' : Graph) (r' : Lcr) : Prop where
  performed : Spec.Performed t g.get? g'.get?
  inv : g'.Inv S (e0 ∧ t.NoToEmpty)
  ctx : g'.ctxId = g.ctxId
  disp : ∀ j, g'.nodes.disp.get? j = if j ∈ t.dec.elems then none else (t.inc.disp.get? j <|> g.nodes.disp.get? j)
  known : ∀ y, g'.back.Known y → y ∉ t.dec.elems ∧ (g.back.Known y ∨ (∃ n, t.inc.get? y = some n) ∨ View.Linked t.inc.get? y ∨
    ∃ p ∈ t.redir ++ t.redirAll, y = p.2)
  typed : g.nodes.Typed → t.inc.Typed → (∀ p ∈ t.muts ++ t.upds, Closure.KeepsVariant p.2) → g'.nodes.Typed
  ok : ∀ D : Change → Prop, (∀ c, D c → c.2.1 ≠ emptyIdx ∧ Spec.Steady S t g.get? c.1 c.2.2 c.2.1) → Lcr.Ok D (View.L g.get?) (View.L g'.get?) r'

omit [SetImpl] in
theorem inserted_of_merge {new old v : View} (hd : ∀ x, new x ≠ none → old x = none) (h : ∀ j, v j = (new j <|> old j)) : Spec.Inserted new old v := by
  constructor
  · intro x hx; rw [h, hx]; simp
  · intro x n hx; exact ⟨hd x (by simp [hx]), by rw [h, hx]; simp⟩

theorem perform_out (hS : S.discs.Nodup) {g g' : Graph} {t : Trans} {r' : Lcr} (h : g.Inv S e0) (ht : t.Good S) (hd : g.nodes.Disjoint t.inc)
    (hz : t.NoFromEmpty) (hs : perform S g t = .ok (g', r')) : PerformOut S e0 t g g' r' := by
  simp only [perform] at hs
  cases h1 : redirectLinksVec g t.redir Lcr.new with
  | error e => rw [h1] at hs; exact absurd hs (by simp)
  | ok st1 =>
    rw [h1] at hs
    obtain ⟨g1, r1⟩ := st1
    simp only at hs
    have o1 := redirect_out (L0 := View.L g.get?) h (fun ⟨n, hn⟩ => absurd (List.mem_append_left _ hn) (hz n)) h1
    have hd1 : g1.nodes.Disjoint t.inc := by intro i hi; rw [o1.disp]; exact hd i hi
    have o2 := mergeNodes_spec (r := r1) (L0 := View.L g.get?) hS o1.inv ht.inv hd1 ht.noEmpty ht.wt
    obtain ⟨m1, m2, m3, m4, m5, m6⟩ := o2
    cases h3 : applyClosures modifyNode (mergeNodes S g1 t.inc r1) t.muts with
    | error e => rw [h3] at hs; exact absurd hs (by simp)
    | ok st3 =>
      rw [h3] at hs
      simp only at hs
      have o3 := applyClosures_out (L0 := View.L g.get?) (Or.inl rfl) t.muts (fun p hp => ht.closures p (by simp [hp])) m2 h3
      cases h4 : applyClosures updateNode st3 t.upds with
      | error e => rw [h4] at hs; exact absurd hs (by simp)
      | ok st4 =>
        rw [h4] at hs
        obtain ⟨g4, r4⟩ := st4
        simp only at hs
        have o4 := applyClosures_out (L0 := View.L g.get?) (Or.inr rfl) t.upds (fun p hp => ht.closures p (by simp [hp])) o3.inv h4
        cases h5 : redirectLinksVec g4 t.redirAll r4 with
        | error e => rw [h5] at hs; exact absurd hs (by simp)
        | ok st5 =>
          rw [h5] at hs
          obtain ⟨g5, r5⟩ := st5
          simp only at hs
          have o5 := redirect_out (L0 := View.L g.get?) o4.inv (fun ⟨n, hn⟩ => absurd (List.mem_append_right _ hn) (hz n)) h5
          rcases removeAll_cases (S := S) (r := r5) t.dec.elems t.dec.nodup (View.L g.get?) o5.inv with ⟨_, h6⟩ | ⟨hall, g6, r6, h6, o6⟩
          · rw [h6] at hs; exact absurd hs (by simp)
          · rw [h6] at hs
            obtain ⟨rfl, rfl⟩ : g6 = g' ∧ r6 = r' := by simpa using hs
            have hdis : ∀ x, t.inc.get? x ≠ none → g1.get? x = none := by
              intro x hx
              obtain ⟨n, hn⟩ := Option.ne_none_iff_exists'.1 hx
              obtain ⟨d, hdd, _⟩ := Arena.get?_eq_some.1 hn
              exact Arena.get?_of_disp_none (hd1 x (by simp [hdd]))
            exact {
              performed := ⟨_, _, _, _, _, o1.redirected, inserted_of_merge hdis m1, o3.applied, o4.applied, o5.redirected,
                removed_of_out o5.inv hall o6⟩
              inv := o6.inv.mono (by
                rintro ⟨he, hn⟩
                exact ⟨⟨he, fun p hp => hn p (by simp [hp])⟩, fun p hp => hn p (by simp [hp])⟩)
              ctx := by rw [o6.ctx, o5.ctx, o4.ctx, o3.ctx, m3, o1.ctx]
              disp := fun j => by
                rw [o6.disp, o5.disp, o4.disp, o3.disp, m4, Arena.merge_disp, o1.disp]
              known := fun y hy => by
                obtain ⟨k1, k2⟩ := (o6.known y).1 hy
                refine ⟨k2, ?_⟩
                rcases o5.known' y k1 with k | ⟨p, hp, e⟩
                · rcases (m5 y).1 ((o3.known y).1 ((o4.known y).1 k)) with k | k | k
                  · rcases o1.known' y k with k | ⟨p, hp, e⟩
                    · exact Or.inl k
                    · exact Or.inr (Or.inr (Or.inr ⟨p, by simp [hp], e⟩))
                  · exact Or.inr (Or.inl k)
                  · exact Or.inr (Or.inr (Or.inl k))
                · exact Or.inr (Or.inr (Or.inr ⟨p, by simp [hp], e⟩))
              typed := fun hg hi hc => o6.typed (o5.typed (o4.typed (o3.typed (by rw [m4]; exact Arena.merge_typed (o1.typed hg) hi)
                (fun p hp => hc p (by simp [hp]))) (fun p hp => hc p (by simp [hp]))))
              ok := fun D hD => by
                have i2 := inserted_of_merge hdis m1
                have s1 : Spec.Stage t g.get? g1.get? := Or.inr (Or.inl o1.redirected)
                have s3 : ∀ pre v, pre <+: t.muts → Spec.Applied pre (mergeNodes S g1 t.inc r1).1.get? v → Spec.Stage t g.get? v := fun pre v hp hv =>
                  Or.inr (Or.inr ⟨_, _, o1.redirected, i2, Or.inl ⟨pre, hp, hv⟩⟩)
                have s2 : Spec.Stage t g.get? (mergeNodes S g1 t.inc r1).1.get? := s3 [] _ List.nil_prefix (.nil fun _ => rfl)
                have s4 : ∀ pre v, pre <+: t.upds → Spec.Applied pre st3.1.get? v → Spec.Stage t g.get? v := fun pre v hp hv =>
                  Or.inr (Or.inr ⟨_, _, o1.redirected, i2, Or.inr ⟨_, o3.applied, Or.inl ⟨pre, hp, hv⟩⟩⟩)
                have s5 : Spec.Stage t g.get? g5.get? :=
                  Or.inr (Or.inr ⟨_, _, o1.redirected, i2, Or.inr ⟨_, o3.applied, Or.inr ⟨_, o4.applied, o5.redirected⟩⟩⟩)
                have s4' : Spec.Stage t g.get? g4.get? := s4 t.upds _ (List.prefix_refl _) o4.applied
                refine o6.ok D (fun c hc => ⟨(hD c hc).1, (hD c hc).2.imp id fun hs =>
                  ⟨hs _ s5, fun k k' k1 k2 => hs _ s5 k k' ((o6.holds _ _ _).1 k1).1 ((o6.holds _ _ _).1 k2).1⟩⟩) ?_
                refine o5.ok D (fun c hc => ⟨(hD c hc).1, (hD c hc).2.imp id fun hs => ⟨hs _ s4', hs _ s5⟩⟩) ?_
                refine o4.ok D (fun c hc => ⟨(hD c hc).1, (hD c hc).2.imp id fun hs pre v hp hv => hs _ (s4 pre v hp hv)⟩) ?_
                refine o3.ok D (fun c hc => ⟨(hD c hc).1, (hD c hc).2.imp id fun hs pre v hp hv => hs _ (s3 pre v hp hv)⟩) ?_
                refine m6 D (fun c hc => ⟨(hD c hc).1, (hD c hc).2.imp id fun hs => ⟨hs _ s1, hs _ s2⟩⟩) ?_
                exact o1.ok D (fun c hc => ⟨(hD c hc).1, (hD c hc).2.imp id fun hs => ⟨hs _ (Or.inl rfl), hs _ s1⟩⟩) (Lcr.ok_new _ _) }

omit [SetImpl] in
theorem PerformOut.tracked {t : Trans} {g g' : Graph} {r' : Lcr} (h : PerformOut S e0 t g g' r') :
    Lcr.Ok (Tracked S) (View.L g.get?) (View.L g'.get?) r' := h.ok _ fun _ hc => ⟨hc.1, Or.inl hc.2⟩

/-- The indices the graph knows about once the nodes of the transaction are inserted: nodes and targets of links and of redirections. -/
def _root_.TTGraph.Trans.Mentions (t : Trans) (g : Graph) (y : NodeIndex) : Prop :=
  (g.get? y ≠ none ∨ View.Linked g.get? y) ∨ (t.inc.get? y ≠ none ∨ View.Linked t.inc.get? y) ∨ ∃ p ∈ t.redir, y = p.2

/-- The operations of the transaction make sense for the graph. -/
structure Performable (S : Schema) (t : Trans) (g : Graph) : Prop where
  redirKnown : ∀ p ∈ t.redir, g.get? p.1 ≠ none ∨ View.Linked g.get? p.1
  redirLoop : ¬ Spec.Loop t.redir
  closures : ∀ p ∈ t.muts ++ t.upds, (g.get? p.1 ≠ none ∨ t.inc.get? p.1 ≠ none) ∧ Closure.Safe S (t.Mentions g) p.2
  redirAllKnown : ∀ p ∈ t.redirAll, t.Mentions g p.1
  redirAllLoop : ¬ Spec.Loop t.redirAll
  dec : ∀ x ∈ t.dec.elems, g.get? x ≠ none ∨ t.inc.get? x ≠ none

omit [SetImpl] in
theorem applied_exists {l : List (NodeIndex × Closure)} {v v' : View} (h : Spec.Applied l v v') (x : NodeIndex) : v' x = none ↔ v x = none := by
  induction h with
  | nil h => rw [h]
  | cons h1 _ h3 _ ih =>
    rw [ih, h3]
    split
    · rename_i e; subst e; rw [h1]; simp
    · rfl

omit [SetImpl] in
theorem Inv.known_of {g : Graph} (h : g.Inv S e0) {y : NodeIndex} (hy : g.get? y ≠ none ∨ View.Linked g.get? y) : g.back.Known y := by
  rcases hy with hy | ⟨x, s, hy⟩
  · obtain ⟨n, hn⟩ := Option.ne_none_iff_exists'.1 hy
    exact h.known _ _ hn
  · exact (h.recd _ _ _ hy).known

omit [SetImpl] in
theorem Closure.Safe.typed {K : NodeIndex → Prop} {f : Closure} (h : Closure.Safe S K f) {n n' : Node} (hn : S.WT n)
    (hk : ∀ s y, n.Holds s y → K y) (hf : f n = .ok n') : S.WT n' := by
  obtain ⟨n1, h1, h2, _⟩ := h n hn hk
  rw [hf] at h1
  simp only [Except.ok.injEq] at h1
  subst h1; exact h2

theorem perform_total (hS : S.discs.Nodup) {g : Graph} {t : Trans} (h : g.Inv S e0) (ht : t.Good S) (hd : g.nodes.Disjoint t.inc)
    (hz : t.NoFromEmpty) (hp : Performable S t g) : ∃ g' r', perform S g t = .ok (g', r') := by
  rcases redirect_cases (S := S) h Lcr.new (reps := t.redir) (fun ⟨n, hn⟩ => absurd (List.mem_append_left _ hn) (hz n)) (View.L g.get?) with
    ⟨hl, _⟩ | ⟨⟨p, hp1, hp2⟩, _⟩ | ⟨_, g1, r1, h1, o1⟩
  · exact absurd hl hp.redirLoop
  · exact absurd (h.known_of (hp.redirKnown p hp1)) hp2
  have hd1 : g1.nodes.Disjoint t.inc := by intro i hi; rw [o1.disp]; exact hd i hi
  obtain ⟨m1, m2, m3, m4, m5, m6⟩ := mergeNodes_spec (r := r1) (L0 := View.L g.get?) hS o1.inv ht.inv hd1 ht.noEmpty ht.wt
  have hex : ∀ x, (g.get? x ≠ none ∨ t.inc.get? x ≠ none) → (mergeNodes S g1 t.inc r1).1.get? x ≠ none := by
    intro x hx
    rw [m1]
    rcases hx with hx | hx
    · have := (o1.shape.exists x).2 hx
      cases hi : t.inc.get? x with
      | none => simpa using this
      | some n => simp
    · obtain ⟨n, hn⟩ := Option.ne_none_iff_exists'.1 hx
      simp [hn]
  have hK : ∀ y, t.Mentions g y → (mergeNodes S g1 t.inc r1).1.back.Known y := by
    rintro y (hy | (hy | hy) | ⟨p, hp1, rfl⟩)
    · exact (m5 y).2 (Or.inl (o1.known y (h.known_of hy)))
    · exact (m5 y).2 (Or.inr (Or.inl (Option.ne_none_iff_exists'.1 hy)))
    · exact (m5 y).2 (Or.inr (Or.inr hy))
    · exact (m5 _).2 (Or.inl (o1.knownNew p hp1))
  have hL : ∀ x s y, View.Holds (mergeNodes S g1 t.inc r1).1.get? x s y → t.Mentions g y := by
    rintro x s y ⟨n, hn, hs⟩
    rw [m1] at hn
    cases hi : t.inc.get? x with
    | some n0 =>
      rw [hi] at hn
      simp only [some_alt, Option.some.injEq] at hn
      subst hn
      exact Or.inr (Or.inl (Or.inr ⟨x, s, n0, hi, hs⟩))
    | none =>
      rw [hi] at hn
      simp only [none_alt] at hn
      rcases o1.links x s y ⟨n, hn, hs⟩ with ⟨s', hh⟩ | hh
      · exact Or.inl (Or.inr ⟨x, s', hh⟩)
      · exact Or.inr (Or.inr hh)
  obtain ⟨st3, h3, l3⟩ := applyClosures_total (S := S) (step := modifyNode) (g := (mergeNodes S g1 t.inc r1).1) (r := (mergeNodes S g1 t.inc r1).2)
    (Or.inl rfl) (t.Mentions g) t.muts m2 hK hL (fun p hp' => ⟨hex _ (hp.closures p (by simp [hp'])).1, (hp.closures p (by simp [hp'])).2⟩)
  have o3 := applyClosures_out (L0 := View.L g.get?) (Or.inl rfl) t.muts (fun p hp => ht.closures p (by simp [hp])) m2 h3
  obtain ⟨st4, h4, l4⟩ := applyClosures_total (S := S) (step := updateNode) (g := st3.1) (r := st3.2)
    (Or.inr rfl) (t.Mentions g) t.upds o3.inv (fun y hy => (o3.known y).2 (hK y hy)) l3 (fun p hp' =>
      ⟨fun hc => hex _ (hp.closures p (by simp [hp'])).1 ((applied_exists o3.applied _).1 hc), (hp.closures p (by simp [hp'])).2⟩)
  have o4 := applyClosures_out (L0 := View.L g.get?) (Or.inr rfl) t.upds (fun p hp => ht.closures p (by simp [hp])) o3.inv h4
  rcases redirect_cases (S := S) o4.inv st4.2 (reps := t.redirAll) (fun ⟨n, hn⟩ => absurd (List.mem_append_right _ hn) (hz n)) (View.L g.get?) with
    ⟨hl, _⟩ | ⟨⟨p, hp1, hp2⟩, _⟩ | ⟨_, g5, r5, h5, o5⟩
  · exact absurd hl hp.redirAllLoop
  · exact absurd ((o4.known _).2 ((o3.known _).2 (hK _ (hp.redirAllKnown p hp1)))) hp2
  rcases removeAll_cases (S := S) (r := r5) t.dec.elems t.dec.nodup (View.L g.get?) o5.inv with ⟨⟨x, hx, hn⟩, _⟩ | ⟨hall, g6, r6, h6, o6⟩
  · have := hex x (hp.dec x hx)
    exact absurd ((applied_exists o3.applied x).1 ((applied_exists o4.applied x).1 ((o5.shape.none x).1 hn))) this
  · refine ⟨g6, r6, ?_⟩
    have h3' : applyClosures modifyNode (mergeNodes S g1 t.inc r1) t.muts = .ok st3 := h3
    have h4' : applyClosures updateNode st3 t.upds = .ok st4 := h4
    simp only [perform, h1, h3', h4', h5, h6]

end
end Graph
end TTGraph
