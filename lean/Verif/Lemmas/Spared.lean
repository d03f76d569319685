import Verif.Lemmas.Independent
import Verif.Lemmas.Exact

/-!
# Operations that can still be carried out after an independent commit
-/

set_option autoImplicit false

namespace TTGraph
open Spec

open Classical in
/-- `a` on the indices in `F`, `b` elsewhere. -/
noncomputable def View.glue (F : NodeIndex → Prop) (a b : View) : View := fun x => if F x then a x else b x

section
variable {F : NodeIndex → Prop} {a b : View}

theorem View.glue_pos {x : NodeIndex} (h : F x) : View.glue F a b x = a x := if_pos h

theorem View.glue_neg {x : NodeIndex} (h : ¬ F x) : View.glue F a b x = b x := if_neg h

theorem View.glue_glue (a a' b : View) : View.glue F a (View.glue F a' b) = View.glue F a b := by
  funext x
  by_cases h : F x
  · rw [View.glue_pos h, View.glue_pos h]
  · rw [View.glue_neg h, View.glue_neg h, View.glue_neg h]

theorem View.glue_on (a b : View) : (View.glue F a b).on F = a.on F := by
  funext x
  by_cases h : F x
  · rw [View.on_pos h, View.on_pos h, View.glue_pos h]
  · rw [View.on_neg h, View.on_neg h]

theorem View.glue_off (a b : View) : (View.glue F a b).on (fun x => ¬ F x) = b.on fun x => ¬ F x := by
  funext x
  by_cases h : F x
  · rw [View.on_neg (F := fun x => ¬ F x) (not_not.2 h), View.on_neg (F := fun x => ¬ F x) (not_not.2 h)]
  · rw [View.on_pos (F := fun x => ¬ F x) h, View.on_pos (F := fun x => ¬ F x) h, View.glue_neg h]

theorem View.glue_holds_neg {x : NodeIndex} (h : ¬ F x) {s : Source} {y : NodeIndex} : (View.glue F a b).Holds x s y ↔ b.Holds x s y := by
  simp only [View.Holds, View.glue_neg h]

theorem View.glue_link {x : NodeIndex} (h : F x) {m : Mirror} {y : NodeIndex} : (View.glue F a b).Link x m y ↔ a.Link x m y := by
  simp only [View.Link, View.glue_pos h]

theorem View.glue_link_neg {x : NodeIndex} (h : ¬ F x) {m : Mirror} {y : NodeIndex} : (View.glue F a b).Link x m y ↔ b.Link x m y := by
  simp only [View.Link, View.glue_neg h]

end

theorem Node.Renamed.of_same {ρ : NodeIndex → NodeIndex} {n n' m : Node} (h : Node.Renamed ρ n n') (hs : n.Same m) : Node.Renamed ρ m n' := by
  obtain ⟨s1, s2⟩ := Node.same_iff.1 hs
  refine Node.renamed_of_holds ((Node.Renamed.shape h).trans s1.symm) fun s w => ?_
  rw [Node.Renamed.holds h]
  simp only [s2]

theorem Node.Renamed.self {ρ : NodeIndex → NodeIndex} {n : Node} (h : ∀ s y, n.Holds s y → ρ y = y) : Node.Renamed ρ n n := by
  refine Node.renamed_of_holds rfl fun s w => ⟨fun hw => ⟨w, hw, h s w hw, ?_⟩, ?_⟩
  · by_cases e : w = emptyIdx
    · exact .inr e
    · exact .inl e
  · rintro ⟨u, hu, rfl, _⟩
    rw [h s u hu]
    exact hu

section
variable {v v' w : View} {F : NodeIndex → Prop}

theorem renamed_glue {ρ : NodeIndex → NodeIndex} (h : View.Renamed ρ v v') (hs : View.Same (v.on F) (w.on F))
    (hk : ∀ x s y, ¬ F x → w.Holds x s y → ρ y = y) : View.Renamed ρ w (View.glue F v' w) := by
  intro x
  by_cases hf : F x
  · rw [View.glue_pos hf]
    have h1 := h x
    have h2 := View.same_on.1 hs x hf
    revert h1 h2
    cases v x <;> cases v' x <;> cases w x <;> try (intro h1 h2; first | exact h1.elim | exact h2.elim | trivial)
    intro h1 h2
    exact Node.Renamed.of_same h1 h2
  · rw [View.glue_neg hf]
    cases e : w x with
    | none => trivial
    | some n => exact Node.Renamed.self fun s y hy => hk x s y hf ⟨n, e, hy⟩

theorem inserted_glue {new : View} (hF : ∀ i, new i ≠ none → F i) (h : Inserted new v v') (w : View) :
    Inserted new (View.glue F v w) (View.glue F v' w) := by
  refine ⟨fun x hx => ?_, fun x n hn => ?_⟩
  · by_cases hf : F x
    · rw [View.glue_pos hf, View.glue_pos hf]; exact h.1 x hx
    · rw [View.glue_neg hf, View.glue_neg hf]
  · have hf := hF x (by rw [hn]; simp)
    rw [View.glue_pos hf, View.glue_pos hf]
    exact h.2 x n hn

theorem appliedIn_glue {K : NodeIndex → Prop} {l : List (NodeIndex × Closure)} (hF : ∀ p ∈ l, F p.1) (h : AppliedIn K l v v') (w : View) :
    AppliedIn K l (View.glue F v w) (View.glue F v' w) := by
  induction h with
  | nil h =>
    refine .nil fun x => ?_
    by_cases hf : F x
    · rw [View.glue_pos hf, View.glue_pos hf]; exact h x
    · rw [View.glue_neg hf, View.glue_neg hf]
  | @cons i f l v v1 v' n n' h1 h2 h3 h4 _ ih =>
    have hi : F i := hF (i, f) (by simp)
    refine .cons (v1 := View.glue F v1 w) (by rw [View.glue_pos hi]; exact h1) h2 h3 (fun j => ?_) (ih fun p hp => hF p (by simp [hp]))
    by_cases hf : F j
    · rw [View.glue_pos hf, View.glue_pos hf]; exact h4 j
    · rw [View.glue_neg hf, View.glue_neg hf, if_neg (fun e : i = j => hf (e ▸ hi))]

theorem removed_glue {xs : List NodeIndex} (hF : ∀ x ∈ xs, F x) (h : Removed xs v v') (hk : ∀ x s y, ¬ F x → w.Holds x s y → y ∉ xs) :
    Removed xs (View.glue F v w) (View.glue F v' w) := by
  refine ⟨fun x hx => ?_, fun x hx => ?_⟩
  · rw [View.glue_pos (hF x hx), View.glue_pos (hF x hx)]; exact h.1 x hx
  · by_cases hf : F x
    · rw [View.glue_pos hf, View.glue_pos hf]; exact h.2 x hx
    · rw [View.glue_neg hf, View.glue_neg hf]
      cases e : w x with
      | none => trivial
      | some n => exact Node.Renamed.self fun s y hy => if_neg (hk x s y hf ⟨n, e, hy⟩)

/-- Closures that make no links to indices outside `P` leave none where there were none. -/
theorem appliedIn_avoid {K P : NodeIndex → Prop} {l : List (NodeIndex × Closure)} (hF : ∀ p ∈ l, F p.1)
    (hf : ∀ i f, (i, f) ∈ l → ∀ n n', f n = .ok n' → ∀ s y, n'.Holds s y → (∃ s', n.Holds s' y) ∨ P y) (h : AppliedIn K l v v')
    (hv : ∀ x s y, F x → v.Holds x s y → P y) :
    AppliedIn (fun y => K y ∧ P y) l v v' ∧ ∀ x s y, F x → v'.Holds x s y → P y := by
  induction h with
  | nil h =>
    refine ⟨.nil h, fun x s y hx ⟨n, hn, hh⟩ => hv x s y hx ⟨n, by rw [← h]; exact hn, hh⟩⟩
  | @cons i f l v v1 v' n n' h1 h2 h3 h4 _ ih =>
    have hi : F i := hF (i, f) (by simp)
    have hn' : ∀ s y, n'.Holds s y → P y := by
      intro s y hy
      rcases hf i f (by simp) n n' h2 s y hy with ⟨s', hs'⟩ | hp
      · exact hv i s' y hi ⟨n, h1, hs'⟩
      · exact hp
    obtain ⟨k1, k2⟩ := ih (fun p hp => hF p (by simp [hp])) (fun j f' hm => hf j f' (by simp [hm])) (by
      rintro x s y hx ⟨m, hm, hh⟩
      rw [h4 x] at hm
      by_cases e : i = x
      · rw [if_pos e, Option.some.injEq] at hm
        exact hn' s y (hm ▸ hh)
      · rw [if_neg e] at hm
        exact hv x s y hx ⟨m, hm, hh⟩)
    exact ⟨.cons h1 h2 (fun s y hy => ⟨h3 s y hy, hn' s y hy⟩) h4 k1, k2⟩

end

theorem redirectMap_target {reqs : List (NodeIndex × NodeIndex)} {ρ : NodeIndex → NodeIndex} (h : RedirectMap reqs ρ) {u n : NodeIndex}
    (hu : (u, n) ∈ reqs) : ∃ z, (z, ρ u) ∈ reqs := by
  have key : ∀ {a b : NodeIndex}, Chain reqs a b → (∃ z, (z, a) ∈ reqs) → ∃ z, (z, b) ∈ reqs := by
    intro a b hc
    induction hc with
    | here => exact id
    | step h1 _ ih => exact fun _ => ih ⟨_, h1⟩
  obtain ⟨pre, n', post, h1, h2⟩ := split_first hu
  exact key (h.first _ _ _ _ h1 h2).1 ⟨u, by rw [h1]; simp⟩

variable {S : Schema} {t : Trans} {v w v6 : View} {F : NodeIndex → Prop}

/-- Operations that can be carried out on `v` can be carried out on every view that agrees with it on their footprint, has the nodes that
they rely on, and has no links elsewhere to nodes that they redirect or remove. -/
theorem Spec.CarriedOut.moved (h : CarriedOut t.pending v v6) (hF : Footprint.Ops t v F) (hs : View.Same (v.on F) (w.on F))
    (hk : ∀ x s y, ¬ F x → w.Holds x s y → ¬ Displaces t.pending y) (P : NodeIndex → Prop) (hP : ∀ y, v y ≠ none → P y → w y ≠ none)
    (hl : ∀ x s y, F x → v.Holds x s y → P y) (hm : ∀ y, Mentions t.pending y → P y) : CarriedOut t.pending w (View.glue F v6 w) := by
  obtain ⟨v1, v2, v3, v4, v5, xs, ⟨e1, l1, ρ, r1, a1⟩, a2, a3, a4, ⟨e5, l5, ρ', r5, a5⟩, hxs, a6⟩ := h
  have hpr : ∀ y, Present v t.pending y → P y → Present w t.pending y := fun y hy hp => hy.imp (fun hy => hP y hy hp) id
  have hρ : ∀ u, P u → P (ρ u) := by
    intro u hu
    by_cases hr : ∃ n, (u, n) ∈ t.pending.redir
    · obtain ⟨n, hn⟩ := hr
      obtain ⟨z, hz⟩ := redirectMap_target r1 hn
      exact hm _ (.inr (.inl ⟨z, .inr (List.mem_append_left _ hz)⟩))
    · rw [r1.other u fun n hn => hr ⟨n, hn⟩]; exact hu
  have p1 : ∀ x s y, F x → v1.Holds x s y → P y := by
    intro x s y hx hh
    obtain ⟨u, hu, rfl, _⟩ := ((View.Renamed.renH a1).holds x s y).1 hh
    exact hρ u (hl x s u hx hu)
  have p2 : ∀ x s y, F x → v2.Holds x s y → P y := by
    rintro x s y hx ⟨n, hn, hh⟩
    cases e : t.pending.new x with
    | none => rw [a2.1 x e] at hn; exact p1 x s y hx ⟨n, hn, hh⟩
    | some n' => rw [(a2.2 x n' e).2] at hn; exact hm y (.inl ⟨x, s, n, by rw [e]; exact hn, hh⟩)
  have hf : ∀ i f, (i, f) ∈ t.pending.muts ++ t.pending.upds → ∀ n n', f n = .ok n' → ∀ s y, n'.Holds s y → (∃ s', n.Holds s' y) ∨ P y := by
    intro i f hi n n' hn s y hy
    by_cases hs' : ∃ s', n.Holds s' y
    · exact .inl hs'
    · exact .inr (hm y (.inr (.inr ⟨i, f, n, n', s, hi, hn, hy, fun s' h' => hs' ⟨s', h'⟩⟩)))
  have f3 : ∀ p ∈ t.pending.muts, F p.1 := fun p hp => hF.changed p.1 p.2 (List.mem_append_left _ hp)
  have f4 : ∀ p ∈ t.pending.upds, F p.1 := fun p hp => hF.changed p.1 p.2 (List.mem_append_right _ hp)
  obtain ⟨b3, p3⟩ := appliedIn_avoid f3 (fun i f hi => hf i f (List.mem_append_left _ hi)) a3 p2
  obtain ⟨b4, p4⟩ := appliedIn_avoid f4 (fun i f hi => hf i f (List.mem_append_right _ hi)) a4 p3
  have c3 : AppliedIn (Present w t.pending) t.pending.muts v2 v3 := b3.weaken fun _ _ _ _ _ _ _ y _ hy => hpr y hy.1 hy.2
  have c4 : AppliedIn (Present w t.pending) t.pending.upds v3 v4 := b4.weaken fun _ _ _ _ _ _ _ y _ hy => hpr y hy.1 hy.2
  have hmr : ∀ y z, (y, z) ∈ t.pending.redir ∨ (y, z) ∈ t.pending.redirAll → P y := fun y z h =>
    hm y (.inr (.inl ⟨z, .inl (List.mem_append.2 h)⟩))
  refine ⟨View.glue F v1 w, View.glue F v2 w, View.glue F v3 w, View.glue F v4 w, View.glue F v5 w, xs,
    ⟨fun old new ho => hP old (e1 old new ho) (hmr old new (.inl ho)), l1, ρ, r1, ?_⟩, inserted_glue hF.inserted a2 w,
    appliedIn_glue f3 c3 w, appliedIn_glue f4 c4 w, ⟨fun old new ho => ?_, l5, ρ', r5, ?_⟩, hxs, ?_⟩
  · exact renamed_glue a1 hs fun x s y hx hh => r1.other y fun n hn => hk x s y hx hh (.inl ⟨n, .inl hn⟩)
  · by_cases hx : F old
    · rw [View.glue_pos hx]; exact e5 old new ho
    · rw [View.glue_neg hx]
      refine hP old (fun hn => ?_) (hmr old new (.inr ho))
      have h1 : v1 old = none := (renamed_none a1 old).2 hn
      have h2 : v2 old = none := by
        rw [a2.1 old (by_contra fun hc => hx (hF.inserted old hc))]; exact h1
      exact e5 old new ho ((applied_none a4.applied old).2 ((applied_none a3.applied old).2 h2))
  · have := renamed_glue (F := F) (w := View.glue F v4 w) a5 (by rw [View.glue_on]; exact .refl _) fun x s y hx hh =>
      r5.other y fun n hn => hk x s y hx ((View.glue_holds_neg hx).1 hh) (.inl ⟨n, .inr hn⟩)
    rwa [View.glue_glue] at this
  · exact removed_glue (fun x hx => hF.removed x ((hxs x).1 hx)) a6 fun x s y hx hh hc => hk x s y hx hh (.inr ((hxs y).1 hc))

/-- The result can be completed where the original one can. -/
theorem Spec.Completable.moved (h : Completable S v v6) (hF : Footprint S t v F) (hp : Performed t v v6)
    (hs : View.Same (v.on F) (w.on F))
    (hty : ∀ x m y n, AddedLink v v6 x m y → ¬ F y → w y = some n → ∃ n', v6 y = some n' ∧ n'.disc = n.disc) :
    Completable S w (View.glue F v6 w) := by
  have hadd : ∀ x m y, AddedLink w (View.glue F v6 w) x m y ↔ AddedLink v v6 x m y := by
    intro x m y
    by_cases hx : F x
    · simp only [AddedLink, View.glue_link hx, hs.link_on hx]
    · constructor
      · rintro ⟨_, h1, h2⟩; exact absurd ((View.glue_link_neg hx).1 h1) h2
      · intro h1; exact absurd (hF.ops.changed_in hp (.inl h1)) hx
  have hrem : ∀ x m y, RemovedLink w (View.glue F v6 w) x m y ↔ RemovedLink v v6 x m y := by
    intro x m y
    by_cases hx : F x
    · simp only [RemovedLink, View.glue_link hx, hs.link_on hx]
    · constructor
      · rintro ⟨_, h1, h2⟩; exact absurd ((View.glue_link_neg hx).2 h1) h2
      · intro h1; exact absurd (hF.ops.changed_in hp (.inr h1)) hx
  have hends : ∀ x y d, F x → F y → (Ends (View.glue F v6 w) x y d ↔ Ends v6 x y d) := by
    intro x y d hx hy
    simp only [Ends, View.glue_pos hx, View.glue_pos hy]
  have hdem : ∀ {y m' x}, Demanded S w (View.glue F v6 w) y m' x → F y ∧ Demanded S v v6 y m' x := by
    rintro y m' x ⟨m, d, h1, h2, h3⟩
    have h1' := (hadd x m y).1 h1
    have hy := hF.ends v6 hp x m y m' (.inl h1') h3.1
    exact ⟨hy, m, d, h1', (hends x y d (hF.ops.changed_in hp (.inl h1')) hy).1 h2, h3⟩
  refine ⟨?_, ⟨?_, ?_⟩, fun x m y n h1 h2 => ?_⟩
  · rintro ⟨y, m', x, i, hk, hd, hne, hx⟩
    obtain ⟨hy, hd'⟩ := hdem hd
    refine h.1 ⟨y, m', x, i, hk, hd', hne, ?_⟩
    rcases hx with ⟨h1, h2⟩ | hx
    · refine .inl ⟨(View.glue_link hy).1 h1, fun ⟨m, d, h3, h4, h5⟩ => h2 ⟨m, d, (hrem i m y).2 h3, ?_, h5⟩⟩
      exact (hends i y d (hF.ops.changed_in hp (.inr h3)) hy).2 h4
    · exact .inr (hdem hx).2
  · rintro ⟨x, m, y, d, m', h1, h2, h3, h4, h5⟩
    have h1' := (hrem x m y).1 h1
    exact h.2.1.1 ⟨x, m, y, d, m', h1', (hends x y d (hF.ops.changed_in hp (.inr h1')) (hF.ends v6 hp x m y m' (.inr h1') h3)).1 h2, h3, h4, h5⟩
  · rintro ⟨x, m, y, d, h1, h2, ⟨m', h3, h4⟩, h5⟩
    have h1' := (hadd x m y).1 h1
    have hy := hF.ends v6 hp x m y m' (.inl h1') h3
    refine h.2.1.2 ⟨x, m, y, d, h1', (hends x y d (hF.ops.changed_in hp (.inl h1')) hy).1 h2, ⟨m', h3, h4⟩, fun m2 h6 h7 => ?_⟩
    rw [← View.glue_link (F := F) (b := w) hy]
    exact h5 m2 h6 h7
  · have h1' := (hadd x m y).1 h1
    by_cases hy : F y
    · rw [View.glue_pos hy] at h2
      exact h.2.2 x m y n h1' h2
    · rw [View.glue_neg hy] at h2
      obtain ⟨n', h3, h4⟩ := hty x m y n h1' hy h2
      rw [← h4]
      exact h.2.2 x m y n' h1' h3

/-! ### Links to nodes -/

theorem appliedIn_links {K P : NodeIndex → Prop} (hK : ∀ y, K y → P y) {l : List (NodeIndex × Closure)} {v v' : View} (h : AppliedIn K l v v') :
    (∀ x s y, v.Holds x s y → P y) → ∀ x s y, v'.Holds x s y → P y := by
  induction h with
  | nil h => rintro hv x s y ⟨n, hn, hh⟩; exact hv x s y ⟨n, by rw [← h]; exact hn, hh⟩
  | @cons i f l v v1 v' n n' h1 h2 h3 h4 _ ih =>
    intro hv
    refine ih ?_
    rintro x s y ⟨m, hm, hh⟩
    rw [h4 x] at hm
    by_cases e : i = x
    · rw [if_pos e, Option.some.injEq] at hm
      exact hK y (h3 s y (hm ▸ hh))
    · rw [if_neg e] at hm
      exact hv x s y ⟨m, hm, hh⟩

/-- Operations that can be carried out leave links only to nodes that exist or are inserted. -/
theorem Spec.CarriedOut.links {p : Pending} (h : CarriedOut p v v6) (hi : Internal v) (hs : Sound v p) :
    ∀ x s y, v6.Holds x s y → Exists v p y := by
  obtain ⟨v1, v2, v3, v4, v5, xs, ⟨_, _, ρ, r1, a1⟩, a2, a3, a4, ⟨_, _, ρ', r5, a5⟩, _, a6⟩ := h
  have hr : ∀ (reqs : List (NodeIndex × NodeIndex)) (ρ : NodeIndex → NodeIndex), RedirectMap reqs ρ → (∀ q ∈ reqs, q ∈ p.redir ++ p.redirAll) →
      ∀ u, Exists v p u → Exists v p (ρ u) := by
    intro reqs ρ hm hsub u hu
    by_cases hc : ∃ n, (u, n) ∈ reqs
    · obtain ⟨n, hn⟩ := hc
      obtain ⟨z, hz⟩ := redirectMap_target hm hn
      exact hs.2 z _ (hsub _ hz)
    · rw [hm.other u fun n hn => hc ⟨n, hn⟩]; exact hu
  have hren : ∀ {ρ : NodeIndex → NodeIndex} {a b : View}, View.Renamed ρ a b → (∀ u, Exists v p u → Exists v p (ρ u)) →
      (∀ x s y, a.Holds x s y → Exists v p y) → ∀ x s y, b.Holds x s y → Exists v p y := by
    intro ρ a b hab hρ ha x s y hh
    obtain ⟨u, hu, rfl, _⟩ := ((View.Renamed.renH hab).holds x s y).1 hh
    exact hρ u (ha x s u hu)
  have p1 := hren a1 (hr _ ρ r1 fun q hq => List.mem_append_left _ hq) (fun x s y hh => (hi x s y hh).imp id .inl)
  have p2 : ∀ x s y, v2.Holds x s y → Exists v p y := by
    rintro x s y ⟨n, hn, hh⟩
    cases e : p.new x with
    | none => rw [a2.1 x e] at hn; exact p1 x s y ⟨n, hn, hh⟩
    | some n' => rw [(a2.2 x n' e).2] at hn; exact hs.1 y ⟨x, s, n, by rw [e]; exact hn, hh⟩
  have p3 := appliedIn_links (P := Exists v p) (fun y hy => .inr hy) a3 p2
  have p4 := appliedIn_links (P := Exists v p) (fun y hy => .inr hy) a4 p3
  have p5 := hren a5 (hr _ ρ' r5 fun q hq => List.mem_append_right _ hq) p4
  rintro x s y ⟨n, hn, hh⟩
  by_cases hx : x ∈ xs
  · rw [(a6.1 x hx).2] at hn; exact absurd hn (by simp)
  · have h6 := a6.2 x hx
    rw [hn] at h6
    cases e : v5 x with
    | none => rw [e] at h6; exact h6.elim
    | some n5 =>
      rw [e] at h6
      obtain ⟨u, hu, hy, _⟩ := (Node.Renamed.holds h6 s y).1 hh
      have := p5 x s u ⟨n5, e, hu⟩
      by_cases hc : u ∈ xs
      · exact .inl (by rw [← hy, if_pos hc])
      · rw [if_neg hc] at hy; exact hy ▸ this

/-! ### Variants -/

theorem applied_disc {l : List (NodeIndex × Closure)} (hl : ∀ p ∈ l, Closure.KeepsVariant p.2) {v v' : View} (h : Applied l v v') :
    ∀ {x : NodeIndex} {n : Node}, v x = some n → ∃ n', v' x = some n' ∧ n'.disc = n.disc := by
  induction h with
  | nil h => intro x n hn; exact ⟨n, by rw [h]; exact hn, rfl⟩
  | @cons i f l v v1 v' m m' h1 h2 h3 _ ih =>
    intro x n hn
    by_cases e : i = x
    · subst e
      rw [h1, Option.some.injEq] at hn
      subst hn
      obtain ⟨n', h4, h5⟩ := ih (fun p hp => hl p (by simp [hp])) (x := i) (n := m') (by rw [h3, if_pos rfl])
      exact ⟨n', h4, h5.trans (hl (i, f) (by simp) _ _ h2)⟩
    · exact ih (fun p hp => hl p (by simp [hp])) (by rw [h3, if_neg e]; exact hn)

/-- A commit whose closures keep variants changes the variant of no node. -/
theorem committed_disc (hk : ∀ i f, (i, f) ∈ t.pending.muts ++ t.pending.upds → f.KeepsVariant) {v' : View} (h : Committed S t v v') {x : NodeIndex} {n : Node}
    (hn : v x = some n) (hx : ¬ t.pending.removed x) : ∃ n', v' x = some n' ∧ n'.disc = n.disc := by
  obtain ⟨v6, ⟨v1, v2, v3, v4, v5, ⟨ρ, _, a1⟩, a2, a3, a4, ⟨ρ', _, a5⟩, a6⟩, a7⟩ := h
  obtain ⟨n1, h1, d1⟩ := renamed_node a1 hn
  have h2 : v2 x = some n1 := by
    cases e : t.inc.get? x with
    | none => rw [a2.1 x e]; exact h1
    | some m => rw [(a2.2 x m e).1] at h1; exact absurd h1 (by simp)
  obtain ⟨n3, h3, d3⟩ := applied_disc (fun p hp => hk p.1 p.2 (List.mem_append_left _ hp)) a3 h2
  obtain ⟨n4, h4, d4⟩ := applied_disc (fun p hp => hk p.1 p.2 (List.mem_append_right _ hp)) a4 h3
  obtain ⟨n5, h5, d5⟩ := renamed_node a5 h4
  obtain ⟨n6, h6, d6⟩ := removed_node a6 h5 hx
  obtain ⟨n', h7, d7⟩ := (completion_bidir a7).exists h6
  refine ⟨n', h7, ?_⟩
  have : n'.disc = n6.disc := congrArg Prod.fst d7
  rw [this, d6.1, d5.1, d4, d3, d1.1]

end TTGraph
