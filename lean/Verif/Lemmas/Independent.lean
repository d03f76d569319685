import Verif.Lemmas.Unique
import Verif.Spec.Independent
import Verif.Spec.Exact

/-!
# Commits seen on a part of the nodes
-/

set_option autoImplicit false

namespace TTGraph
open Spec

open Classical in
/-- The nodes with indices in `F`. -/
noncomputable def View.on (v : View) (F : NodeIndex → Prop) : View := fun x => if F x then v x else none

section
variable {v v' v6 w w' : View} {F G : NodeIndex → Prop}

theorem View.on_pos {x : NodeIndex} (h : F x) : v.on F x = v x := if_pos h

theorem View.on_neg {x : NodeIndex} (h : ¬ F x) : v.on F x = none := if_neg h

theorem View.on_some {x : NodeIndex} {n : Node} : v.on F x = some n ↔ F x ∧ v x = some n := by
  by_cases h : F x
  · simp [View.on_pos h, h]
  · simp [View.on_neg h, h]

theorem View.on_holds {x : NodeIndex} {s : Source} {y : NodeIndex} : (v.on F).Holds x s y ↔ F x ∧ v.Holds x s y := by
  constructor
  · rintro ⟨n, h1, h2⟩
    obtain ⟨h3, h4⟩ := View.on_some.1 h1
    exact ⟨h3, n, h4, h2⟩
  · rintro ⟨h3, n, h4, h2⟩
    exact ⟨n, View.on_some.2 ⟨h3, h4⟩, h2⟩

theorem View.on_link {x : NodeIndex} {m : Mirror} {y : NodeIndex} : (v.on F).Link x m y ↔ F x ∧ v.Link x m y := by
  constructor
  · rintro ⟨n, h1, h2⟩
    obtain ⟨h3, h4⟩ := View.on_some.1 h1
    exact ⟨h3, n, h4, h2⟩
  · rintro ⟨h3, n, h4, h2⟩
    exact ⟨n, View.on_some.2 ⟨h3, h4⟩, h2⟩

theorem View.on_added {x : NodeIndex} {m : Mirror} {y : NodeIndex} : AddedLink (v.on F) (v'.on F) x m y ↔ F x ∧ AddedLink v v' x m y := by
  simp only [AddedLink, View.on_link]
  constructor
  · rintro ⟨h1, ⟨h2, h3⟩, h4⟩
    exact ⟨h2, h1, h3, fun h => h4 ⟨h2, h⟩⟩
  · rintro ⟨h2, h1, h3, h4⟩
    exact ⟨h1, ⟨h2, h3⟩, fun h => h4 h.2⟩

theorem View.on_removed {x : NodeIndex} {m : Mirror} {y : NodeIndex} : RemovedLink (v.on F) (v'.on F) x m y ↔ F x ∧ RemovedLink v v' x m y := by
  simp only [RemovedLink, View.on_link]
  constructor
  · rintro ⟨h1, ⟨h2, h3⟩, h4⟩
    exact ⟨h2, h1, h3, fun h => h4 ⟨h2, h⟩⟩
  · rintro ⟨h2, h1, h3, h4⟩
    exact ⟨h1, ⟨h2, h3⟩, fun h => h4 h.2⟩

theorem View.on_ends {x y : NodeIndex} {d : Ident} : Ends (v.on F) x y d ↔ F x ∧ F y ∧ Ends v x y d := by
  constructor
  · rintro ⟨h1, n, h2, h3⟩
    obtain ⟨h4, h5⟩ := View.on_some.1 h2
    by_cases hx : F x
    · rw [View.on_pos hx] at h1
      exact ⟨hx, h4, h1, n, h5, h3⟩
    · exact absurd (View.on_neg hx) h1
  · rintro ⟨hx, hy, h1, n, h2, h3⟩
    exact ⟨by rw [View.on_pos hx]; exact h1, n, View.on_some.2 ⟨hy, h2⟩, h3⟩

theorem View.renamed_on {ρ : NodeIndex → NodeIndex} (h : View.Renamed ρ v v') (F : NodeIndex → Prop) : View.Renamed ρ (v.on F) (v'.on F) := by
  intro x
  by_cases hx : F x
  · rw [View.on_pos hx, View.on_pos hx]; exact h x
  · rw [View.on_neg hx, View.on_neg hx]; trivial

/-- Agreement on a set of indices is agreement at each of them. -/
theorem View.same_on : View.Same (v.on F) (w.on F) ↔ ∀ x, F x → match v x, w x with
    | none, none => True
    | some n, some n' => Node.Renamed id n n'
    | _, _ => False := by
  constructor
  · intro h x hx
    have := h x
    rwa [View.on_pos hx, View.on_pos hx] at this
  · intro h x
    by_cases hx : F x
    · rw [View.on_pos hx, View.on_pos hx]; exact h x hx
    · rw [View.on_neg hx, View.on_neg hx]; trivial

theorem View.Same.on (h : View.Same v w) (F : NodeIndex → Prop) : View.Same (v.on F) (w.on F) := View.renamed_on h F

theorem View.Same.within (h : View.Same (v.on F) (w.on F)) (hG : ∀ x, G x → F x) : View.Same (v.on G) (w.on G) :=
  View.same_on.2 fun x hx => View.same_on.1 h x (hG x hx)

/-- Agreement on sets that cover everything. -/
theorem View.same_of_cover (h : ∀ x, ∃ F : NodeIndex → Prop, F x ∧ View.Same (v.on F) (w.on F)) : View.Same v w := by
  intro x
  obtain ⟨F, hx, hs⟩ := h x
  exact View.same_on.1 hs x hx

theorem View.Same.holds_on (h : View.Same (v.on F) (w.on F)) {x : NodeIndex} (hx : F x) (s : Source) (y : NodeIndex) :
    w.Holds x s y ↔ v.Holds x s y := by
  have := (View.same_iff.1 h).2 x s y
  simpa only [View.on_holds, hx, true_and] using this

theorem View.Same.link_on (h : View.Same (v.on F) (w.on F)) {x : NodeIndex} (hx : F x) (m : Mirror) (y : NodeIndex) :
    w.Link x m y ↔ v.Link x m y := by
  have := h.link x m y
  simpa only [View.on_link, hx, true_and] using this

theorem redirected_on {reqs : List (NodeIndex × NodeIndex)} (h : Redirected reqs v v') (F : NodeIndex → Prop) :
    Redirected reqs (v.on F) (v'.on F) := by
  obtain ⟨ρ, h1, h2⟩ := h
  exact ⟨ρ, h1, View.renamed_on h2 F⟩

theorem inserted_on {new : View} (hF : ∀ i, new i ≠ none → F i) (h : Inserted new v v') : Inserted new (v.on F) (v'.on F) := by
  refine ⟨fun x hx => ?_, fun x n hn => ?_⟩
  · by_cases hf : F x
    · rw [View.on_pos hf, View.on_pos hf]; exact h.1 x hx
    · rw [View.on_neg hf, View.on_neg hf]
  · have hf := hF x (by rw [hn]; simp)
    rw [View.on_pos hf, View.on_pos hf]
    exact h.2 x n hn

theorem applied_on {l : List (NodeIndex × Closure)} (hF : ∀ p ∈ l, F p.1) (h : Applied l v v') : Applied l (v.on F) (v'.on F) := by
  induction h with
  | nil h =>
    refine .nil fun x => ?_
    by_cases hf : F x
    · rw [View.on_pos hf, View.on_pos hf]; exact h x
    · rw [View.on_neg hf, View.on_neg hf]
  | @cons i f l v v1 v' n n' h1 h2 h3 _ ih =>
    have hi : F i := hF (i, f) (by simp)
    refine .cons (View.on_some.2 ⟨hi, h1⟩) h2 (v1 := v1.on F) (fun j => ?_) (ih fun p hp => hF p (by simp [hp]))
    by_cases hf : F j
    · rw [View.on_pos hf, View.on_pos hf]; exact h3 j
    · rw [View.on_neg hf, View.on_neg hf, if_neg (fun e : i = j => hf (e ▸ hi))]

theorem removed_on {xs : List NodeIndex} (hF : ∀ x ∈ xs, F x) (h : Removed xs v v') : Removed xs (v.on F) (v'.on F) := by
  refine ⟨fun x hx => ?_, fun x hx => ?_⟩
  · rw [View.on_pos (hF x hx), View.on_pos (hF x hx)]; exact h.1 x hx
  · by_cases hf : F x
    · rw [View.on_pos hf, View.on_pos hf]; exact h.2 x hx
    · rw [View.on_neg hf, View.on_neg hf]; trivial

/-! ### Outside -/

/-- Where no link is renamed nothing changes. -/
theorem renamed_off {ρ : NodeIndex → NodeIndex} (h : View.Renamed ρ v v') (hk : ∀ x s y, F x → v.Holds x s y → ρ y = y) :
    View.Same (v.on F) (v'.on F) := by
  refine View.same_on.2 fun x hx => ?_
  have h1 := h x
  cases e : v x with
  | none =>
    rw [e] at h1
    cases e' : v' x with
    | none => trivial
    | some n' => rw [e'] at h1; exact h1
  | some n =>
    rw [e] at h1
    cases e' : v' x with
    | none => rw [e'] at h1; exact h1
    | some n' =>
      rw [e'] at h1
      exact Node.Renamed.same h1 fun s y hs => hk x s y hx ⟨n, e, hs⟩

theorem redirected_off {reqs : List (NodeIndex × NodeIndex)} (h : Redirected reqs v v')
    (hk : ∀ x s y, F x → v.Holds x s y → ∀ new, (y, new) ∉ reqs) : View.Same (v.on F) (v'.on F) := by
  obtain ⟨ρ, h1, h2⟩ := h
  exact renamed_off h2 fun x s y hx hs => h1.other y (hk x s y hx hs)

theorem inserted_off {new : View} (hF : ∀ i, new i ≠ none → ¬ F i) (h : Inserted new v v') : View.Same (v.on F) (v'.on F) := by
  refine View.same_of_eq fun x => ?_
  by_cases hf : F x
  · rw [View.on_pos hf, View.on_pos hf]
    exact h.1 x (by_contra fun hc => hF x hc hf)
  · rw [View.on_neg hf, View.on_neg hf]

theorem applied_off {l : List (NodeIndex × Closure)} (hF : ∀ p ∈ l, ¬ F p.1) (h : Applied l v v') : View.Same (v.on F) (v'.on F) := by
  induction h with
  | nil h => exact (View.same_of_eq h).on F
  | @cons i f l v v1 v' n n' h1 h2 h3 _ ih =>
    refine View.Same.trans (View.same_of_eq fun x => ?_) (ih fun p hp => hF p (by simp [hp]))
    by_cases hf : F x
    · rw [View.on_pos hf, View.on_pos hf, h3, if_neg (fun e : i = x => hF (i, f) (by simp) (e ▸ hf))]
    · rw [View.on_neg hf, View.on_neg hf]

theorem removed_off {xs : List NodeIndex} (hF : ∀ x ∈ xs, ¬ F x) (h : Removed xs v v') (hk : ∀ x s y, F x → v.Holds x s y → y ∉ xs) :
    View.Same (v.on F) (v'.on F) := by
  refine View.same_on.2 fun x hx => ?_
  have h1 := h.2 x (fun hc => hF x hc hx)
  cases e : v x with
  | none =>
    rw [e] at h1
    cases e' : v' x with
    | none => trivial
    | some n' => rw [e'] at h1; exact h1
  | some n =>
    rw [e] at h1
    cases e' : v' x with
    | none => rw [e'] at h1; exact h1
    | some n' =>
      rw [e'] at h1
      exact Node.Renamed.same h1 fun s y hs => if_neg (hk x s y hx ⟨n, e, hs⟩)

end

variable {S : Schema} {t : Trans} {v w v' w' v6 w6 : View} {F : NodeIndex → Prop}

/-- The part of a footprint that concerns the operations of the transaction. -/
structure Spec.Footprint.Ops (t : Trans) (v : View) (F : NodeIndex → Prop) : Prop where
  inserted : ∀ i, t.pending.new i ≠ none → F i
  changed : ∀ i f, (i, f) ∈ t.pending.muts ++ t.pending.upds → F i
  removed : ∀ i, t.pending.removed i → F i
  holders : ∀ x s y, v.Holds x s y → Displaces t.pending y → F x

theorem Spec.Footprint.ops (h : Footprint S t v F) : Footprint.Ops t v F := ⟨h.inserted, h.changed, h.removed, h.holders⟩

theorem Spec.Footprint.Ops.performed_on (h : Footprint.Ops t v F) (hp : Performed t v v6) : Performed t (v.on F) (v6.on F) := by
  obtain ⟨v1, v2, v3, v4, v5, a1, a2, a3, a4, a5, a6⟩ := hp
  exact ⟨v1.on F, v2.on F, v3.on F, v4.on F, v5.on F, redirected_on a1 F, inserted_on h.inserted a2,
    applied_on (fun p hp => h.changed p.1 p.2 (List.mem_append_left _ hp)) a3, applied_on (fun p hp => h.changed p.1 p.2 (List.mem_append_right _ hp)) a4,
    redirected_on a5 F, removed_on h.removed a6⟩

theorem Spec.Footprint.Ops.performed_off (h : Footprint.Ops t v F) (hp : Performed t v v6) :
    View.Same (v.on fun x => ¬ F x) (v6.on fun x => ¬ F x) := by
  obtain ⟨v1, v2, v3, v4, v5, a1, a2, a3, a4, a5, a6⟩ := hp
  have b1 := redirected_off (F := fun x => ¬ F x) a1 fun x s y hx hs new hc => hx (h.holders x s y hs (Or.inl ⟨new, Or.inl hc⟩))
  have b2 := b1.trans (inserted_off (F := fun x => ¬ F x) (fun i hi hc => hc (h.inserted i hi)) a2)
  have b3 := b2.trans (applied_off (F := fun x => ¬ F x) (fun p hp hc => hc (h.changed p.1 p.2 (List.mem_append_left _ hp))) a3)
  have b4 := b3.trans (applied_off (F := fun x => ¬ F x) (fun p hp hc => hc (h.changed p.1 p.2 (List.mem_append_right _ hp))) a4)
  have b5 := b4.trans (redirected_off (F := fun x => ¬ F x) a5 fun x s y hx hs new hc =>
    hx (h.holders x s y ((b4.holds_on hx s y).1 hs) (Or.inl ⟨new, Or.inr hc⟩)))
  exact b5.trans (removed_off (F := fun x => ¬ F x) (fun x hx hc => hc (h.removed x hx)) a6 fun x s y hx hs hc =>
    hx (h.holders x s y ((b5.holds_on hx s y).1 hs) (Or.inr hc)))

theorem Spec.Footprint.Ops.changed_in (h : Footprint.Ops t v F) (hp : Performed t v v6) {x : NodeIndex} {m : Mirror} {y : NodeIndex}
    (hl : AddedLink v v6 x m y ∨ RemovedLink v v6 x m y) : F x := by
  by_contra hx
  have := (h.performed_off hp).link_on (x := x) hx m y
  rcases hl with ⟨_, h1, h2⟩ | ⟨_, h1, h2⟩
  · exact h2 (this.1 h1)
  · exact h2 (this.2 h1)

theorem completion_on (hc : Completion S v v6 v') (hx : ∀ x m y, AddedLink v v6 x m y ∨ RemovedLink v v6 x m y → F x) :
    Completion S (v.on F) (v6.on F) (v'.on F) := by
  refine ⟨fun x => ?_, fun z s w => ?_⟩
  · by_cases hf : F x
    · rw [View.on_pos hf, View.on_pos hf]; exact hc.1 x
    · rw [View.on_neg hf, View.on_neg hf]
  · simp only [View.on_holds, View.on_removed, View.on_added, View.on_ends, hc.2]
    constructor
    · rintro ⟨hz, ⟨h1, h2⟩ | ⟨h1, hk, m, d, h2, h3, h4⟩⟩
      · exact .inl ⟨⟨hz, h1⟩, fun ⟨m, d, h3, h4, h5⟩ => h2 ⟨m, d, h3.2, h4.2.2, h5⟩⟩
      · have hw := hx w m z (.inl h2)
        exact .inr ⟨h1, hk, m, d, ⟨hw, h2⟩, ⟨hw, hz, h3⟩, h4⟩
    · rintro (⟨⟨hz, h1⟩, h2⟩ | ⟨h1, hk, m, d, h2, h3, h4⟩)
      · exact ⟨hz, .inl ⟨h1, fun ⟨m, d, h3, h4, h5⟩ => h2 ⟨m, d, ⟨hx w m z (.inr h3), h3⟩, ⟨hx w m z (.inr h3), hz, h4⟩, h5⟩⟩⟩
      · exact ⟨h3.2.1, .inr ⟨h1, hk, m, d, h2.2, h3.2.2, h4⟩⟩

theorem completion_off (hc : Completion S v v6 v') (hy : ∀ x m y m', AddedLink v v6 x m y ∨ RemovedLink v v6 x m y → Opposite S m m' → ¬ F y) :
    View.Same (v6.on F) (v'.on F) := by
  refine View.same_iff.2 ⟨fun x => ?_, fun x s y => ?_⟩
  · by_cases hf : F x
    · rw [View.on_pos hf, View.on_pos hf]; exact hc.1 x
    · rw [View.on_neg hf, View.on_neg hf]
  · simp only [View.on_holds, hc.2]
    refine and_congr_right fun hx => ⟨?_, fun h => .inl ⟨h, ?_⟩⟩
    · rintro (h | ⟨_, _, m, d, h2, _, h4⟩)
      · exact h.1
      · exact absurd hx (hy _ _ _ _ (.inl h2) h4.1)
    · rintro ⟨m, d, h2, _, h4, _⟩
      exact hy _ _ _ _ (.inr h2) h4 hx

/-- A commit does within its footprint what it would do if there were nothing else, and nothing outside. -/
theorem Spec.Footprint.committed (h : Footprint S t v F) (hc : Committed S t v v') :
    Committed S t (v.on F) (v'.on F) ∧ View.Same (v.on fun x => ¬ F x) (v'.on fun x => ¬ F x) := by
  obtain ⟨v6, h6, h7⟩ := hc
  refine ⟨⟨v6.on F, h.ops.performed_on h6, completion_on h7 fun x m y hl => h.ops.changed_in h6 hl⟩, ?_⟩
  exact (h.ops.performed_off h6).trans (completion_off h7 fun x m y m' hl ho hc => hc (h.ends v6 h6 x m y m' hl ho))

/-- A footprint is one for every view that agrees with it there and has no links elsewhere to nodes that are redirected or removed. -/
theorem Spec.Footprint.move (h : Footprint S t v F) (hreg : Regular t.pending) (hp : Performed t v v6) (hs : View.Same (v.on F) (w.on F))
    (hk : ∀ x s y, ¬ F x → w.Holds x s y → ¬ Displaces t.pending y) : Footprint S t w F := by
  have ho : Footprint.Ops t w F := ⟨h.inserted, h.changed, h.removed, fun x s y hh hd => by_contra fun hx => hk x s y hx hh hd⟩
  refine ⟨ho.1, ho.2, ho.3, ho.4, fun w6 hw6 x m y m' hl hop => ?_⟩
  have hx := ho.changed_in hw6 hl
  have h6 : View.Same (v6.on F) (w6.on F) := performed_same rfl hreg.redir hreg.redirAll (fun p hp => hreg.closures p.1 p.2 hp) hs
    (h.ops.performed_on hp) (ho.performed_on hw6)
  refine h.ends v6 hp x m y m' ?_ hop
  simpa only [AddedLink, RemovedLink, hs.link_on hx, h6.link_on hx] using hl

/-- What a commit does within its footprint depends only on the nodes there. -/
theorem Spec.Footprint.committed_same (h : Footprint S t v F) (hreg : Regular t.pending) (hc : Committed S t v v') (hs : View.Same (v.on F) (w.on F))
    (hk : ∀ x s y, ¬ F x → w.Holds x s y → ¬ Displaces t.pending y) (hc' : Committed S t w w') :
    View.Same (v'.on F) (w'.on F) ∧ View.Same (w.on fun x => ¬ F x) (w'.on fun x => ¬ F x) := by
  obtain ⟨v6, h6, _⟩ := hc
  have hf := h.move hreg h6 hs hk
  obtain ⟨h1, h2⟩ := hf.committed hc'
  exact ⟨TTGraph.committed_same rfl hreg.redir hreg.redirAll (fun p hp => hreg.closures p.1 p.2 hp) hs (h.committed ⟨v6, h6, by assumption⟩).1 h1, h2⟩

/-- Independent commits commute. -/
theorem Spec.Independent.commute {t1 t2 : Trans} {v1 v2 v12 v21 : View} (hi : Independent S v t1 t2 v1 v2) (hr1 : Regular t1.pending)
    (hr2 : Regular t2.pending) (h1 : Committed S t1 v v1) (h2 : Committed S t2 v v2) (h12 : Committed S t2 v1 v12) (h21 : Committed S t1 v2 v21) :
    View.Same v12 v21 := by
  obtain ⟨F1, F2, f1, f2, hd, k1, k2⟩ := hi
  have o1 := (f1.committed h1).2
  have o2 := (f2.committed h2).2
  have a1 : View.Same (v.on F1) (v2.on F1) := o2.within hd
  have a2 : View.Same (v.on F2) (v1.on F2) := o1.within fun x hx hc => hd x hc hx
  obtain ⟨b1, c1⟩ := f1.committed_same hr1 h1 a1 (fun x s y hx hs hdis => by
    by_cases hx2 : F2 x
    · exact k2 x s y hx2 hs hdis
    · exact hx (f1.holders x s y ((o2.holds_on (x := x) hx2 s y).1 hs) hdis)) h21
  obtain ⟨b2, c2⟩ := f2.committed_same hr2 h2 a2 (fun x s y hx hs hdis => by
    by_cases hx1 : F1 x
    · exact k1 x s y hx1 hs hdis
    · exact hx (f2.holders x s y ((o1.holds_on (x := x) hx1 s y).1 hs) hdis)) h12
  refine View.same_of_cover fun x => ?_
  by_cases x1 : F1 x
  · exact ⟨F1, x1, (c2.within hd).symm.trans b1⟩
  · by_cases x2 : F2 x
    · exact ⟨F2, x2, b2.symm.trans (c1.within fun x hx hc => hd x hc hx)⟩
    · refine ⟨fun x => ¬ F1 x ∧ ¬ F2 x, ⟨x1, x2⟩, ?_⟩
      have e1 := o1.within (G := fun x => ¬ F1 x ∧ ¬ F2 x) fun _ h => h.1
      have e2 := o2.within (G := fun x => ¬ F1 x ∧ ¬ F2 x) fun _ h => h.2
      have e3 := c1.within (G := fun x => ¬ F1 x ∧ ¬ F2 x) fun _ h => h.1
      have e4 := c2.within (G := fun x => ¬ F1 x ∧ ¬ F2 x) fun _ h => h.2
      exact ((e4.symm.trans e1.symm).trans e2).trans e3

end TTGraph
