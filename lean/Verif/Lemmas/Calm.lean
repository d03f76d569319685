import Verif.Lemmas.Independent
import Verif.Spec.Types

/-!
# `Vec` fields that never hold a node twice, in a commit that is moved behind independent ones
-/

set_option autoImplicit false

namespace TTGraph
open Spec

variable {S : Schema} {t : Trans} {v v' v6 w w' : View} {F : NodeIndex → Prop}

theorem applied_pre {l pre : List (NodeIndex × Closure)} (h : Applied l v v') : pre <+: l → ∃ u, Applied pre v u := by
  induction h generalizing pre with
  | nil h =>
    intro hp
    obtain rfl := List.prefix_nil.1 hp
    exact ⟨_, .nil fun _ => rfl⟩
  | @cons i f l v v1 v' n n' h1 h2 h3 _ ih =>
    intro hp
    cases pre with
    | nil => exact ⟨_, .nil fun _ => rfl⟩
    | cons p pre =>
      obtain ⟨rfl, hp'⟩ := List.cons_prefix_cons.1 hp
      obtain ⟨u, hu⟩ := ih hp'
      exact ⟨u, .cons h1 h2 h3 hu⟩

/-- On the way nothing changes outside of the footprint. -/
theorem Spec.Footprint.Ops.stage_off (h : Footprint.Ops t v F) (hs : Stage t v v') : View.Same (v.on fun x => ¬ F x) (v'.on fun x => ¬ F x) := by
  have r1 : ∀ {v1}, Redirected t.redir v v1 → View.Same (v.on fun x => ¬ F x) (v1.on fun x => ¬ F x) := fun a =>
    redirected_off (F := fun x => ¬ F x) a fun x s y hx hs new hc => hx (h.holders x s y hs (Or.inl ⟨new, Or.inl hc⟩))
  have m1 : ∀ {pre u u'}, pre <+: t.muts → Applied pre u u' → View.Same (u.on fun x => ¬ F x) (u'.on fun x => ¬ F x) := fun hp a =>
    applied_off (F := fun x => ¬ F x) (fun p hm hc => hc (h.changed p.1 p.2 (List.mem_append_left _ (hp.subset hm)))) a
  have u1 : ∀ {pre u u'}, pre <+: t.upds → Applied pre u u' → View.Same (u.on fun x => ¬ F x) (u'.on fun x => ¬ F x) := fun hp a =>
    applied_off (F := fun x => ¬ F x) (fun p hm hc => hc (h.changed p.1 p.2 (List.mem_append_right _ (hp.subset hm)))) a
  rcases hs with rfl | a | ⟨v1, v2, a1, a2, hs⟩
  · exact .refl _
  · exact r1 a
  · have b2 := (r1 a1).trans (inserted_off (F := fun x => ¬ F x) (fun i hi hc => hc (h.inserted i hi)) a2)
    rcases hs with ⟨pre, hp, a⟩ | ⟨v3, a3, hs⟩
    · exact b2.trans (m1 hp a)
    · have b3 := b2.trans (m1 (List.prefix_refl _) a3)
      rcases hs with ⟨pre, hp, a⟩ | ⟨v4, a4, a5⟩
      · exact b3.trans (u1 hp a)
      · have b4 := b3.trans (u1 (List.prefix_refl _) a4)
        exact b4.trans (redirected_off (F := fun x => ¬ F x) a5 fun x s y hx hs new hc =>
          hx (h.holders x s y ((b4.holds_on hx s y).1 hs) (Or.inl ⟨new, Or.inr hc⟩)))

/-- Inside of the footprint the transaction passes through the same states wherever it is committed. -/
theorem Spec.Footprint.Ops.stage_on (h : Footprint.Ops t v F) (hp : Performed t v v6) (hreg : Regular t.pending)
    (hs : View.Same (v.on F) (w.on F)) (hst : Stage t w w') : ∃ v', Stage t v v' ∧ View.Same (v'.on F) (w'.on F) := by
  obtain ⟨v1, v2, v3, v4, v5, a1, a2, a3, a4, a5, _⟩ := hp
  have hres : ∀ p ∈ t.muts ++ t.upds, p.2.Respects := fun p hp => hreg.closures p.1 p.2 hp
  have hm : ∀ {pre}, pre <+: t.muts → ∀ p ∈ pre, F p.1 := fun hpre p hp => h.changed p.1 p.2 (List.mem_append_left _ (hpre.subset hp))
  have hu : ∀ {pre}, pre <+: t.upds → ∀ p ∈ pre, F p.1 := fun hpre p hp => h.changed p.1 p.2 (List.mem_append_right _ (hpre.subset hp))
  have r1 : ∀ {w1}, Redirected t.redir w w1 → View.Same (v1.on F) (w1.on F) := fun b1 =>
    redirected_same hreg.redir (redirected_on a1 F) (redirected_on b1 F) hs
  have c : ∀ {pre u u1 z z1}, (∀ p ∈ pre, F p.1) → (∀ p ∈ pre, p.2.Respects) → Applied pre u u1 → Applied pre z z1 →
      View.Same (u.on F) (z.on F) → View.Same (u1.on F) (z1.on F) := fun h1 h2 a b hs => applied_same h2 (applied_on h1 a) (applied_on h1 b) hs
  rcases hst with rfl | b | ⟨w1, w2, b1, b2, hst⟩
  · exact ⟨v, .inl rfl, hs⟩
  · exact ⟨v1, .inr (.inl a1), r1 b⟩
  · have s2 : View.Same (v2.on F) (w2.on F) := inserted_same (inserted_on h.inserted a2) (inserted_on h.inserted b2) (r1 b1)
    rcases hst with ⟨pre, hpre, b⟩ | ⟨w3, b3, hst⟩
    · obtain ⟨u, hu'⟩ := applied_pre a3 hpre
      exact ⟨u, .inr (.inr ⟨v1, v2, a1, a2, .inl ⟨pre, hpre, hu'⟩⟩),
        c (hm hpre) (fun p hp => hres p (List.mem_append_left _ (hpre.subset hp))) hu' b s2⟩
    · have s3 := c (hm (List.prefix_refl _)) (fun p hp => hres p (List.mem_append_left _ hp)) a3 b3 s2
      rcases hst with ⟨pre, hpre, b⟩ | ⟨w4, b4, b5⟩
      · obtain ⟨u, hu'⟩ := applied_pre a4 hpre
        exact ⟨u, .inr (.inr ⟨v1, v2, a1, a2, .inr ⟨v3, a3, .inl ⟨pre, hpre, hu'⟩⟩⟩),
          c (hu hpre) (fun p hp => hres p (List.mem_append_right _ (hpre.subset hp))) hu' b s3⟩
      · have s4 := c (hu (List.prefix_refl _)) (fun p hp => hres p (List.mem_append_right _ hp)) a4 b4 s3
        exact ⟨v5, .inr (.inr ⟨v1, v2, a1, a2, .inr ⟨v3, a3, .inr ⟨v4, a4, a5⟩⟩⟩),
          redirected_same hreg.redirAll (redirected_on a5 F) (redirected_on b5 F) s4⟩

/-- The commit may be moved to another view that agrees on the footprint. -/
theorem Spec.Footprint.Ops.steady (h : Footprint.Ops t v F) (hp : Performed t v v6) (hreg : Regular t.pending) (hs : View.Same (v.on F) (w.on F))
    (hk : ∀ x s y, ¬ F x → w.Holds x s y → ¬ Displaces t.pending y) {x : NodeIndex} {m : Mirror} {y : NodeIndex} (hst : Steady S t v x m y)
    (hw : ¬ F x → S.kind? m = some .vec → w.Once x m y) : Steady S t w x m y := by
  have h' : Footprint.Ops t w F := ⟨h.inserted, h.changed, h.removed, fun x s y hh hd => by
    by_contra hx
    exact hk x s y hx hh hd⟩
  by_cases hv : S.kind? m = some .vec
  · right
    intro w' hw' k k' h1 h2
    by_cases hx : F x
    · obtain ⟨u, hu, hsame⟩ := h.stage_on hp hreg hs hw'
      rcases hst with hst | hst
      · exact absurd hv hst
      · exact hst u hu k k' ((hsame.holds_on hx _ _).1 h1) ((hsame.holds_on hx _ _).1 h2)
    · have hsame := h'.stage_off hw'
      exact hw hx hv k k' ((hsame.holds_on (x := x) hx _ _).1 h1) ((hsame.holds_on (x := x) hx _ _).1 h2)
  · exact .inl hv

/-- After the commit the field does not hold the node twice either. -/
theorem Spec.Steady.after {x : NodeIndex} {m : Mirror} {y : NodeIndex} (h : Steady S t v x m y) (hc : Committed S t v v') (hv : S.kind? m = some .vec) :
    v'.Once x m y := by
  obtain ⟨v6, ⟨v1, v2, v3, v4, v5, a1, a2, a3, a4, a5, a6⟩, hcomp⟩ := hc
  have h5 : v5.Once x m y := h.resolve_left (fun hn => hn hv) v5 (.inr (.inr ⟨v1, v2, a1, a2, .inr ⟨v3, a3, .inr ⟨v4, a4, a5⟩⟩⟩))
  have h6 : ∀ s, v6.Holds x s y → v5.Holds x s y := by
    rintro s ⟨n, hn, hh⟩
    by_cases hx : x ∈ t.dec.elems
    · rw [(a6.1 x hx).2] at hn; exact absurd hn (by simp)
    · have := a6.2 x hx
      rw [hn] at this
      cases e : v5 x with
      | none => rw [e] at this; exact this.elim
      | some n5 =>
        rw [e] at this
        obtain ⟨u, hu, e1, e2⟩ := (Node.Renamed.holds this s y).1 hh
        refine ⟨n5, e, ?_⟩
        split at e1
        · rcases e2 with e2 | e2
          · exact absurd e1.symm e2
          · rw [← e1, ← e2]; exact hu
        · rw [← e1]; exact hu
  have h7 : ∀ k, v'.Holds x ⟨m.disc, m.pos, k⟩ y → v6.Holds x ⟨m.disc, m.pos, k⟩ y := fun k hh => by
    rcases (hcomp.2 x _ y).1 hh with h | ⟨_, hk, _⟩
    · exact h.1
    · exact absurd hv hk
  exact fun k k' a b => h5 k k' (h6 _ (h7 k a)) (h6 _ (h7 k' b))

end TTGraph
