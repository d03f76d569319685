import Verif.Lemmas.Meets

/-!
# Following one node through a commit
-/

set_option autoImplicit false

namespace TTGraph
open Spec
variable {S : Schema}

theorem completion_bidir {v v6 v7 : View} (h : Completion S v v6 v7) : SameUpToBidir S v6 v7 := by
  refine ⟨h.1, fun x s y hs => ?_⟩
  rw [h.2]
  constructor
  · rintro (⟨h1, _⟩ | ⟨_, _, m, d, _, _, h1⟩)
    · exact h1
    · exact absurd h1.1 (hs m)
  · intro h1
    exact Or.inl ⟨h1, fun ⟨m, d, _, _, h2, _⟩ => hs m h2⟩

theorem Spec.SameUpToBidir.exists {v v' : View} (h : SameUpToBidir S v v') {x : NodeIndex} {n : Node} (hn : v x = some n) :
    ∃ n', v' x = some n' ∧ n'.shape = n.shape := by
  have := h.1 x
  rw [hn] at this
  cases h' : v' x with
  | none => rw [h'] at this; exact absurd this (by simp)
  | some n' => rw [h'] at this; exact ⟨n', rfl, by simpa using this⟩

theorem Spec.SameUpToBidir.none_iff {v v' : View} (h : SameUpToBidir S v v') (x : NodeIndex) : v' x = none ↔ v x = none := by
  have := h.1 x
  cases h' : v' x <;> cases h'' : v x <;> simp_all

/-- A node of a variant without bidirectional fields. -/
theorem Spec.SameUpToBidir.same {v v' : View} (h : SameUpToBidir S v v') {x : NodeIndex} {n : Node} (hn : v x = some n)
    (hs : ∀ m m', Opposite S m m' → m'.disc ≠ n.disc) : ∃ n', v' x = some n' ∧ n.Same n' := by
  obtain ⟨n', h1, h2⟩ := h.exists hn
  refine ⟨n', h1, Node.same_iff.2 ⟨h2, fun s y => ?_⟩⟩
  have hd : n'.disc = n.disc := congrArg (fun p => p.1) h2
  by_cases hsd : s.disc = n.disc
  · have h3 := h.2 x s y (fun m hm => hs m s.mirror hm hsd)
    constructor
    · intro h4
      obtain ⟨n0, h5, h6⟩ := h3.1 ⟨n', h1, h4⟩
      rw [hn] at h5
      exact (Option.some.inj h5) ▸ h6
    · intro h4
      obtain ⟨n0, h5, h6⟩ := h3.2 ⟨n, hn, h4⟩
      rw [h1] at h5
      exact (Option.some.inj h5) ▸ h6
  · exact iff_of_false (fun h4 => hsd (h4.1.trans hd)) (fun h4 => hsd h4.1)

theorem opposite_none_of_nil (h : S.bidirs = []) (m m' : Mirror) : ¬ Opposite S m m' := by
  rintro ⟨l, hl, _⟩
  rw [h] at hl
  exact absurd hl (by simp)

theorem Spec.SameUpToBidir.renamed {v v' : View} (h : SameUpToBidir S v v') (hb : S.bidirs = []) : View.Renamed id v v' := by
  intro x
  cases hx : v x with
  | none => rw [(h.none_iff x).2 hx]; trivial
  | some n =>
    obtain ⟨n', h1, h2⟩ := h.same hx (fun m m' hm => absurd hm (opposite_none_of_nil hb m m'))
    rw [h1]
    exact h2

theorem renamed_node {v v' : View} {ρ : NodeIndex → NodeIndex} (h : View.Renamed ρ v v')
    {x : NodeIndex} {n : Node} (hn : v x = some n) : ∃ n', v' x = some n' ∧ Node.Renamed ρ n n' := by
  have := h x
  rw [hn] at this
  cases h' : v' x with
  | none => rw [h'] at this; exact absurd this id
  | some n' => rw [h'] at this; exact ⟨n', rfl, this⟩

theorem renamed_none {v v' : View} {ρ : NodeIndex → NodeIndex} (h : View.Renamed ρ v v') (x : NodeIndex) : v' x = none ↔ v x = none := by
  have := h x
  cases h' : v' x <;> cases h'' : v x <;> simp_all

theorem removed_node {xs : List NodeIndex} {v v' : View} (h : Removed xs v v') {x : NodeIndex} {n : Node} (hn : v x = some n)
    (hx : x ∉ xs) : ∃ n', v' x = some n' ∧ Node.Renamed (fun u => if u ∈ xs then emptyIdx else u) n n' := by
  have := h.2 x hx
  rw [hn] at this
  cases h' : v' x with
  | none => rw [h'] at this; exact absurd this id
  | some n' => rw [h'] at this; exact ⟨n', rfl, this⟩

theorem removed_none {xs : List NodeIndex} {v v' : View} (h : Removed xs v v') (x : NodeIndex) : v' x = none ↔ v x = none ∨ x ∈ xs := by
  by_cases hx : x ∈ xs
  · simp [h.1 x hx, hx]
  · have := h.2 x hx
    cases h' : v' x <;> cases h'' : v x <;> simp_all

theorem applied_other {l : List (NodeIndex × Closure)} {v v' : View} (h : Applied l v v') {x : NodeIndex} (hx : ∀ p ∈ l, p.1 ≠ x) :
    v' x = v x := by
  induction h with
  | nil h => exact h x
  | cons h1 h2 h3 h4 ih =>
    rw [ih (fun p hp => hx p (List.mem_cons_of_mem _ hp)), h3 x, if_neg (hx _ List.mem_cons_self)]

theorem applied_none {l : List (NodeIndex × Closure)} {v v' : View} (h : Applied l v v') (x : NodeIndex) : v' x = none ↔ v x = none := by
  induction h with
  | nil h => rw [h x]
  | cons h1 h2 h3 h4 ih =>
    rw [ih, h3 x]
    split
    · rename_i e; subst e; simp [h1]
    · rfl

theorem applied_append {l l' : List (NodeIndex × Closure)} {v v1 v' : View} (h : Applied l v v1) (h' : Applied l' v1 v') :
    Applied (l ++ l') v v' := by
  induction h with
  | nil h =>
    have : ∀ {l v1 v'}, Applied l v1 v' → ∀ v, (∀ x, v1 x = v x) → Applied l v v' := by
      intro l v1 v' ha
      cases ha with
      | nil h => exact fun v hv => .nil (fun x => (h x).trans (hv x))
      | cons h1 h2 h3 h4 => exact fun v hv => .cons ((hv _).symm.trans h1) h2 (fun j => by rw [h3 j, hv j]) h4
    exact this h' _ h
  | cons h1 h2 h3 h4 ih => exact .cons h1 h2 h3 (ih h')

/-- A node of the graph that is not a target of `mutate`, `update` or `remove`. -/
theorem performed_old {t : Trans} {v v6 : View} (h : Performed t v v6) {x : NodeIndex} {n : Node} (hn : v x = some n)
    (hc : ∀ p ∈ t.muts ++ t.upds, p.1 ≠ x) (hd : x ∉ t.dec.elems) :
    ∃ ρ ρ' n1 n5 n6, RedirectMap t.redir ρ ∧ RedirectMap t.redirAll ρ' ∧ Node.Renamed ρ n n1 ∧ Node.Renamed ρ' n1 n5 ∧
      Node.Renamed (fun u => if u ∈ t.dec.elems then emptyIdx else u) n5 n6 ∧ v6 x = some n6 := by
  obtain ⟨v1, v2, v3, v4, v5, ⟨ρ, h1, h1'⟩, h2, h3, h4, ⟨ρ', h5, h5'⟩, h6⟩ := h
  obtain ⟨n1, k1, k1'⟩ := renamed_node h1' hn
  have hi : t.inc.get? x = none := by
    by_contra hne
    obtain ⟨m, hm⟩ := Option.ne_none_iff_exists'.1 hne
    have := (h2.2 x m hm).1
    rw [k1] at this
    exact absurd this (by simp)
  have k2 : v2 x = some n1 := by rw [h2.1 x hi, k1]
  have k3 := applied_other h3 (x := x) (fun p hp => hc p (List.mem_append_left _ hp))
  have k4 := applied_other h4 (x := x) (fun p hp => hc p (List.mem_append_right _ hp))
  obtain ⟨n5, k5, k5'⟩ := renamed_node h5' (k4.trans (k3.trans k2))
  obtain ⟨n6, k6, k6'⟩ := removed_node h6 k5 hd
  exact ⟨ρ, ρ', n1, n5, n6, h1, h5, k1', k5', k6', k6⟩

/-- A new node that is not a target of `mutate`, `update` or `remove` in the list of the graph's nodes. -/
theorem performed_new {t : Trans} {v v6 : View} (h : Performed t v v6) {x : NodeIndex} {n : Node} (hn : t.inc.get? x = some n)
    (hc : ∀ p ∈ t.muts ++ t.upds, p.1 ≠ x) (hd : x ∉ t.dec.elems) :
    ∃ ρ' n5 n6, RedirectMap t.redirAll ρ' ∧ Node.Renamed ρ' n n5 ∧
      Node.Renamed (fun u => if u ∈ t.dec.elems then emptyIdx else u) n5 n6 ∧ v6 x = some n6 := by
  obtain ⟨v1, v2, v3, v4, v5, ⟨ρ, h1, h1'⟩, h2, h3, h4, ⟨ρ', h5, h5'⟩, h6⟩ := h
  have k2 : v2 x = some n := (h2.2 x n hn).2
  have k3 := applied_other h3 (x := x) (fun p hp => hc p (List.mem_append_left _ hp))
  have k4 := applied_other h4 (x := x) (fun p hp => hc p (List.mem_append_right _ hp))
  obtain ⟨n5, k5, k5'⟩ := renamed_node h5' (k4.trans (k3.trans k2))
  obtain ⟨n6, k6, k6'⟩ := removed_node h6 k5 hd
  exact ⟨ρ', n5, n6, h5, k5', k6', k6⟩

theorem performed_none {t : Trans} {v v6 : View} (h : Performed t v v6) (x : NodeIndex) :
    v6 x = none ↔ (v x = none ∧ t.inc.get? x = none) ∨ x ∈ t.dec.elems := by
  obtain ⟨v1, v2, v3, v4, v5, ⟨ρ, h1, h1'⟩, h2, h3, h4, ⟨ρ', h5, h5'⟩, h6⟩ := h
  rw [removed_none h6, renamed_none h5', applied_none h4, applied_none h3]
  have : v2 x = none ↔ v x = none ∧ t.inc.get? x = none := by
    cases hi : t.inc.get? x with
    | none => rw [h2.1 x hi, renamed_none h1']; simp
    | some n => simp [(h2.2 x n hi).2]
  rw [this]

/-- After the removals nothing points to a removed node. -/
theorem performed_removed {t : Trans} {v v6 : View} (h0 : emptyIdx ∉ t.dec.elems) (h : Performed t v v6) {x y : NodeIndex} {s : Source}
    (hy : y ∈ t.dec.elems) : ¬ v6.Holds x s y := by
  obtain ⟨v1, v2, v3, v4, v5, _, _, _, _, _, h6⟩ := h
  rintro ⟨n6, hn6, hh⟩
  by_cases hx : x ∈ t.dec.elems
  · rw [(h6.1 x hx).2] at hn6
    exact absurd hn6 (by simp)
  · have := h6.2 x hx
    rw [hn6] at this
    cases h5 : v5 x with
    | none => rw [h5] at this; exact this
    | some n5 =>
      rw [h5] at this
      obtain ⟨u, _, hu, hor⟩ := (Node.Renamed.holds this s y).1 hh
      by_cases hu' : u ∈ t.dec.elems
      · rw [if_pos hu'] at hu
        subst hu
        exact h0 hy
      · rw [if_neg hu'] at hu
        subst hu
        exact hu' hy

end TTGraph
