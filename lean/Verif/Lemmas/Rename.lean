import Verif.Spec.Rename
import Verif.Lemmas.Reorder
import Verif.Lemmas.Pending
import Verif.Lemmas.Declare

/-!
# The code treats all indices alike
-/

set_option autoImplicit false

namespace TTGraph
open Spec

section
variable {σ : Equiv.Perm NodeIndex}

theorem Node.alike_iff (h0 : σ emptyIdx = emptyIdx) {n n2 : Node} :
    Node.Renamed σ n n2 ↔ n2.shape = n.shape ∧ ∀ s y, n2.Holds s (σ y) ↔ n.Holds s y := by
  have hne : ∀ u, σ u ≠ emptyIdx ∨ u = emptyIdx := fun u => by
    by_cases e : u = emptyIdx
    · exact Or.inr e
    · exact Or.inl fun hc => e (σ.injective (hc.trans h0.symm))
  constructor
  · intro h
    refine ⟨Node.Renamed.shape h, fun s y => ?_⟩
    rw [Node.Renamed.holds h]
    constructor
    · rintro ⟨u, hu, e, _⟩
      rw [← σ.injective e]; exact hu
    · exact fun h => ⟨y, h, rfl, hne y⟩
  · rintro ⟨h1, h2⟩
    refine Node.renamed_of_holds h1 (fun s w => ?_)
    obtain ⟨u, rfl⟩ := σ.surjective w
    rw [h2]
    constructor
    · exact fun h => ⟨u, h, rfl, hne u⟩
    · rintro ⟨u', hu, e, _⟩
      rw [← σ.injective e]; exact hu

theorem View.alike_iff (h0 : σ emptyIdx = emptyIdx) {v w : View} :
    Alike σ v w ↔ (∀ x, (w (σ x)).map Node.shape = (v x).map Node.shape) ∧ ∀ x s y, w.Holds (σ x) s (σ y) ↔ v.Holds x s y := by
  have hne : ∀ u, σ u ≠ emptyIdx ∨ u = emptyIdx := fun u => by
    by_cases e : u = emptyIdx
    · exact Or.inr e
    · exact Or.inl fun hc => e (σ.injective (hc.trans h0.symm))
  unfold Alike
  rw [← View.renH_iff]
  constructor
  · intro h
    refine ⟨h.shape, fun x s y => ?_⟩
    have := h.holds x s (σ y)
    refine this.trans ?_
    constructor
    · rintro ⟨u, hu, e, _⟩
      rw [← σ.injective e]; exact hu
    · exact fun h => ⟨y, h, rfl, hne y⟩
  · rintro ⟨h1, h2⟩
    refine ⟨h1, fun x s w' => ?_⟩
    obtain ⟨u, rfl⟩ := σ.surjective w'
    refine (h2 x s u).trans ?_
    constructor
    · exact fun h => ⟨u, h, rfl, hne u⟩
    · rintro ⟨u', hu, e, _⟩
      rw [← σ.injective e]; exact hu

theorem Spec.Alike.none_iff {v w : View} (h : Alike σ v w) (x : NodeIndex) : w (σ x) = none ↔ v x = none := by
  have := h x
  cases h1 : v x <;> cases h2 : w (σ x) <;> simp_all

theorem Spec.Alike.some {v w : View} (h : Alike σ v w) {x : NodeIndex} {n : Node} (hn : v x = .some n) :
    ∃ n', w (σ x) = .some n' ∧ Node.Renamed σ n n' := by
  have := h x
  rw [hn] at this
  cases h2 : w (σ x) with
  | none => simp only [h2] at this
  | some n' => simp only [h2] at this; exact ⟨n', rfl, this⟩

theorem Spec.Alike.some' {v w : View} (h : Alike σ v w) {x : NodeIndex} {n' : Node} (hn : w (σ x) = .some n') :
    ∃ n, v x = .some n ∧ Node.Renamed σ n n' := by
  cases h1 : v x with
  | none => rw [(h.none_iff x).2 h1] at hn; exact absurd hn (by simp)
  | some n =>
    obtain ⟨n2, h2, h3⟩ := h.some h1
    rw [hn, Option.some.injEq] at h2
    subst h2
    exact ⟨n, rfl, h3⟩

theorem Spec.alike_of {v w : View} (h1 : ∀ x, v x = none → w (σ x) = none)
    (h2 : ∀ x n, v x = .some n → ∃ n', w (σ x) = .some n' ∧ Node.Renamed σ n n') : Alike σ v w := by
  intro x
  cases h : v x with
  | none => simp only [h1 x h]
  | some n =>
    obtain ⟨n', h3, h4⟩ := h2 x n h
    simp only [h3]
    exact h4

theorem Spec.Alike.link (h0 : σ emptyIdx = emptyIdx) {v w : View} (h : Alike σ v w) (x : NodeIndex) (m : Mirror) (y : NodeIndex) :
    w.Link (σ x) m (σ y) ↔ v.Link x m y := by
  have h2 := ((View.alike_iff h0).1 h).2
  constructor
  · rintro ⟨n, hn, s, hs⟩
    obtain ⟨n', hn', hs'⟩ := (h2 x _ y).1 ⟨n, hn, hs⟩
    exact ⟨n', hn', s, hs'⟩
  · rintro ⟨n, hn, s, hs⟩
    obtain ⟨n', hn', hs'⟩ := (h2 x _ y).2 ⟨n, hn, hs⟩
    exact ⟨n', hn', s, hs'⟩

theorem alike_empty_iff (h0 : σ emptyIdx = emptyIdx) (y : NodeIndex) : σ y = emptyIdx ↔ y = emptyIdx :=
  ⟨fun h => σ.injective (h.trans h0.symm), fun h => by rw [h, h0]⟩

/-! ### Phases -/

theorem renamed_alike (h0 : σ emptyIdx = emptyIdx) {ρ ρ' : NodeIndex → NodeIndex} (hρ : ∀ u, ρ' (σ u) = σ (ρ u)) {v v1 w w1 : View}
    (h : View.Renamed ρ v v1) (h' : View.Renamed ρ' w w1) (hs : Alike σ v w) : Alike σ v1 w1 := by
  have a := View.Renamed.renH h
  have b := View.Renamed.renH h'
  obtain ⟨s1, s2⟩ := (View.alike_iff h0).1 hs
  refine (View.alike_iff h0).2 ⟨fun x => by rw [b.shape, a.shape, s1], fun x s y => ?_⟩
  rw [a.holds, b.holds]
  constructor
  · rintro ⟨u', hu, e, hne⟩
    obtain ⟨u, rfl⟩ := σ.surjective u'
    rw [hρ] at e
    rw [Ne, alike_empty_iff h0, alike_empty_iff h0] at hne
    exact ⟨u, (s2 _ _ _).1 hu, σ.injective e, hne⟩
  · rintro ⟨u, hu, e, hne⟩
    refine ⟨σ u, (s2 _ _ _).2 hu, by rw [hρ, e], ?_⟩
    rw [Ne, alike_empty_iff h0, alike_empty_iff h0]
    exact hne

theorem inserted_alike {new new' v v1 w w1 : View} (hn : Alike σ new new') (h : Inserted new v v1) (h' : Inserted new' w w1) (hs : Alike σ v w) :
    Alike σ v1 w1 := by
  intro x
  simp only
  cases hx : new x with
  | none =>
    rw [h.1 x hx, h'.1 _ ((hn.none_iff x).2 hx)]
    exact hs x
  | some n =>
    obtain ⟨n', hn', hr⟩ := hn.some hx
    rw [(h.2 x n hx).2, (h'.2 _ n' hn').2]
    exact hr

theorem set_alike {v v1 w w1 : View} {i : NodeIndex} {n n' : Node} (h : View.Set v i n v1) (h' : View.Set w (σ i) n' w1)
    (hn : Node.Renamed σ n n') (hs : Alike σ v w) : Alike σ v1 w1 := by
  intro x
  simp only
  rw [h x, h' (σ x)]
  by_cases e : i = x
  · rw [if_pos e, if_pos (by rw [e])]; exact hn
  · rw [if_neg e, if_neg (fun hc => e (σ.injective hc))]; exact hs x

theorem applied_alike {l l' : List (NodeIndex × Closure)} (hl : List.Forall₂ (AlikeTask σ) l l') {v v1 : View} (h : Applied l v v1) :
    ∀ {w w1 : View}, Applied l' w w1 → Alike σ v w → Alike σ v1 w1 := by
  induction h generalizing l' with
  | nil h =>
    intro w w1 h' hs
    cases hl
    cases h' with
    | nil h' =>
      intro x
      have := hs x
      simp only [h, h'] at this ⊢
      exact this
  | cons h1 h2 h3 _ ih =>
    intro w w1 h' hs
    cases hl with
    | cons ht htl =>
      cases h' with
      | cons h1' h2' h3' h4' =>
        obtain ⟨e, hcl⟩ := ht
        simp only at e hcl
        subst e
        obtain ⟨n2, h5, h6⟩ := hs.some h1
        rw [h1', Option.some.injEq] at h5
        subst h5
        rcases hcl _ _ h6 with ⟨e, h7, _⟩ | ⟨m, m', h7, h8, h9⟩
        · rw [h2] at h7; exact absurd h7 (by simp)
        · rw [h2, Except.ok.injEq] at h7
          rw [h2', Except.ok.injEq] at h8
          subst h7 h8
          exact ih htl h4' (set_alike h3 h3' h9 hs)

theorem removed_alike (h0 : σ emptyIdx = emptyIdx) {xs xs' : List NodeIndex} (hx : ∀ x, σ x ∈ xs' ↔ x ∈ xs) {v v1 w w1 : View}
    (h : Removed xs v v1) (h' : Removed xs' w w1) (hs : Alike σ v w) : Alike σ v1 w1 := by
  refine alike_of (fun x hn => ?_) (fun x n hn => ?_)
  · rw [removed_none h] at hn
    rw [removed_none h', hx, hs.none_iff]
    exact hn
  · have hx1 : ¬ (v x = none ∨ x ∈ xs) := fun hc => by
      rw [(removed_none h x).2 hc] at hn
      exact absurd hn (by simp)
    obtain ⟨n0, hn0⟩ := Option.ne_none_iff_exists'.1 (fun hc => hx1 (Or.inl hc))
    obtain ⟨n1, hn1, hs1⟩ := hs.some hn0
    obtain ⟨m, hm, hr⟩ := removed_node h hn0 (fun hc => hx1 (Or.inr hc))
    obtain ⟨m', hm', hr'⟩ := removed_node h' hn1 (fun hc => hx1 (Or.inr ((hx x).1 hc)))
    rw [hn, Option.some.injEq] at hm
    subst hm
    refine ⟨m', hm', ?_⟩
    obtain ⟨s1, s2⟩ := (Node.alike_iff h0).1 hs1
    refine (Node.alike_iff h0).2 ⟨by rw [Node.Renamed.shape hr', Node.Renamed.shape hr, s1], fun s y => ?_⟩
    rw [Node.Renamed.holds hr', Node.Renamed.holds hr]
    constructor
    · rintro ⟨u', hu, e, hne⟩
      obtain ⟨u, rfl⟩ := σ.surjective u'
      refine ⟨u, (s2 _ _).1 hu, ?_, ?_⟩
      · simp only [hx] at e ⊢
        by_cases hu' : u ∈ xs
        · rw [if_pos hu'] at e ⊢; exact ((alike_empty_iff h0 y).1 e.symm).symm
        · rw [if_neg hu'] at e ⊢; exact σ.injective e
      · rw [Ne, alike_empty_iff h0, alike_empty_iff h0] at hne; exact hne
    · rintro ⟨u, hu, e, hne⟩
      refine ⟨σ u, (s2 _ _).2 hu, ?_, ?_⟩
      · simp only [hx]
        by_cases hu' : u ∈ xs
        · simp only [if_pos hu'] at e ⊢; rw [← e, h0]
        · simp only [if_neg hu'] at e ⊢; rw [e]
      · rw [Ne, alike_empty_iff h0, alike_empty_iff h0]; exact hne

/-! ### Completion -/

theorem Spec.Alike.ends {v v' : View} (h : Alike σ v v') (x y : NodeIndex) (d : Ident) : Ends v' (σ x) (σ y) d ↔ Ends v x y d := by
  constructor
  · rintro ⟨h1, n, hn, rfl⟩
    obtain ⟨n', h2, h3⟩ := h.some' hn
    exact ⟨fun hc => h1 ((h.none_iff x).2 hc), n', h2, h3.1.symm⟩
  · rintro ⟨h1, n, hn, rfl⟩
    obtain ⟨n', h2, h3⟩ := h.some hn
    exact ⟨fun hc => h1 ((h.none_iff x).1 hc), n', h2, h3.1⟩

theorem Spec.Alike.removedLink (h0 : σ emptyIdx = emptyIdx) {v v' w w' : View} (h : Alike σ v v') (h' : Alike σ w w') (x : NodeIndex) (m : Mirror)
    (y : NodeIndex) : RemovedLink v' w' (σ x) m (σ y) ↔ RemovedLink v w x m y := by
  simp only [RemovedLink, h.link h0, h'.link h0, Ne, alike_empty_iff h0]

theorem Spec.Alike.addedLink (h0 : σ emptyIdx = emptyIdx) {v v' w w' : View} (h : Alike σ v v') (h' : Alike σ w w') (x : NodeIndex) (m : Mirror)
    (y : NodeIndex) : AddedLink v' w' (σ x) m (σ y) ↔ AddedLink v w x m y := by
  simp only [AddedLink, h.link h0, h'.link h0, Ne, alike_empty_iff h0]

variable {S : Schema}

theorem completion_alike (h0 : σ emptyIdx = emptyIdx) {v w v6 w6 v7 w7 : View} (h : Completion S v v6 v7) (h' : Completion S w w6 w7)
    (hs : Alike σ v w) (h6 : Alike σ v6 w6) : Alike σ v7 w7 := by
  obtain ⟨s1, s2⟩ := (View.alike_iff h0).1 h6
  refine (View.alike_iff h0).2 ⟨fun x => by rw [h'.1, h.1, s1], fun x s y => ?_⟩
  rw [h.2, h'.2]
  simp only [s2, hs.removedLink h0 h6, hs.addedLink h0 h6, h6.ends]

theorem Spec.Alike.stillLinked (h0 : σ emptyIdx = emptyIdx) {v v' w w' : View} (h : Alike σ v v') (h' : Alike σ w w') (y : NodeIndex) (m' : Mirror)
    (i : NodeIndex) : StillLinked S v' w' (σ y) m' (σ i) ↔ StillLinked S v w y m' i := by
  simp only [StillLinked, h'.link h0, h.removedLink h0 h', h'.ends]

theorem Spec.Alike.demanded (h0 : σ emptyIdx = emptyIdx) {v v' w w' : View} (h : Alike σ v v') (h' : Alike σ w w') (y : NodeIndex) (m' : Mirror)
    (i : NodeIndex) : Demanded S v' w' (σ y) m' (σ i) ↔ Demanded S v w y m' i := by
  simp only [Demanded, h.addedLink h0 h', h'.ends]

theorem Spec.Alike.vecLeft (h0 : σ emptyIdx = emptyIdx) {v v' w w' : View} (h : Alike σ v v') (h' : Alike σ w w') : VecLeft S v' w' ↔ VecLeft S v w := by
  simp only [VecLeft]
  constructor
  · rintro ⟨x', m, y', d, m', h1, h2, h3⟩
    obtain ⟨x, rfl⟩ := σ.surjective x'
    obtain ⟨y, rfl⟩ := σ.surjective y'
    exact ⟨x, m, y, d, m', (h.removedLink h0 h' x m y).1 h1, (h'.ends x y d).1 h2, h3⟩
  · rintro ⟨x, m, y, d, m', h1, h2, h3⟩
    exact ⟨σ x, m, σ y, d, m', (h.removedLink h0 h' x m y).2 h1, (h'.ends x y d).2 h2, h3⟩

theorem Spec.Alike.vecMissing (h0 : σ emptyIdx = emptyIdx) {v v' w w' : View} (h : Alike σ v v') (h' : Alike σ w w') :
    VecMissing S v' w' ↔ VecMissing S v w := by
  simp only [VecMissing]
  constructor
  · rintro ⟨x', m, y', d, h1, h2, h3, h4⟩
    obtain ⟨x, rfl⟩ := σ.surjective x'
    obtain ⟨y, rfl⟩ := σ.surjective y'
    exact ⟨x, m, y, d, (h.addedLink h0 h' x m y).1 h1, (h'.ends x y d).1 h2, h3, fun m' h5 h6 => by
      rw [← h'.link h0]; exact h4 m' h5 h6⟩
  · rintro ⟨x, m, y, d, h1, h2, h3, h4⟩
    exact ⟨σ x, m, σ y, d, (h.addedLink h0 h' x m y).2 h1, (h'.ends x y d).2 h2, h3, fun m' h5 h6 => by
      rw [h'.link h0]; exact h4 m' h5 h6⟩

theorem Spec.Alike.conflict (h0 : σ emptyIdx = emptyIdx) {v v' w w' : View} (h : Alike σ v v') (h' : Alike σ w w') :
    Spec.Conflict S v' w' ↔ Spec.Conflict S v w := by
  constructor
  · rintro ⟨y', m', x', i', h1, h2, h3, h4⟩
    obtain ⟨y, rfl⟩ := σ.surjective y'
    obtain ⟨x, rfl⟩ := σ.surjective x'
    obtain ⟨i, rfl⟩ := σ.surjective i'
    rw [h.stillLinked h0 h', h.demanded h0 h'] at h4
    rw [h.demanded h0 h'] at h2
    exact ⟨y, m', x, i, h1, h2, fun e => h3 (by rw [e]), h4⟩
  · rintro ⟨y, m', x, i, h1, h2, h3, h4⟩
    refine ⟨σ y, m', σ x, σ i, h1, (h.demanded h0 h' ..).2 h2, fun e => h3 (σ.injective e), ?_⟩
    rw [h.stillLinked h0 h', h.demanded h0 h']
    exact h4

end

/-! ### The parent map of `redirect_links_vec` -/

namespace Graph
section
variable {σ : Equiv.Perm NodeIndex}

/-- Corresponding parent maps. -/
def FaAlike (σ : Equiv.Perm NodeIndex) (fa fa' : Fa) : Prop := fa'.entries = fa.entries.map (fun e => (σ e.1, σ e.2))

theorem alGet_alike (k : NodeIndex) (l : List (NodeIndex × NodeIndex)) :
    alGet (σ k) (l.map (fun e => (σ e.1, σ e.2))) = (alGet k l).map σ := by
  induction l with
  | nil => rfl
  | cons e l ih =>
    simp only [List.map_cons, alGet, σ.injective.eq_iff]
    split
    · rfl
    · exact ih

theorem alSet_alike (k v : NodeIndex) (l : List (NodeIndex × NodeIndex)) :
    alSet (σ k) (σ v) (l.map (fun e => (σ e.1, σ e.2))) = (alSet k v l).map (fun e => (σ e.1, σ e.2)) := by
  induction l with
  | nil => rfl
  | cons e l ih =>
    simp only [List.map_cons, alSet, σ.injective.eq_iff]
    split
    · rfl
    · simp only [List.map_cons, ih]

theorem FaAlike.get {fa fa' : Fa} (h : FaAlike σ fa fa') (k : NodeIndex) : fa'.get? (σ k) = (fa.get? k).map σ := by
  show alGet (σ k) fa'.entries = (alGet k fa.entries).map σ
  rw [h, alGet_alike]

theorem FaAlike.len {fa fa' : Fa} (h : FaAlike σ fa fa') : fa'.len = fa.len := by
  unfold OrderMap.len
  rw [h, List.length_map]

theorem FaAlike.insert {fa fa' : Fa} (h : FaAlike σ fa fa') (k v : NodeIndex) : FaAlike σ (fa.insert k v) (fa'.insert (σ k) (σ v)) := by
  show alSet (σ k) (σ v) fa'.entries = (alSet k v fa.entries).map _
  rw [h, alSet_alike]

theorem FaAlike.orInsert {fa fa' : Fa} (h : FaAlike σ fa fa') (k v : NodeIndex) : FaAlike σ (fa.orInsert k v) (fa'.orInsert (σ k) (σ v)) := by
  unfold OrderMap.orInsert
  rw [h.get]
  cases fa.get? k with
  | none => exact h.insert k v
  | some _ => exact h

theorem findRoot_alike {fa fa' : Fa} (h : FaAlike σ fa fa') : ∀ (fuel : Nat) (x : NodeIndex),
    findRoot fa' fuel (σ x) = (findRoot fa fuel x).map σ := by
  intro fuel
  induction fuel with
  | zero => intro x; rfl
  | succ f ih =>
    intro x
    simp only [findRoot, h.get]
    cases fa.get? x with
    | none => rfl
    | some y =>
      simp only [Option.map_some, σ.injective.eq_iff]
      split
      · rfl
      · exact ih y

theorem faStep_alike {fa fa' : Fa} (h : FaAlike σ fa fa') (p : NodeIndex × NodeIndex) :
    (∃ e, faStep fa p = .error e ∧ faStep fa' (σ p.1, σ p.2) = .error e) ∨
    ∃ f f', faStep fa p = .ok f ∧ faStep fa' (σ p.1, σ p.2) = .ok f' ∧ FaAlike σ f f' := by
  simp only [faStep, h.len, findRoot_alike h]
  cases findRoot fa (fa.len + 1) p.2 with
  | error e => exact Or.inl ⟨e, rfl, rfl⟩
  | ok x =>
    simp only [Except.map, σ.injective.eq_iff]
    split
    · exact Or.inl ⟨_, rfl, rfl⟩
    · exact Or.inr ⟨_, _, rfl, rfl, h.insert _ _⟩

theorem faInit_alike (reps : List (NodeIndex × NodeIndex)) : FaAlike σ (faInit reps) (faInit (reps.map (fun e => (σ e.1, σ e.2)))) := by
  have key : ∀ (l : List (NodeIndex × NodeIndex)) (fa fa' : Fa), FaAlike σ fa fa' →
      FaAlike σ (l.foldl (fun fa p => (fa.orInsert p.1 p.1).orInsert p.2 p.2) fa)
        ((l.map (fun e => (σ e.1, σ e.2))).foldl (fun fa p => (fa.orInsert p.1 p.1).orInsert p.2 p.2) fa') := by
    intro l
    induction l with
    | nil => intro fa fa' h; exact h
    | cons p l ih => intro fa fa' h; exact ih _ _ ((h.orInsert _ _).orInsert _ _)
  exact key reps _ _ rfl

theorem faLoop_alike (l : List (NodeIndex × NodeIndex)) : ∀ {fa fa' : Fa}, FaAlike σ fa fa' →
    (∃ e, foldE faStep fa l = .error e ∧ foldE faStep fa' (l.map (fun e => (σ e.1, σ e.2))) = .error e) ∨
    ∃ f f', foldE faStep fa l = .ok f ∧ foldE faStep fa' (l.map (fun e => (σ e.1, σ e.2))) = .ok f' ∧ FaAlike σ f f' := by
  induction l with
  | nil => intro fa fa' h; exact Or.inr ⟨fa, fa', rfl, rfl, h⟩
  | cons p l ih =>
    intro fa fa' h
    simp only [List.map_cons, foldE]
    rcases faStep_alike h p with ⟨e, h1, h2⟩ | ⟨f, f', h1, h2, h3⟩
    · rw [h1, h2]; exact Or.inl ⟨e, rfl, rfl⟩
    · rw [h1, h2]; exact ih h3

theorem PathN.alike {fa fa' : Fa} (h : FaAlike σ fa fa') {u r : NodeIndex} {k : Nat} (hp : PathN fa u k r) : PathN fa' (σ u) k (σ r) := by
  induction hp with
  | root h1 => exact .root (by rw [h.get, h1]; rfl)
  | step h1 h2 _ ih => exact .step (by rw [h.get, h1]; rfl) (fun e => h2 (σ.injective e)) ih

theorem firstTarget_alike {R R' : NodeIndex → NodeIndex} {reps : List (NodeIndex × NodeIndex)} (hR : ∀ p ∈ reps, R' (σ p.2) = σ (R p.2)) (u : NodeIndex) :
    firstTarget R' (reps.map (fun e => (σ e.1, σ e.2))) (σ u) = σ (firstTarget R reps u) := by
  induction reps with
  | nil => rfl
  | cons p l ih =>
    by_cases e : p.1 = u
    · simp [firstTarget, List.find?, e, hR p List.mem_cons_self]
    · have e' : ¬ σ p.1 = σ u := fun hc => e (σ.injective hc)
      have := ih (fun q hq => hR q (by simp [hq]))
      simp only [firstTarget, List.map_cons, List.find?, e, e', decide_false] at this ⊢
      exact this

/-- The requests with corresponding indices: the same panic, or the same ends of chains. -/
theorem faPass_alike (reps : List (NodeIndex × NodeIndex)) :
    (∀ [SetImpl] g r g' r', redirectLinksVec g reps r = .error .redirectLoop ∧
      redirectLinksVec g' (reps.map (fun e => (σ e.1, σ e.2))) r' = .error .redirectLoop) ∨
    ∃ fa fa' : Fa, ∃ R R' : NodeIndex → NodeIndex, foldE faStep (faInit reps) reps = .ok fa ∧
      foldE faStep (faInit (reps.map (fun e => (σ e.1, σ e.2)))) (reps.map (fun e => (σ e.1, σ e.2))) = .ok fa' ∧
      FaInv (Mentioned reps) reps fa ∧
      FaInv (Mentioned (reps.map (fun e => (σ e.1, σ e.2)))) (reps.map (fun e => (σ e.1, σ e.2))) fa' ∧
      (∀ u, Mentioned reps u → ∃ k, PathN fa u k (R u)) ∧
      (∀ u, Mentioned (reps.map (fun e => (σ e.1, σ e.2))) u → ∃ k, PathN fa' u k (R' u)) ∧ ∀ p ∈ reps, R' (σ p.2) = σ (R p.2) := by
  rcases faLoop_alike (σ := σ) reps (faInit_alike reps) with ⟨e, h1, h2⟩ | ⟨fa, fa', h1, h2, h3⟩
  · left
    have e1 : e = .redirectLoop := by
      rcases faPass (reps := reps) with ⟨fa, hfa, _⟩ | ⟨herr, _⟩
      · rw [hfa] at h1; exact absurd h1 (by simp)
      · rw [herr] at h1; simpa using h1.symm
    subst e1
    intro _ g r g' r'
    simp only [redirectLinksVec, h1, h2, and_self]
  · right
    have i1 : FaInv (Mentioned reps) reps fa := by
      rcases faPass (reps := reps) with ⟨f, hf, hi⟩ | ⟨herr, _⟩
      · rw [hf, Except.ok.injEq] at h1; subst h1; exact hi
      · rw [herr] at h1; exact absurd h1 (by simp)
    have i2 : FaInv (Mentioned (reps.map (fun e => (σ e.1, σ e.2)))) (reps.map (fun e => (σ e.1, σ e.2))) fa' := by
      rcases faPass (reps := reps.map (fun e => (σ e.1, σ e.2))) with ⟨f, hf, hi⟩ | ⟨herr, _⟩
      · rw [hf, Except.ok.injEq] at h2; subst h2; exact hi
      · rw [herr] at h2; exact absurd h2 (by simp)
    have hex : ∀ u, ∃ r, Mentioned reps u → ∃ k, PathN fa u k r := by
      intro u
      by_cases hu : Mentioned reps u
      · obtain ⟨k, r, hp⟩ := i1.total u hu
        exact ⟨r, fun _ => ⟨k, hp⟩⟩
      · exact ⟨0, fun hc => absurd hc hu⟩
    obtain ⟨R, hR⟩ := Classical.skolem.1 hex
    refine ⟨fa, fa', R, fun u => σ (R (σ.symm u)), h1, h2, i1, i2, hR, ?_, fun p _ => by simp⟩
    rintro u ⟨q, hq, hu⟩
    obtain ⟨p, hp, rfl⟩ := List.mem_map.1 hq
    have : Mentioned reps (σ.symm u) := ⟨p, hp, by rcases hu with rfl | rfl <;> simp⟩
    obtain ⟨k, hk⟩ := hR _ this
    have := hk.alike h3
    rw [σ.apply_symm_apply] at this
    exact ⟨k, this⟩

end

section
variable [SetImpl] {σ : Equiv.Perm NodeIndex} {S S' : Schema} {e0 e0' : Prop}

theorem redirect_alike (h0 : σ emptyIdx = emptyIdx) {reps : List (NodeIndex × NodeIndex)} {g g' g1 g1' : Graph} {r r' r1 r1' : Lcr}
    (h : g.Inv S e0) (h' : g'.Inv S' e0') (hz : ∀ n, (emptyIdx, n) ∉ reps) (hs : Alike σ g.get? g'.get?)
    (hr : redirectLinksVec g reps r = .ok (g1, r1)) (hr' : redirectLinksVec g' (reps.map (fun e => (σ e.1, σ e.2))) r' = .ok (g1', r1')) :
    Alike σ g1.get? g1'.get? := by
  have hz' : ∀ n, (emptyIdx, n) ∉ reps.map (fun e => (σ e.1, σ e.2)) := by
    intro n hn
    obtain ⟨p, hp, e⟩ := List.mem_map.1 hn
    simp only [Prod.mk.injEq] at e
    have : p.1 = emptyIdx := (alike_empty_iff h0 _).1 e.1
    exact hz p.2 (by rw [← this]; exact hp)
  rcases faPass_alike (σ := σ) reps with hbad | ⟨fa, fa', R, R', a1, a2, a3, a4, a5, a6, a7⟩
  · rw [(hbad g r g' r').1] at hr
    exact absurd hr (by simp)
  rcases redirectLinksVec_fa S a1 a3 a5 h r (fun ⟨n, hn⟩ => absurd hn (hz n)) (fun _ => True) with ⟨_, b⟩ | ⟨_, g2, r2, b, _, _, _, _, b6, _⟩
  · rw [b] at hr; exact absurd hr (by simp)
  rcases redirectLinksVec_fa S' a2 a4 a6 h' r' (fun ⟨n, hn⟩ => absurd hn (hz' n)) (fun _ => True) with ⟨_, c⟩ | ⟨_, g2', r2', c, _, _, _, _, c6, _⟩
  · rw [c] at hr'; exact absurd hr' (by simp)
  rw [hr] at b
  rw [hr'] at c
  obtain ⟨rfl, rfl⟩ : g1 = g2 ∧ r1 = r2 := by simpa using b
  obtain ⟨rfl, rfl⟩ : g1' = g2' ∧ r1' = r2' := by simpa using c
  exact renamed_alike h0 (firstTarget_alike a7) (View.renH_iff.1 b6) (View.renH_iff.1 c6) hs

/-- The phases before bidirectional completion. -/
theorem perform_alike (h0 : σ emptyIdx = emptyIdx) (hS : S.discs.Nodup) (hS' : S'.discs.Nodup) {g g' g6 g6' : Graph} {t t' : Trans} {r6 r6' : Lcr} (h : g.Inv S e0)
    (h' : g'.Inv S' e0') (ht : t.Good S) (ht' : t'.Good S') (hd : g.nodes.Disjoint t.inc) (hd' : g'.nodes.Disjoint t'.inc) (hz : t.NoFromEmpty)
    (hz' : t'.NoFromEmpty) (hg : Alike σ g.get? g'.get?) (hp : AlikePending σ t.pending t'.pending) (hs : perform S g t = .ok (g6, r6))
    (hs' : perform S' g' t' = .ok (g6', r6')) : Alike σ g6.get? g6'.get? := by
  obtain ⟨p1, _, p3, p4, p5, p6, p7⟩ := hp
  simp only [Trans.pending] at p1 p3 p4 p5 p6 p7
  simp only [perform] at hs hs'
  cases h1 : redirectLinksVec g t.redir Lcr.new with
  | error e => rw [h1] at hs; exact absurd hs (by simp)
  | ok st1 =>
  cases h1' : redirectLinksVec g' t'.redir Lcr.new with
  | error e => rw [h1'] at hs'; exact absurd hs' (by simp)
  | ok st1' =>
  rw [h1] at hs
  rw [h1'] at hs'
  obtain ⟨g1, r1⟩ := st1
  obtain ⟨g1', r1'⟩ := st1'
  simp only at hs hs'
  have o1 := redirect_out (L0 := View.L g.get?) h (fun ⟨n, hn⟩ => absurd (List.mem_append_left _ hn) (hz n)) h1
  have o1' := redirect_out (L0 := View.L g'.get?) h' (fun ⟨n, hn⟩ => absurd (List.mem_append_left _ hn) (hz' n)) h1'
  have e1 : Alike σ g1.get? g1'.get? := redirect_alike h0 h h' (fun n hn => absurd (List.mem_append_left _ hn) (hz n)) hg h1 (by rw [← p7]; exact h1')
  have hd1 : g1.nodes.Disjoint t.inc := by intro i hi; rw [o1.disp]; exact hd i hi
  have hd1' : g1'.nodes.Disjoint t'.inc := by intro i hi; rw [o1'.disp]; exact hd' i hi
  obtain ⟨m1, m2, _⟩ := mergeNodes_spec (r := r1) (L0 := View.L g.get?) hS o1.inv ht.inv hd1 ht.noEmpty ht.wt
  obtain ⟨k1, k2, _⟩ := mergeNodes_spec (r := r1') (L0 := View.L g'.get?) hS' o1'.inv ht'.inv hd1' ht'.noEmpty ht'.wt
  have e2 : Alike σ (mergeNodes S g1 t.inc r1).1.get? (mergeNodes S' g1' t'.inc r1').1.get? := by
    intro x
    simp only
    rw [m1, k1]
    cases hx : t.inc.get? x with
    | none =>
      rw [(p1.none_iff x).2 hx]
      simpa using e1 x
    | some n =>
      obtain ⟨n', hn', hr⟩ := p1.some hx
      rw [hn']
      exact hr
  cases h3 : applyClosures modifyNode (mergeNodes S g1 t.inc r1) t.muts with
  | error e => rw [h3] at hs; exact absurd hs (by simp)
  | ok st3 =>
  cases h3' : applyClosures modifyNode (mergeNodes S' g1' t'.inc r1') t'.muts with
  | error e => rw [h3'] at hs'; exact absurd hs' (by simp)
  | ok st3' =>
  rw [h3] at hs
  rw [h3'] at hs'
  simp only at hs hs'
  have o3 := applyClosures_out (L0 := View.L g.get?) (Or.inl rfl) t.muts (fun p hp => ht.closures p (by simp [hp])) m2 h3
  have o3' := applyClosures_out (L0 := View.L g'.get?) (Or.inl rfl) t'.muts (fun p hp => ht'.closures p (by simp [hp])) k2 h3'
  have e3 := applied_alike p4 o3.applied o3'.applied e2
  cases h4 : applyClosures updateNode st3 t.upds with
  | error e => rw [h4] at hs; exact absurd hs (by simp)
  | ok st4 =>
  cases h4' : applyClosures updateNode st3' t'.upds with
  | error e => rw [h4'] at hs'; exact absurd hs' (by simp)
  | ok st4' =>
  rw [h4] at hs
  rw [h4'] at hs'
  have o4 := applyClosures_out (L0 := View.L g.get?) (Or.inr rfl) t.upds (fun p hp => ht.closures p (by simp [hp])) o3.inv h4
  have o4' := applyClosures_out (L0 := View.L g'.get?) (Or.inr rfl) t'.upds (fun p hp => ht'.closures p (by simp [hp])) o3'.inv h4'
  have e4 := applied_alike p5 o4.applied o4'.applied e3
  obtain ⟨g4, r4⟩ := st4
  obtain ⟨g4', r4'⟩ := st4'
  simp only at hs hs'
  cases h5 : redirectLinksVec g4 t.redirAll r4 with
  | error e => rw [h5] at hs; exact absurd hs (by simp)
  | ok st5 =>
  cases h5' : redirectLinksVec g4' t'.redirAll r4' with
  | error e => rw [h5'] at hs'; exact absurd hs' (by simp)
  | ok st5' =>
  rw [h5] at hs
  rw [h5'] at hs'
  obtain ⟨g5, r5⟩ := st5
  obtain ⟨g5', r5'⟩ := st5'
  simp only at hs hs'
  have o5 := redirect_out (L0 := View.L g.get?) o4.inv (fun ⟨n, hn⟩ => absurd (List.mem_append_right _ hn) (hz n)) h5
  have o5' := redirect_out (L0 := View.L g'.get?) o4'.inv (fun ⟨n, hn⟩ => absurd (List.mem_append_right _ hn) (hz' n)) h5'
  have e5 : Alike σ g5.get? g5'.get? := redirect_alike h0 o4.inv o4'.inv (fun n hn => absurd (List.mem_append_right _ hn) (hz n)) e4 h5
    (by rw [← p6]; exact h5')
  rcases removeAll_cases (S := S) (r := r5) t.dec.elems t.dec.nodup (View.L g.get?) o5.inv with ⟨_, h6⟩ | ⟨hall, g7, r7, h6, o6⟩
  · rw [h6] at hs; exact absurd hs (by simp)
  rcases removeAll_cases (S := S') (r := r5') t'.dec.elems t'.dec.nodup (View.L g'.get?) o5'.inv with ⟨_, h6'⟩ | ⟨hall', g7', r7', h6', o6'⟩
  · rw [h6'] at hs'; exact absurd hs' (by simp)
  rw [h6] at hs
  rw [h6'] at hs'
  obtain ⟨rfl, rfl⟩ : g7 = g6 ∧ r7 = r6 := by simpa using hs
  obtain ⟨rfl, rfl⟩ : g7' = g6' ∧ r7' = r6' := by simpa using hs'
  exact removed_alike h0 p3 (removed_of_out o5.inv hall o6) (removed_of_out o5'.inv hall' o6') e5

/-- The whole commit: both commits return. -/
theorem commit_alike (h0 : σ emptyIdx = emptyIdx) (hw : WellNamed S) (hw' : WellNamed S') (hq : SameTables S S') {dbg : Bool} {g g' g1 g1' : Graph} {t t' : Trans}
    (hst : SteadyBidir S t g.get?) (hst' : SteadyBidir S' t' g'.get?) (h : g.Inv S e0)
    (h' : g'.Inv S' e0') (ht : t.Good S) (ht' : t'.Good S') (hd : g.nodes.Disjoint t.inc) (hd' : g'.nodes.Disjoint t'.inc) (hz : t.NoFromEmpty)
    (hz' : t'.NoFromEmpty) (hg : Alike σ g.get? g'.get?) (hp : AlikePending σ t.pending t'.pending) (hc : g.commit S dbg t = .ok g1)
    (hc' : g'.commit S' dbg t' = .ok g1') : Alike σ g1.get? g1'.get? := by
  obtain ⟨c1, c2, g6, r6, hperf⟩ := perform_of_commit hc
  obtain ⟨c1', c2', g6', r6', hperf'⟩ := perform_of_commit hc'
  have e6 := perform_alike h0 hw.variants hw'.variants h h' ht ht' hd hd' hz hz' hg hp hperf hperf'
  have out := perform_out hw.variants h ht hd hz hperf
  have out' := perform_out hw'.variants h' ht' hd' hz' hperf'
  exact completion_alike h0 ((commit_out hw hperf out hc).completion hst) (hq.completion.1 ((commit_out hw' hperf' out' hc').completion hst')) hg e6

/-- The last phases return if they do for the corresponding graph. -/
theorem commit_alike_returns (h0 : σ emptyIdx = emptyIdx) (hw : WellNamed S) (hw' : WellNamed S') (hq : SameTables S S')
    (hdo' : DeclaredOnce S') (ho : OneOpposite S)
    {dbg : Bool} {g g' g1 g6' : Graph} {t t' : Trans} {r6' : Lcr} (hst : SteadyBidir S t g.get?) (hst' : SteadyBidir S' t' g'.get?) (hva : SteadyAnnos S t g.get?) (hva' : SteadyAnnos S' t' g'.get?)
    (h : g.Inv S e0) (h' : g'.Inv S' e0') (ht : t.Good S) (ht' : t'.Good S') (hd : g.nodes.Disjoint t.inc) (hd' : g'.nodes.Disjoint t'.inc)
    (hz : t.NoFromEmpty) (hz' : t'.NoFromEmpty) (hg : Alike σ g.get? g'.get?) (hp : AlikePending σ t.pending t'.pending)
    (hctx : t'.ctxId = g'.ctxId) (hc : g.commit S dbg t = .ok g1) (hperf' : perform S' g' t' = .ok (g6', r6')) :
    ∃ g1', g'.commit S' dbg t' = .ok g1' := by
  obtain ⟨c1, c2, g6, r6, hperf⟩ := perform_of_commit hc
  have e6 := perform_alike h0 hw.variants hw'.variants h h' ht ht' hd hd' hz hz' hg hp hperf hperf'
  have out := perform_out hw.variants h ht hd hz hperf
  have out' := perform_out hw'.variants h' ht' hd' hz' hperf'
  have hal : dbg = true → t'.allocs.isEmpty = true := by
    intro hdb
    refine OrderSet.isEmpty_iff.2 fun x hx => ?_
    obtain ⟨y, rfl⟩ := σ.surjective x
    exact OrderSet.isEmpty_iff.1 (c2 hdb) y ((hp.unfilled y).1 hx)
  have h2 := commit_out hw hperf out hc
  rcases commit_after hw' dbg hst' (fun _ => hctx) hal hperf' out' with
    ⟨_, k1⟩ | ⟨_, ⟨g2, k1, _⟩ | ⟨_, _, k1⟩ | ⟨_, k1⟩ | ⟨_, x', m, y', n, k1, k2, k3, k4⟩ | ⟨_, k1⟩⟩
  · exact absurd ((hg.vecLeft h0 e6).1 (hq.vecLeft.1 k1)) (h2.noLeft hst)
  · exact ⟨g2, k1⟩
  · exact absurd k1 (not_undecided hw' (hq.oneOpposite.2 ho) hdo' _ _)
  · exact absurd ((hg.conflict h0 e6).1 (hq.conflict.1 k1)) (h2.noConflict hst)
  · exfalso
    obtain ⟨x, rfl⟩ := σ.surjective x'
    obtain ⟨y, rfl⟩ := σ.surjective y'
    have k5 : Spec.Steady S' t' g'.get? (σ x) m (σ y) := (hva' _ m _).resolve_right fun hk => by
      rw [Schema.checkLinkType_of_accept hw' (hk n.disc)] at k4
      exact absurd k4 (by simp)
    have k6 : Spec.Steady S t g.get? x m y := (hva x m y).resolve_right fun hk => by
      rw [hq.types, Schema.checkLinkType_of_accept hw (hk n.disc)] at k4
      exact absurd k4 (by simp)
    obtain ⟨n6, hn6, hs6⟩ := e6.some' k1
    have hy : y ≠ emptyIdx := by
      rintro rfl
      rw [out.inv.noEmpty] at hn6
      exact absurd hn6 (by simp)
    have hsh : View.SameShape g6.get? g1.get? := h2.same.1
    obtain ⟨n7, hn7, hs7⟩ := hsh.some' hn6
    have := h2.types x m y n7 ⟨hy, (e6.link h0 x m y).1 k2, fun hl => k3 k5 ((hg.link h0 x m y).2 hl)⟩ k6 hn7
    have e : n7.disc = n.disc := by
      have e1 : n.disc = n6.disc := hs6.1
      simp only [Node.shape, Prod.mk.injEq] at hs7
      exact hs7.1.trans e1.symm
    rw [e, ← hq.types, k4] at this
    exact absurd this (by simp)
  · exact absurd ((hg.vecMissing h0 e6).1 (hq.vecMissing.1 k1)) (h2.noMissing hst)

end
end Graph

/-! ### Methods of a transaction -/

section
variable {σ : Equiv.Perm NodeIndex}

theorem upd_alike {v w : View} (h : Alike σ v w) (i : NodeIndex) {n n2 : Node} (hn : Node.Renamed σ n n2) :
    Alike σ (upd v i (some n)) (upd w (σ i) (some n2)) := by
  intro x
  simp only [upd, σ.injective.eq_iff]
  by_cases e : x = i
  · simp only [if_pos e]; exact hn
  · simp only [if_neg e]; exact h x

theorem upd_none_alike {v w : View} (h : Alike σ v w) (i : NodeIndex) : Alike σ (upd v i none) (upd w (σ i) none) := by
  intro x
  simp only [upd, σ.injective.eq_iff]
  by_cases e : x = i
  · simp only [if_pos e]
  · simp only [if_neg e]; exact h x

theorem adds_alike {ns ns2 : List Node} (hn : List.Forall₂ (Node.Renamed σ) ns ns2) : ∀ {l : List NodeIndex} {v v' w w' : View}, Alike σ v w →
    Adds ns l v v' → Adds ns2 (l.map σ) w w' → Alike σ v' w' := by
  induction hn with
  | nil =>
    intro l v v' w w' h h1 h2
    cases l with
    | nil =>
      simp only [List.map_nil, Adds] at h1 h2
      subst h1 h2
      exact h
    | cons => exact h1.elim
  | cons hr _ ih =>
    intro l v v' w w' h h1 h2
    cases l with
    | nil => exact h1.elim
    | cons i l => exact ih (upd_alike h i hr) h1.2 h2.2

theorem effect_alike {o o2 : TOp} {l : List NodeIndex} {p p' q q' : Pending} (ho : AlikeOp σ o o2) (hp : AlikePending σ p q)
    (h : Effect o l p p') (h' : Effect o2 (l.map σ) q q') : AlikePending σ p' q' := by
  have hu : ∀ i x, (σ x = σ i ∨ q.unfilled (σ x)) ↔ (x = i ∨ p.unfilled x) := fun i x => by rw [σ.injective.eq_iff, hp.unfilled]
  have hu' : ∀ i x, (q.unfilled (σ x) ∧ σ x ≠ σ i) ↔ (p.unfilled x ∧ x ≠ i) := fun i x => by rw [Ne, σ.injective.eq_iff, hp.unfilled]
  cases o with
  | insert n =>
    cases o2 <;> try exact ho.elim
    obtain ⟨i, rfl, _, rfl⟩ := h
    obtain ⟨j, e, _, rfl⟩ := h'
    simp only [List.map_cons, List.map_nil, List.cons.injEq, and_true] at e
    subst e
    exact { hp with new := upd_alike hp.new i ho }
  | extend ns =>
    cases o2 <;> try exact ho.elim
    obtain ⟨v, h1, rfl⟩ := h
    obtain ⟨w, h2, rfl⟩ := h'
    exact { hp with new := adds_alike ho hp.new h1 h2 }
  | alloc d =>
    cases o2 <;> try exact ho.elim
    obtain ⟨i, rfl, _, _, rfl⟩ := h
    obtain ⟨j, e, _, _, rfl⟩ := h'
    simp only [List.map_cons, List.map_nil, List.cons.injEq, and_true] at e
    subst e
    exact { hp with unfilled := hu i }
  | allocUntyped =>
    cases o2 <;> try exact ho.elim
    obtain ⟨i, rfl, _, _, rfl⟩ := h
    obtain ⟨j, e, _, _, rfl⟩ := h'
    simp only [List.map_cons, List.map_nil, List.cons.injEq, and_true] at e
    subst e
    exact { hp with unfilled := hu i }
  | fillBack i n =>
    cases o2 <;> try exact ho.elim
    obtain ⟨rfl, hr⟩ := ho
    obtain ⟨_, _, rfl⟩ := h
    obtain ⟨_, _, rfl⟩ := h'
    exact { hp with new := upd_alike hp.new i hr, unfilled := hu' i }
  | fillBackUntyped i n =>
    cases o2 <;> try exact ho.elim
    obtain ⟨rfl, hr⟩ := ho
    obtain ⟨_, _, rfl⟩ := h
    obtain ⟨_, _, rfl⟩ := h'
    exact { hp with new := upd_alike hp.new i hr, unfilled := hu' i }
  | remove i =>
    cases o2 <;> try exact ho.elim
    obtain rfl := ho
    obtain ⟨_, h⟩ := h
    obtain ⟨_, h'⟩ := h'
    rw [Ne, hp.new.none_iff, hp.unfilled] at h'
    rcases h with ⟨a, rfl⟩ | ⟨a, b, rfl⟩ | ⟨a, b, rfl⟩
    · rcases h' with ⟨_, rfl⟩ | ⟨c, _⟩ | ⟨c, _⟩
      · exact { hp with new := upd_none_alike hp.new i }
      · exact absurd c a
      · exact absurd c a
    · rcases h' with ⟨c, _⟩ | ⟨_, _, rfl⟩ | ⟨_, c, _⟩
      · exact absurd a c
      · exact { hp with unfilled := hu' i }
      · exact absurd b c
    · rcases h' with ⟨c, _⟩ | ⟨_, c, _⟩ | ⟨_, _, rfl⟩
      · exact absurd a c
      · exact absurd c b
      · exact { hp with removed := fun x => by simp only [σ.injective.eq_iff, hp.removed] }
  | mutate i f =>
    cases o2 <;> try exact ho.elim
    obtain ⟨rfl, hf⟩ := ho
    obtain ⟨_, h⟩ := h
    obtain ⟨_, h'⟩ := h'
    rcases h with ⟨a, rfl⟩ | ⟨n, n', a, b, rfl⟩
    · rcases h' with ⟨_, rfl⟩ | ⟨m, m', c, _, _⟩
      · exact { hp with muts := List.rel_append hp.muts (.cons ⟨rfl, hf⟩ .nil) }
      · rw [(hp.new.none_iff i).2 a] at c; exact absurd c (by simp)
    · obtain ⟨n2, e, hr⟩ := hp.new.some a
      rcases h' with ⟨c, _⟩ | ⟨m, m', c, d, rfl⟩
      · rw [e] at c; exact absurd c (by simp)
      · rw [e, Option.some.injEq] at c
        subst c
        rcases hf _ _ hr with ⟨_, k, _⟩ | ⟨_, _, k1, k2, k3⟩
        · rw [b] at k; exact absurd k (by simp)
        · rw [b, Except.ok.injEq] at k1
          rw [d, Except.ok.injEq] at k2
          subst k1 k2
          exact { hp with new := upd_alike hp.new i k3 }
  | update i f =>
    cases o2 <;> try exact ho.elim
    obtain ⟨rfl, hf⟩ := ho
    obtain ⟨_, h⟩ := h
    obtain ⟨_, h'⟩ := h'
    rcases h with ⟨a, rfl⟩ | ⟨n, n', a, b, rfl⟩
    · rcases h' with ⟨_, rfl⟩ | ⟨m, m', c, _, _⟩
      · exact { hp with upds := List.rel_append hp.upds (.cons ⟨rfl, hf⟩ .nil) }
      · rw [(hp.new.none_iff i).2 a] at c; exact absurd c (by simp)
    · obtain ⟨n2, e, hr⟩ := hp.new.some a
      rcases h' with ⟨c, _⟩ | ⟨m, m', c, d, rfl⟩
      · rw [e] at c; exact absurd c (by simp)
      · rw [e, Option.some.injEq] at c
        subst c
        rcases hf _ _ hr with ⟨_, k, _⟩ | ⟨_, _, k1, k2, k3⟩
        · rw [b] at k; exact absurd k (by simp)
        · rw [b, Except.ok.injEq] at k1
          rw [d, Except.ok.injEq] at k2
          subst k1 k2
          exact { hp with new := upd_alike hp.new i k3 }
  | redirectAllLinks old new =>
    cases o2 <;> try exact ho.elim
    obtain ⟨rfl, rfl⟩ := ho
    obtain ⟨_, rfl⟩ := h
    obtain ⟨_, rfl⟩ := h'
    exact { hp with redirAll := by simp [hp.redirAll] }
  | redirectLinks old new =>
    cases o2 <;> try exact ho.elim
    obtain ⟨rfl, rfl⟩ := ho
    obtain ⟨_, rfl⟩ := h
    obtain ⟨_, rfl⟩ := h'
    exact { hp with redir := by simp [hp.redir] }

end

end TTGraph
