import Verif.Spec.Regroup
import Verif.Lemmas.Exact
import Verif.Lemmas.Reorder

/-!
# Closures in another order
-/

set_option autoImplicit false

namespace TTGraph
open Spec
variable {S : Schema}

/-- The closures of one node, one after the other: the entry `a` becomes `b`. -/
def RunsAt (K : NodeIndex → Prop) : List Closure → Option Node → Option Node → Prop
  | [], a, b => b = a
  | f :: l, a, b => ∃ n n', a = some n ∧ f n = .ok n' ∧ (∀ s y, n'.Holds s y → K y) ∧ RunsAt K l (some n') b

def closuresOf (l : List (NodeIndex × Closure)) (x : NodeIndex) : List Closure := (l.filter fun e => decide (e.1 = x)).map Prod.snd

theorem closuresOf_cons (p : NodeIndex × Closure) (l : List (NodeIndex × Closure)) (x : NodeIndex) :
    closuresOf (p :: l) x = if p.1 = x then p.2 :: closuresOf l x else closuresOf l x := by
  by_cases h : p.1 = x <;> simp [closuresOf, h]

/-- Applying closures works node by node. -/
theorem appliedIn_iff {K : NodeIndex → Prop} (l : List (NodeIndex × Closure)) :
    ∀ {v v' : View}, AppliedIn K l v v' ↔ ∀ x, RunsAt K (closuresOf l x) (v x) (v' x) := by
  induction l with
  | nil =>
    intro v v'
    constructor
    · intro h
      cases h with
      | nil h => exact h
    · exact fun h => .nil h
  | cons p l ih =>
    intro v v'
    obtain ⟨i, f⟩ := p
    constructor
    · intro h x
      cases h with
      | cons h1 h2 h3 h4 h5 =>
        have := ih.1 h5 x
        rw [h4 x] at this
        rw [closuresOf_cons]
        by_cases e : i = x
        · simp only [if_pos e] at this ⊢
          subst e
          exact ⟨_, _, h1, h2, h3, this⟩
        · simp only [if_neg e] at this ⊢
          exact this
    · intro h
      have h0 := h i
      rw [closuresOf_cons, if_pos rfl] at h0
      obtain ⟨n, n', h1, h2, h3, h4⟩ := h0
      refine .cons (v1 := fun j => if i = j then some n' else v j) h1 h2 h3 (fun _ => rfl) (ih.2 fun x => ?_)
      by_cases e : i = x
      · subst e
        simp only [if_true]
        exact h4
      · have hx := h x
        rw [closuresOf_cons, if_neg e] at hx
        simp only [if_neg e]
        exact hx

theorem appliedIn_append {K : NodeIndex → Prop} (l l' : List (NodeIndex × Closure)) {v v' : View} :
    AppliedIn K (l ++ l') v v' ↔ ∃ v1, AppliedIn K l v v1 ∧ AppliedIn K l' v1 v' := by
  induction l generalizing v with
  | nil =>
    constructor
    · exact fun h => ⟨v, .nil fun _ => rfl, h⟩
    · rintro ⟨v1, h1, h2⟩
      cases h1 with
      | nil h => rw [show v1 = v from funext h] at h2; exact h2
  | cons p l ih =>
    constructor
    · intro h
      cases h with
      | cons h1 h2 h3 h4 h5 =>
        obtain ⟨w, k1, k2⟩ := ih.1 h5
        exact ⟨w, .cons h1 h2 h3 h4 k1, k2⟩
    · rintro ⟨w, h, h'⟩
      cases h with
      | cons h1 h2 h3 h4 h5 => exact .cons h1 h2 h3 h4 (ih.2 ⟨w, h5, h'⟩)

namespace Graph
variable {e0 e0' : Prop} {step : Graph → NodeIndex → Closure → Lcr → Except Panic (Graph × Lcr)}

theorem applyClosures_run (hst : IsStep step) {K : NodeIndex → Prop} {l : List (NodeIndex × Closure)} {w w' : View} (ha : AppliedIn K l w w') :
    ∀ {g : Graph} {r : Lcr}, g.Inv S e0 → (∀ y, K y → g.back.Known y) → (∀ x, g.get? x = w x) → (∀ p ∈ l, Closure.Typed S p.2) →
      ∃ st', applyClosures step (g, r) l = .ok st' ∧ ∀ x, st'.1.get? x = w' x := by
  induction ha with
  | nil h => intro g r _ _ hg _; exact ⟨_, rfl, fun x => (hg x).trans (h x).symm⟩
  | @cons i f l v v1 v' n n' h1 h2 h3 h4 _ ih =>
    intro g r h hk hg hl
    have hn : g.get? i = some n := (hg i).trans h1
    obtain ⟨g1, r1, k1, k2, k3, _, _, k6, _⟩ := step_ok (r := r) hst h hn h2 (hl (i, f) List.mem_cons_self n n' (h.wt _ _ hn) h2)
      (fun s y hh => hk y (h3 s y hh)) (fun _ => True)
    obtain ⟨st', hst', he⟩ := ih (r := r1) k3 (fun y hy => (k6 y).2 (hk y hy)) (fun x => by rw [k2, h4, hg])
      (fun p hp => hl p (List.mem_cons_of_mem _ hp))
    refine ⟨st', ?_, he⟩
    simp only [applyClosures, foldE] at hst' ⊢
    rw [k1]
    exact hst'

/-- The two loops over the closures depend only on the closures of each node. -/
theorem closures_regrouped {m u m' u' : List (NodeIndex × Closure)} (hl : ∀ p ∈ m ++ u, Closure.Typed S p.2) (hl' : ∀ p ∈ m' ++ u', Closure.Typed S p.2)
    (hc : ∀ x, closuresOf (m' ++ u') x = closuresOf (m ++ u) x) {g g' : Graph} {r r' : Lcr} {st3 st4 : Graph × Lcr} (h : g.Inv S e0) (h' : g'.Inv S e0')
    (hg : ∀ x, g'.get? x = g.get? x) (hk : ∀ y, g'.back.Known y ↔ g.back.Known y) (h3 : applyClosures modifyNode (g, r) m = .ok st3)
    (h4 : applyClosures updateNode st3 u = .ok st4) :
    ∃ st3' st4', applyClosures modifyNode (g', r') m' = .ok st3' ∧ applyClosures updateNode st3' u' = .ok st4' ∧
      (∀ x, st4'.1.get? x = st4.1.get? x) ∧ (∀ y, st4'.1.back.Known y ↔ st4.1.back.Known y) ∧ st4'.1.Inv S e0' := by
  have o3 := applyClosures_out (S := S) (L0 := View.L g.get?) (Or.inl rfl) m (fun p hp => hl p (by simp [hp])) h h3
  have o4 := applyClosures_out (S := S) (L0 := View.L g.get?) (Or.inr rfl) u (fun p hp => hl p (by simp [hp])) o3.inv h4
  have c3 := applyClosures_in (S := S) (Or.inl rfl) m (fun p hp => hl p (by simp [hp])) g.back.Known h (fun _ hy => hy) h3
  have c4 := applyClosures_in (S := S) (Or.inr rfl) u (fun p hp => hl p (by simp [hp])) g.back.Known o3.inv (fun y hy => (o3.known y).1 hy) h4
  have c := (appliedIn_iff _).1 ((appliedIn_append m u).2 ⟨_, c3, c4⟩)
  obtain ⟨w, d3, d4⟩ := (appliedIn_append m' u').1 ((appliedIn_iff (m' ++ u')).2 fun x => by rw [hc x]; exact c x)
  obtain ⟨st3', k3, e3⟩ := applyClosures_run (r := r') (step := modifyNode) (Or.inl rfl) d3 h' (fun y hy => (hk y).2 hy) hg (fun p hp => hl' p (by simp [hp]))
  have p3 := applyClosures_out (S := S) (L0 := View.L g.get?) (Or.inl rfl) m' (fun p hp => hl' p (by simp [hp])) h' k3
  obtain ⟨st4', k4, e4⟩ := applyClosures_run (r := st3'.2) (step := updateNode) (Or.inr rfl) d4 p3.inv (fun y hy => (p3.known y).2 ((hk y).2 hy)) e3
    (fun p hp => hl' p (by simp [hp]))
  have p4 := applyClosures_out (S := S) (L0 := View.L g.get?) (Or.inr rfl) u' (fun p hp => hl' p (by simp [hp])) p3.inv k4
  exact ⟨st3', st4', k3, k4, e4, fun y => by rw [p4.known, p3.known, hk, o4.known, o3.known], p4.inv⟩

section
variable [SetImpl]

theorem perform_regrouped (hS : S.discs.Nodup) {g g6 : Graph} {t t' : Trans} {r6 : Lcr} (h : g.Inv S e0) (ht : t.Good S) (ht' : t'.Good S)
    (hd : g.nodes.Disjoint t.inc) (hd' : g.nodes.Disjoint t'.inc) (hz : t.NoFromEmpty) (hp : Regrouped t.pending t'.pending)
    (hs : perform S g t = .ok (g6, r6)) : ∃ g6' r6', perform S g t' = .ok (g6', r6') ∧ View.Same g6.get? g6'.get? := by
  have p1' : ∀ x, t'.inc.get? x = t.inc.get? x := fun x => congrFun hp.new x
  have p7 : t'.redir = t.redir := hp.redir
  have p6 : t'.redirAll = t.redirAll := hp.redirAll
  simp only [perform] at hs ⊢
  cases h1 : redirectLinksVec g t.redir Lcr.new with
  | error e => rw [h1] at hs; exact absurd hs (by simp)
  | ok st1 =>
    rw [h1] at hs
    rw [p7, h1]
    obtain ⟨g1, r1⟩ := st1
    simp only at hs ⊢
    have o1 := redirect_out (L0 := View.L g.get?) h (fun ⟨n, hn⟩ => absurd (List.mem_append_left _ hn) (hz n)) h1
    have hd1 : g1.nodes.Disjoint t.inc := by intro i hi; rw [o1.disp]; exact hd i hi
    have hd1' : g1.nodes.Disjoint t'.inc := by intro i hi; rw [o1.disp]; exact hd' i hi
    obtain ⟨m1, m2, _, _, m5, _⟩ := mergeNodes_spec (r := r1) (L0 := View.L g.get?) hS o1.inv ht.inv hd1 ht.noEmpty ht.wt
    obtain ⟨k1, k2, _, _, k5, _⟩ := mergeNodes_spec (r := r1) (L0 := View.L g.get?) hS o1.inv ht'.inv hd1' ht'.noEmpty ht'.wt
    cases h3 : applyClosures modifyNode (mergeNodes S g1 t.inc r1) t.muts with
    | error e => rw [h3] at hs; exact absurd hs (by simp)
    | ok st3 =>
      rw [h3] at hs
      simp only at hs
      have hk5 : ∀ y, (mergeNodes S g1 t'.inc r1).1.back.Known y ↔ (mergeNodes S g1 t.inc r1).1.back.Known y := by
        intro y
        rw [m5, k5]
        simp only [View.Linked, View.Holds, p1']
      cases h4 : applyClosures updateNode st3 t.upds with
      | error e => rw [h4] at hs; exact absurd hs (by simp)
      | ok st4 =>
        rw [h4] at hs
        have o3 := applyClosures_out (L0 := View.L g.get?) (Or.inl rfl) t.muts (fun p hp => ht.closures p (by simp [hp])) m2 h3
        have o4 := applyClosures_out (L0 := View.L g.get?) (Or.inr rfl) t.upds (fun p hp => ht.closures p (by simp [hp])) o3.inv h4
        obtain ⟨st3', st4', h3', h4', e4, q4, o4'⟩ := closures_regrouped (r' := (mergeNodes S g1 t'.inc r1).2) ht.closures ht'.closures hp.closures m2 k2
          (fun x => by rw [k1, m1, p1']) hk5 h3 h4
        have h3'' : applyClosures modifyNode (mergeNodes S g1 t'.inc r1) t'.muts = .ok st3' := h3'
        rw [h3'']
        simp only
        rw [h4']
        obtain ⟨g4, r4⟩ := st4
        obtain ⟨g4', r4'⟩ := st4'
        simp only at hs ⊢
        cases h5 : redirectLinksVec g4 t.redirAll r4 with
        | error e => rw [h5] at hs; exact absurd hs (by simp)
        | ok st5 =>
          rw [h5] at hs
          obtain ⟨g5, r5⟩ := st5
          simp only at hs
          have o5 := redirect_out (L0 := View.L g.get?) o4.inv (fun ⟨n, hn⟩ => absurd (List.mem_append_right _ hn) (hz n)) h5
          obtain ⟨g5', r5', h5', e5, q5⟩ := redirectLinksVec_congr (r' := r4') o4.inv o4' (fun n hn => absurd (List.mem_append_right _ hn) (hz n))
            (View.renH_iff.2 (View.same_of_eq e4)) q4 h5
          have e5 : View.Same g5.get? g5'.get? := View.renH_iff.1 e5
          have o5' := redirect_out (L0 := View.L g.get?) o4' (fun ⟨n, hn⟩ => absurd (List.mem_append_right _ hn) (hz n)) h5'
          rw [p6, h5']
          simp only
          have hdec : ∀ x, x ∈ t'.dec.elems ↔ x ∈ t.dec.elems := fun x => iff_of_eq (congrFun hp.removed x)
          rcases removeAll_cases (S := S) (r := r5) t.dec.elems t.dec.nodup (View.L g.get?) o5.inv with ⟨_, h6⟩ | ⟨hall, g6', r6', h6, o6⟩
          · rw [h6] at hs; exact absurd hs (by simp)
          · rw [h6] at hs
            obtain ⟨rfl, rfl⟩ : g6' = g6 ∧ r6' = r6 := by simpa using hs
            rcases removeAll_cases (S := S) (r := r5') t'.dec.elems t'.dec.nodup (View.L g.get?) o5'.inv with ⟨⟨x, hx, hxn⟩, _⟩ | ⟨hall', g7, r7, h7, o7⟩
            · exact absurd ((e5.none_iff x).1 hxn) (hall x ((hdec x).1 hx))
            · exact ⟨g7, r7, h7, removed_same hdec (removed_of_out o5.inv hall o6) (removed_of_out o5'.inv hall' o7) e5⟩

end
end Graph
end TTGraph
