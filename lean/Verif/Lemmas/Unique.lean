import Verif.Lemmas.Withdraw
import Verif.Lemmas.Frame
import Verif.Lemmas.Types

/-!
# What a commit does is determined by the pending operations
-/

set_option autoImplicit false

namespace TTGraph
open Spec

theorem View.same_iff {v v' : View} : View.Same v v' ↔ View.SameShape v v' ∧ ∀ x s y, v'.Holds x s y ↔ v.Holds x s y := by
  have e : View.Same v v' ↔ View.RenH id v v' := View.renH_iff.symm
  rw [e]
  constructor
  · rintro ⟨h1, h2⟩
    refine ⟨h1, fun x s y => ?_⟩
    rw [h2]
    constructor
    · rintro ⟨u, hu, rfl, _⟩; exact hu
    · intro h
      refine ⟨y, h, rfl, ?_⟩
      by_cases ew : y = emptyIdx
      · exact Or.inr ew
      · exact Or.inl ew
  · rintro ⟨h1, h2⟩
    refine ⟨h1, fun x s y => ?_⟩
    rw [h2]
    constructor
    · intro h
      refine ⟨y, h, rfl, ?_⟩
      by_cases ew : y = emptyIdx
      · exact Or.inr ew
      · exact Or.inl ew
    · rintro ⟨u, hu, rfl, _⟩; exact hu

theorem View.Same.refl (v : View) : View.Same v v := View.same_iff.2 ⟨.refl v, fun _ _ _ => Iff.rfl⟩

theorem View.Same.symm {v v' : View} (h : View.Same v v') : View.Same v' v := by
  obtain ⟨h1, h2⟩ := View.same_iff.1 h
  exact View.same_iff.2 ⟨h1.symm, fun x s y => (h2 x s y).symm⟩

theorem View.Same.trans {v v' v'' : View} (h : View.Same v v') (h' : View.Same v' v'') : View.Same v v'' := by
  obtain ⟨h1, h2⟩ := View.same_iff.1 h
  obtain ⟨h3, h4⟩ := View.same_iff.1 h'
  exact View.same_iff.2 ⟨h1.trans h3, fun x s y => (h4 x s y).trans (h2 x s y)⟩

theorem View.Same.none_iff {v v' : View} (h : View.Same v v') (x : NodeIndex) : v' x = none ↔ v x = none :=
  (View.same_iff.1 h).1.none x

theorem View.Same.some {v v' : View} (h : View.Same v v') {x : NodeIndex} {n : Node} (hn : v x = .some n) : ∃ n', v' x = .some n' ∧ n.Same n' :=
  renamed_node h hn

theorem View.same_of {v v' : View} (h1 : ∀ x, v x = none → v' x = none) (h2 : ∀ x n, v x = .some n → ∃ n', v' x = .some n' ∧ n.Same n') :
    View.Same v v' := by
  intro x
  cases h : v x with
  | none => rw [h1 x h]; trivial
  | some n =>
    obtain ⟨n', h3, h4⟩ := h2 x n h
    rw [h3]
    exact h4

theorem View.same_of_eq {v v' : View} (h : ∀ x, v' x = v x) : View.Same v v' :=
  View.same_of (fun x hx => by rw [h, hx]) (fun x n hn => ⟨n, by rw [h, hn], .refl n⟩)

theorem View.Same.link {v v' : View} (h : View.Same v v') (x : NodeIndex) (m : Mirror) (y : NodeIndex) : v'.Link x m y ↔ v.Link x m y := by
  have h2 := (View.same_iff.1 h).2
  constructor
  · rintro ⟨n, hn, s, hs⟩
    obtain ⟨n', hn', hs'⟩ := (h2 x _ y).1 ⟨n, hn, hs⟩
    exact ⟨n', hn', s, hs'⟩
  · rintro ⟨n, hn, s, hs⟩
    obtain ⟨n', hn', hs'⟩ := (h2 x _ y).2 ⟨n, hn, hs⟩
    exact ⟨n', hn', s, hs'⟩

/-! ### Redirection -/

theorem chain_unique {reqs : List (NodeIndex × NodeIndex)} (hn : (reqs.map Prod.fst).Nodup) {a b c : NodeIndex} (h : Chain reqs a b)
    (hb : ∀ m, (b, m) ∉ reqs) : Chain reqs a c → (∀ m, (c, m) ∉ reqs) → b = c := by
  induction h with
  | here a =>
    intro h' hc
    cases h' with
    | here => rfl
    | step h1 _ => exact absurd h1 (hb _)
  | step h1 _ ih =>
    intro h' hc
    cases h' with
    | here => exact absurd h1 (hc _)
    | step h2 h3 =>
      have := List.inj_on_of_nodup_map hn h1 h2 rfl
      simp only [Prod.mk.injEq, true_and] at this
      subst this
      exact ih hb h3 hc

theorem split_first {reqs : List (NodeIndex × NodeIndex)} {u n : NodeIndex} (h : (u, n) ∈ reqs) :
    ∃ pre n' post, reqs = pre ++ (u, n') :: post ∧ ∀ m, (u, m) ∉ pre := by
  induction reqs with
  | nil => simp at h
  | cons p l ih =>
    by_cases e : p.1 = u
    · exact ⟨[], p.2, l, by rw [← e]; rfl, by simp⟩
    · have hl : (u, n) ∈ l := by
        rcases List.mem_cons.1 h with h | h
        · rw [← h] at e; exact absurd rfl e
        · exact h
      obtain ⟨pre, n', post, h1, h2⟩ := ih hl
      refine ⟨p :: pre, n', post, by rw [h1]; rfl, fun m hm => ?_⟩
      rcases List.mem_cons.1 hm with hm | hm
      · rw [← hm] at e; exact e rfl
      · exact h2 m hm

theorem chain_mono {r r' : List (NodeIndex × NodeIndex)} (hs : ∀ p ∈ r, p ∈ r') {a b : NodeIndex} (h : Chain r a b) : Chain r' a b := by
  induction h with
  | here a => exact .here a
  | step h1 _ ih => exact .step (hs _ h1) ih

/-- With distinct sources the map is determined, whatever the order of the requests. -/
theorem redirectMap_perm {reqs reqs' : List (NodeIndex × NodeIndex)} (hn : (reqs.map Prod.fst).Nodup) (hp : reqs.Perm reqs')
    {ρ ρ' : NodeIndex → NodeIndex} (h : RedirectMap reqs ρ) (h' : RedirectMap reqs' ρ') : ρ = ρ' := by
  funext u
  by_cases hu : ∃ n, (u, n) ∈ reqs
  · obtain ⟨n, hu⟩ := hu
    obtain ⟨pre, n1, post, h1, h2⟩ := split_first hu
    obtain ⟨pre', n1', post', h1', h2'⟩ := split_first (hp.mem_iff.1 hu)
    have e1 : (u, n1) ∈ reqs := by rw [h1]; simp
    have e2 : (u, n1') ∈ reqs := hp.mem_iff.2 (by rw [h1']; simp)
    have := List.inj_on_of_nodup_map hn e1 e2 rfl
    simp only [Prod.mk.injEq, true_and] at this
    subst this
    obtain ⟨h3, h4⟩ := h.first _ _ _ _ h1 h2
    obtain ⟨h5, h6⟩ := h'.first _ _ _ _ h1' h2'
    exact chain_unique hn h3 h4 (chain_mono (fun p hpm => hp.mem_iff.2 hpm) h5) (fun m hm => h6 m (hp.mem_iff.1 hm))
  · rw [h.other u (fun n hn' => hu ⟨n, hn'⟩), h'.other u (fun n hn' => hu ⟨n, hp.mem_iff.2 hn'⟩)]

theorem renamed_same {ρ : NodeIndex → NodeIndex} {v v1 w w1 : View} (h : View.Renamed ρ v v1) (h' : View.Renamed ρ w w1)
    (hs : View.Same v w) : View.Same v1 w1 := by
  have a := View.Renamed.renH h
  have b := View.Renamed.renH h'
  obtain ⟨s1, s2⟩ := View.same_iff.1 hs
  refine View.same_iff.2 ⟨(a.shape.symm.trans s1).trans b.shape, fun x s y => ?_⟩
  rw [a.holds, b.holds]
  simp only [s2]

theorem redirected_same {reqs : List (NodeIndex × NodeIndex)} (hn : (reqs.map Prod.fst).Nodup) {v v1 w w1 : View} (h : Redirected reqs v v1)
    (h' : Redirected reqs w w1) (hs : View.Same v w) : View.Same v1 w1 := by
  obtain ⟨ρ, h1, h2⟩ := h
  obtain ⟨ρ', h1', h2'⟩ := h'
  obtain rfl := redirectMap_perm hn (List.Perm.refl _) h1 h1'
  exact renamed_same h2 h2' hs

theorem inserted_same {new v v1 w w1 : View} (h : Inserted new v v1) (h' : Inserted new w w1) (hs : View.Same v w) : View.Same v1 w1 := by
  intro x
  cases hn : new x with
  | none => rw [h.1 x hn, h'.1 x hn]; exact hs x
  | some n => rw [(h.2 x n hn).2, (h'.2 x n hn).2]; exact Node.Same.refl n

theorem set_same {v v1 w w1 : View} {i : NodeIndex} {n n' : Node} (h : View.Set v i n v1) (h' : View.Set w i n' w1) (hn : n.Same n')
    (hs : View.Same v w) : View.Same v1 w1 := by
  intro x
  rw [h x, h' x]
  by_cases e : i = x
  · rw [if_pos e, if_pos e]; exact hn
  · rw [if_neg e, if_neg e]; exact hs x

theorem applied_same {l : List (NodeIndex × Closure)} (hl : ∀ p ∈ l, p.2.Respects) {v v1 : View} (h : Applied l v v1) :
    ∀ {w w1 : View}, Applied l w w1 → View.Same v w → View.Same v1 w1 := by
  induction h with
  | nil h =>
    intro w w1 h' hs
    cases h' with
    | nil h' => exact ((View.same_of_eq h).symm.trans hs).trans (View.same_of_eq h')
  | cons h1 h2 h3 _ ih =>
    intro w w1 h' hs
    cases h' with
    | cons h1' h2' h3' h4' =>
      obtain ⟨n2, h5, h6⟩ := hs.some h1
      rw [h1', Option.some.injEq] at h5
      subst h5
      rcases hl _ List.mem_cons_self _ _ h6 with ⟨e, h7, _⟩ | ⟨m, m', h7, h8, h9⟩
      · simp only [h2] at h7; exact absurd h7 (by simp)
      · simp only [h2, Except.ok.injEq] at h7
        simp only [h2', Except.ok.injEq] at h8
        subst h7 h8
        exact ih (fun p hp => hl p (by simp [hp])) h4' (set_same h3 h3' h9 hs)

theorem removed_same {xs xs' : List NodeIndex} (hx : ∀ x, x ∈ xs' ↔ x ∈ xs) {v v1 w w1 : View} (h : Removed xs v v1)
    (h' : Removed xs' w w1) (hs : View.Same v w) : View.Same v1 w1 := by
  have e : (fun u => if u ∈ xs' then emptyIdx else u) = (fun u => if u ∈ xs then emptyIdx else u) := by
    funext u
    simp only [hx]
  refine View.same_of (fun x hn => ?_) (fun x n hn => ?_)
  · rw [removed_none h] at hn
    rw [removed_none h', hx, hs.none_iff]
    exact hn
  · have hx1 : ¬ (v x = none ∨ x ∈ xs) := fun hc => by
      rw [(removed_none h x).2 hc] at hn
      exact absurd hn (by simp)
    obtain ⟨n0, hn0⟩ := Option.ne_none_iff_exists'.1 (fun hc => hx1 (Or.inl hc))
    obtain ⟨n1, hn1, hs1⟩ := hs.some hn0
    obtain ⟨m, hm, hr⟩ := removed_node h hn0 (fun hc => hx1 (Or.inr hc))
    obtain ⟨m', hm', hr'⟩ := removed_node h' hn1 (fun hc => hx1 (Or.inr ((hx x).1 hc)))
    rw [hn, Option.some.injEq] at hm
    subst hm
    refine ⟨m', hm', ?_⟩
    rw [e] at hr'
    obtain ⟨s1, s2⟩ := Node.same_iff.1 hs1
    refine Node.same_iff.2 ⟨by rw [Node.Renamed.shape hr', Node.Renamed.shape hr, s1], fun s y => ?_⟩
    rw [Node.Renamed.holds hr', Node.Renamed.holds hr]
    simp only [s2]

/-! ### Completion -/

theorem View.Same.ends {v v' : View} (h : View.Same v v') (x y : NodeIndex) (d : Ident) : Ends v' x y d ↔ Ends v x y d := by
  have key : ∀ {v v' : View}, View.Same v v' → Ends v x y d → Ends v' x y d := by
    rintro v v' h ⟨h1, n, hn, rfl⟩
    obtain ⟨n', h2, h3⟩ := h.some hn
    exact ⟨fun hc => h1 ((h.none_iff x).1 hc), n', h2, h3.1⟩
  exact ⟨key h.symm, key h⟩

theorem View.Same.removedLink {v v' w w' : View} (h : View.Same v v') (h' : View.Same w w') (x : NodeIndex) (m : Mirror) (y : NodeIndex) :
    RemovedLink v' w' x m y ↔ RemovedLink v w x m y := by
  simp only [RemovedLink, h.link, h'.link]

theorem View.Same.addedLink {v v' w w' : View} (h : View.Same v v') (h' : View.Same w w') (x : NodeIndex) (m : Mirror) (y : NodeIndex) :
    AddedLink v' w' x m y ↔ AddedLink v w x m y := by
  simp only [AddedLink, h.link, h'.link]

variable {S : Schema}

theorem completion_same {v w v6 w6 v7 w7 : View} (h : Completion S v v6 v7) (h' : Completion S w w6 w7) (h0 : View.Same v w)
    (h6 : View.Same v6 w6) : View.Same v7 w7 := by
  obtain ⟨s1, s2⟩ := View.same_iff.1 h6
  have hs7 : View.SameShape v6 v7 := h.1
  have hs7' : View.SameShape w6 w7 := h'.1
  refine View.same_iff.2 ⟨(hs7.symm.trans s1).trans hs7', fun x s y => ?_⟩
  rw [h.2, h'.2]
  simp only [s2, h0.removedLink h6, h0.addedLink h6, h6.ends]

theorem View.Same.stillLinked {v v' w w' : View} (h : View.Same v v') (h' : View.Same w w') (y : NodeIndex) (m' : Mirror) (i : NodeIndex) :
    StillLinked S v' w' y m' i ↔ StillLinked S v w y m' i := by
  simp only [StillLinked, h'.link, h.removedLink h', h'.ends]

theorem View.Same.demanded {v v' w w' : View} (h : View.Same v v') (h' : View.Same w w') (y : NodeIndex) (m' : Mirror) (i : NodeIndex) :
    Demanded S v' w' y m' i ↔ Demanded S v w y m' i := by
  simp only [Demanded, h.addedLink h', h'.ends]

theorem View.Same.conflict {v v' w w' : View} (h : View.Same v v') (h' : View.Same w w') :
    Spec.Conflict S v' w' ↔ Spec.Conflict S v w := by
  simp only [Spec.Conflict, h.stillLinked h', h.demanded h']

theorem View.Same.vecLeft {v v' w w' : View} (h : View.Same v v') (h' : View.Same w w') : VecLeft S v' w' ↔ VecLeft S v w := by
  simp only [VecLeft, h.removedLink h', h'.ends]

theorem View.Same.vecMissing {v v' w w' : View} (h : View.Same v v') (h' : View.Same w w') : VecMissing S v' w' ↔ VecMissing S v w := by
  simp only [VecMissing, h.addedLink h', h'.ends, h'.link]

theorem View.Same.noVecDue {v v' w w' : View} (h : View.Same v v') (h' : View.Same w w') : NoVecDue S v' w' ↔ NoVecDue S v w := by
  simp only [NoVecDue, h.vecLeft h', h.vecMissing h']

theorem not_undecided (hw : WellNamed S) (ho : OneOpposite S) (hd : DeclaredOnce S) (v v6 : View) : ¬ Undecided S v v6 :=
  fun ⟨_, m, _, d, _, _, h, _⟩ => Schema.not_manyWays hw ho hd m d h

/-- The operations of a transaction determine the result, up to the order of sets. -/
theorem performed_same {t t' : Trans} (hp : t.pending = t'.pending) (hr : (t.redir.map Prod.fst).Nodup) (hra : (t.redirAll.map Prod.fst).Nodup)
    (hc : ∀ p ∈ t.muts ++ t.upds, p.2.Respects) {v w v6 w6 : View} (h0 : View.Same v w) (h : Performed t v v6) (h' : Performed t' w w6) :
    View.Same v6 w6 := by
  simp only [Trans.pending, Pending.mk.injEq] at hp
  obtain ⟨p1, _, p3, p4, p5, p6, p7⟩ := hp
  obtain ⟨v1, v2, v3, v4, v5, a1, a2, a3, a4, a5, a6⟩ := h
  obtain ⟨w1, w2, w3, w4, w5, b1, b2, b3, b4, b5, b6⟩ := h'
  rw [← p7] at b1
  rw [← p1] at b2
  rw [← p4] at b3
  rw [← p5] at b4
  rw [← p6] at b5
  have c1 := redirected_same hr a1 b1 h0
  have c2 := inserted_same a2 b2 c1
  have c3 := applied_same (fun p hp => hc p (by simp [hp])) a3 b3 c2
  have c4 := applied_same (fun p hp => hc p (by simp [hp])) a4 b4 c3
  have c5 := redirected_same hra a5 b5 c4
  exact removed_same (fun x => by have := congrFun p3 x; exact (iff_of_eq this).symm) a6 b6 c5

/-- The nodes after a commit are determined by the nodes before it and the pending operations. -/
theorem committed_same {t t' : Trans} (hp : t.pending = t'.pending) (hr : (t.redir.map Prod.fst).Nodup) (hra : (t.redirAll.map Prod.fst).Nodup)
    (hc : ∀ p ∈ t.muts ++ t.upds, p.2.Respects) {v w v' w' : View} (h0 : View.Same v w) (h : Committed S t v v') (h' : Committed S t' w w') :
    View.Same v' w' := by
  obtain ⟨v6, a6, a7⟩ := h
  obtain ⟨w6, b6, b7⟩ := h'
  exact completion_same a7 b7 h0 (performed_same hp hr hra hc h0 a6 b6)

namespace Graph

section
variable {e0 e0' : Prop} {step : Graph → NodeIndex → Closure → Lcr → Except Panic (Graph × Lcr)}

theorem applyClosures_congr (hst : IsStep step) (l : List (NodeIndex × Closure)) (hl : ∀ p ∈ l, Closure.Typed S p.2) :
    ∀ {g g' : Graph} {r r' : Lcr} {st : Graph × Lcr}, g.Inv S e0 → g'.Inv S e0' → (∀ x, g'.get? x = g.get? x) →
      (∀ y, g'.back.Known y ↔ g.back.Known y) → applyClosures step (g, r) l = .ok st →
      ∃ st', applyClosures step (g', r') l = .ok st' ∧ (∀ x, st'.1.get? x = st.1.get? x) ∧ (∀ y, st'.1.back.Known y ↔ st.1.back.Known y) := by
  induction l with
  | nil =>
    intro g g' r r' st _ _ hg hk hs
    simp only [applyClosures, foldE, Except.ok.injEq] at hs
    subst hs
    exact ⟨(g', r'), rfl, hg, hk⟩
  | cons p l ih =>
    intro g g' r r' st h h' hg hk hs
    simp only [applyClosures, foldE] at hs
    cases hp : step g p.1 p.2 r with
    | error e => rw [hp] at hs; exact absurd hs (by simp)
    | ok st1 =>
      rw [hp] at hs
      obtain ⟨g1, r1⟩ := st1
      obtain ⟨n, n', h1, h2, h3⟩ := step_inv hst h hp
      have hwt : S.WT n' := hl p (by simp) n n' (h.wt _ _ h1) h2
      obtain ⟨g1', r1', h4, h5, h6, _, _, h9, _, _⟩ := step_ok (r := r) hst h h1 h2 hwt h3 (fun _ => True)
      rw [hp] at h4
      obtain ⟨rfl, rfl⟩ : g1 = g1' ∧ r1 = r1' := by simpa using h4
      obtain ⟨g2, r2, k4, k5, k6, _, _, k9, _, _⟩ := step_ok (r := r') hst h' (by rw [hg]; exact h1) h2 hwt (fun s y hs => (hk y).2 (h3 s y hs)) (fun _ => True)
      obtain ⟨st', h10, h11⟩ := ih (fun q hq => hl q (by simp [hq])) (r := r1) (r' := r2) (st := st) h6 k6 (fun x => by rw [k5, h5, hg])
        (fun y => by rw [k9, h9, hk]) hs
      refine ⟨st', ?_, h11⟩
      simp only [applyClosures, foldE, k4]
      exact h10

end

section
variable [SetImpl] {e0 : Prop}

theorem perform_congr (hS : S.discs.Nodup) {g g6 : Graph} {t t' : Trans} {r6 : Lcr} (h : g.Inv S e0) (ht : t.Good S) (ht' : t'.Good S)
    (hd : g.nodes.Disjoint t.inc) (hd' : g.nodes.Disjoint t'.inc) (hz : t.NoFromEmpty) (hp : t.pending = t'.pending)
    (hs : perform S g t = .ok (g6, r6)) : ∃ g6' r6', perform S g t' = .ok (g6', r6') ∧ View.Same g6.get? g6'.get? := by
  simp only [Trans.pending, Pending.mk.injEq] at hp
  obtain ⟨p1, _, p3, p4, p5, p6, p7⟩ := hp
  have p1' : ∀ x, t'.inc.get? x = t.inc.get? x := fun x => (congrFun p1 x).symm
  simp only [perform] at hs ⊢
  cases h1 : redirectLinksVec g t.redir Lcr.new with
  | error e => rw [h1] at hs; exact absurd hs (by simp)
  | ok st1 =>
    rw [h1] at hs
    rw [← p7, h1]
    obtain ⟨g1, r1⟩ := st1
    simp only at hs ⊢
    have o1 := redirect_out (L0 := View.L g.get?) h (fun ⟨n, hn⟩ => absurd (List.mem_append_left _ hn) (hz n)) h1
    have hd1 : g1.nodes.Disjoint t.inc := by intro i hi; rw [o1.disp]; exact hd i hi
    have hd1' : g1.nodes.Disjoint t'.inc := by intro i hi; rw [o1.disp]; exact hd' i hi
    obtain ⟨m1, m2, _, _, m5, _⟩ := mergeNodes_spec (r := r1) (L0 := View.L g.get?) hS o1.inv ht.inv hd1 ht.noEmpty ht.wt
    obtain ⟨k1, k2, _, _, k5, _⟩ := mergeNodes_spec (r := r1) (L0 := View.L g.get?) hS o1.inv ht'.inv hd1' ht'.noEmpty ht'.wt
    cases h3 : applyClosures modifyNode (mergeNodes S g1 t.inc r1) t.muts with
    | error e => rw [h3] at hs; exact absurd hs (by simp)
    | ok st3 =>
      rw [h3] at hs
      simp only at hs
      have o3 := applyClosures_out (L0 := View.L g.get?) (Or.inl rfl) t.muts (fun p hp => ht.closures p (by simp [hp])) m2 h3
      have hk5 : ∀ y, (mergeNodes S g1 t'.inc r1).1.back.Known y ↔ (mergeNodes S g1 t.inc r1).1.back.Known y := by
        intro y
        rw [m5, k5]
        simp only [View.Linked, View.Holds, p1']
      obtain ⟨st3', h3', e3, q3⟩ := applyClosures_congr (step := modifyNode) (Or.inl rfl) t.muts (fun p hp => ht.closures p (by simp [hp]))
        (r' := (mergeNodes S g1 t'.inc r1).2) m2 k2 (fun x => by rw [k1, m1, p1']) hk5 h3
      have h3'' : applyClosures modifyNode (mergeNodes S g1 t'.inc r1) t'.muts = .ok st3' := by rw [← p4]; exact h3'
      have o3' := applyClosures_out (L0 := View.L g.get?) (Or.inl rfl) t.muts (fun p hp => ht.closures p (by simp [hp])) k2 h3'
      rw [h3'']
      simp only
      cases h4 : applyClosures updateNode st3 t.upds with
      | error e => rw [h4] at hs; exact absurd hs (by simp)
      | ok st4 =>
        rw [h4] at hs
        have o4 := applyClosures_out (L0 := View.L g.get?) (Or.inr rfl) t.upds (fun p hp => ht.closures p (by simp [hp])) o3.inv h4
        obtain ⟨st4', h4', e4, q4⟩ := applyClosures_congr (step := updateNode) (Or.inr rfl) t.upds (fun p hp => ht.closures p (by simp [hp]))
          (r' := st3'.2) o3.inv o3'.inv e3 q3 h4
        have h4'' : applyClosures updateNode st3' t'.upds = .ok st4' := by rw [← p5]; exact h4'
        have o4' := applyClosures_out (L0 := View.L g.get?) (Or.inr rfl) t.upds (fun p hp => ht.closures p (by simp [hp])) o3'.inv h4'
        rw [h4'']
        obtain ⟨g4, r4⟩ := st4
        obtain ⟨g4', r4'⟩ := st4'
        simp only at hs ⊢
        cases h5 : redirectLinksVec g4 t.redirAll r4 with
        | error e => rw [h5] at hs; exact absurd hs (by simp)
        | ok st5 =>
          rw [h5] at hs
          obtain ⟨g5, r5⟩ := st5
          simp only at hs
          have o5 := redirect_out (L0 := View.L g.get?) o4.inv (fun ⟨n, hn⟩ => absurd (List.mem_append_right _ hn) (hz n)) h5
          obtain ⟨g5', r5', h5', e5, q5⟩ := redirectLinksVec_congr (r' := r4') o4.inv o4'.inv (fun n hn => absurd (List.mem_append_right _ hn) (hz n))
            (View.renH_iff.2 (View.same_of_eq e4)) q4 h5
          have e5 : View.Same g5.get? g5'.get? := View.renH_iff.1 e5
          have o5' := redirect_out (L0 := View.L g.get?) o4'.inv (fun ⟨n, hn⟩ => absurd (List.mem_append_right _ hn) (hz n)) h5'
          rw [← p6, h5']
          simp only
          have hdec : ∀ x, x ∈ t'.dec.elems ↔ x ∈ t.dec.elems := fun x => (iff_of_eq (congrFun p3 x)).symm
          rcases removeAll_cases (S := S) (r := r5) t.dec.elems t.dec.nodup (View.L g.get?) o5.inv with ⟨_, h6⟩ | ⟨hall, g6', r6', h6, o6⟩
          · rw [h6] at hs; exact absurd hs (by simp)
          · rw [h6] at hs
            obtain ⟨rfl, rfl⟩ : g6' = g6 ∧ r6' = r6 := by simpa using hs
            rcases removeAll_cases (S := S) (r := r5') t'.dec.elems t'.dec.nodup (View.L g.get?) o5'.inv with ⟨⟨x, hx, hxn⟩, _⟩ | ⟨hall', g7, r7, h7, o7⟩
            · exact absurd ((e5.none_iff x).1 hxn) (hall x ((hdec x).1 hx))
            · exact ⟨g7, r7, h7, removed_same hdec (removed_of_out o5.inv hall o6) (removed_of_out o5'.inv hall' o7) e5⟩

end
end Graph

section
variable [SetImpl] {dbg : Bool} {R R' : World → Call → Prop}

omit [SetImpl] in
theorem Trans.allocs_empty_of_pending {t t' : Trans} (hp : t.pending = t'.pending) (h : t.allocs.isEmpty = true) : t'.allocs.isEmpty = true := by
  simp only [Trans.pending, Pending.mk.injEq] at hp
  have p2 : ∀ x, x ∈ t'.allocs ↔ x ∈ t.allocs := fun x => (iff_of_eq (congrFun hp.2.1 x)).symm
  unfold OrderSet.isEmpty at *
  rw [List.isEmpty_iff] at *
  rw [List.eq_nil_iff_forall_not_mem]
  intro x hx
  have := (p2 x).1 hx
  unfold OrderSet.instMembership at this
  change x ∈ t.allocs.elems at this
  rw [h] at this
  exact absurd this (by simp)

omit [SetImpl] in
theorem Spec.SteadyAnnos.pending {S : Schema} {t t' : Trans} {v : View} (h : SteadyAnnos S t v) (hp : t.pending = t'.pending) :
    SteadyAnnos S t' v := by
  simp only [Trans.pending, Pending.mk.injEq] at hp
  obtain ⟨h1, _, _, h2, h3, h4, h5⟩ := hp
  intro x m y
  have := h x m y
  simp only [Spec.Steady, Stage] at this ⊢
  rw [h1, h2, h3, h4, h5] at this
  exact this

omit [SetImpl] in
theorem Spec.SteadyBidir.pending {S : Schema} {t t' : Trans} {v : View} (h : SteadyBidir S t v) (hp : t.pending = t'.pending) :
    SteadyBidir S t' v := by
  simp only [Trans.pending, Pending.mk.injEq] at hp
  obtain ⟨h1, _, _, h2, h3, h4, h5⟩ := hp
  intro x m y m' ho
  have := h x m y m' ho
  simp only [Spec.Steady, Stage] at this ⊢
  rw [h1, h2, h3, h4, h5] at this
  exact this

/-- Two transactions with the same pending operations: if one can be committed, so can the other, and the nodes are the same. -/
theorem commit_congr (hw : WellNamed S) (hd : DeclaredOnce S) (ho : OneOpposite S)
    {g g' : Graph} {t t' : Trans} (hst : SteadyBidir S t g.get?) (hva : SteadyAnnos S t g.get?) (hva' : SteadyAnnos S t' g.get?)
    (h : g.Inv S False) (ht : t.Ready S) (ht' : t'.Ready S) (hdis : g.nodes.Disjoint t.inc) (hdis' : g.nodes.Disjoint t'.inc)
    (hctx : t'.ctxId = t.ctxId) (hp : t.pending = t'.pending) (hc : g.commit S dbg t = .ok g') :
    ∃ g'', g.commit S dbg t' = .ok g'' ∧ View.Same g'.get? g''.get? := by
  obtain ⟨c1, c2, g6, r6, hperf⟩ := Graph.perform_of_commit hc
  obtain ⟨g6', r6', hperf', hsame⟩ := Graph.perform_congr hw.variants h ht.good ht'.good hdis hdis' ht.noFrom hp hperf
  have out := Graph.perform_out hw.variants h ht.good hdis ht.noFrom hperf
  have out' := Graph.perform_out hw.variants h ht'.good hdis' ht'.noFrom hperf'
  have hst' := hst.pending hp
  have hok : ∃ g1, g.commit S dbg t = .ok g1 ∧ Graph.CommitOut S False t g g1 g6.get? := by
    rcases Graph.commit_after hw dbg hst c1 c2 hperf out with ⟨h1, _⟩ | ⟨_, h1 | ⟨h1, _⟩ | ⟨h1, _⟩ | ⟨h1, _⟩ | ⟨h1, _⟩⟩
    case inr.inl => exact h1
    all_goals (rw [hc] at h1; exact absurd h1 (by simp))
  obtain ⟨g1, h1, h2⟩ := hok
  rw [hc, Except.ok.injEq] at h1
  subst h1
  rcases Graph.commit_after hw dbg hst' (fun e => hctx.trans (c1 e)) (fun e => Trans.allocs_empty_of_pending hp (c2 e)) hperf' out' with
    ⟨_, k1⟩ | ⟨_, ⟨g2, k1, k2⟩ | ⟨_, _, k1⟩ | ⟨_, k1⟩ | ⟨_, x, m, y, n, k1, k2, k3, k4⟩ | ⟨_, k1⟩⟩
  · exact absurd (((View.Same.refl _).vecLeft hsame).1 k1) (h2.noLeft hst)
  · exact ⟨g2, k1, completion_same (h2.completion hst) (k2.completion hst') (.refl _) hsame⟩
  · exact absurd k1 (not_undecided hw ho hd _ _)
  · exact absurd (((View.Same.refl _).conflict hsame).1 k1) (h2.noConflict hst)
  · exfalso
    have k5 : Spec.Steady S t' g.get? x m y := (hva' x m y).resolve_right fun hk => by
      rw [Schema.checkLinkType_of_accept hw (hk n.disc)] at k4
      exact absurd k4 (by simp)
    have k6 : Spec.Steady S t g.get? x m y := (hva x m y).resolve_right fun hk => by
      rw [Schema.checkLinkType_of_accept hw (hk n.disc)] at k4
      exact absurd k4 (by simp)
    have hy : y ≠ emptyIdx := by
      rintro rfl
      rw [out'.inv.noEmpty] at k1
      exact absurd k1 (by simp)
    obtain ⟨n6, hn6, hs6⟩ := hsame.symm.some k1
    have hsh : View.SameShape g6.get? g'.get? := h2.same.1
    obtain ⟨n7, hn7, hs7⟩ := hsh.some' hn6
    have := h2.types x m y n7 ⟨hy, (hsame.link x m y).1 k2, k3 k5⟩ k6 hn7
    have e : n7.disc = n.disc := by
      have e1 : n6.disc = n.disc := hs6.1
      simp only [Node.shape, Prod.mk.injEq] at hs7
      exact hs7.1.trans e1
    rw [e, k4] at this
    exact absurd this (by simp)
  · exact absurd (((View.Same.refl _).vecMissing hsame).1 k1) (h2.noMissing hst)

end

end TTGraph
