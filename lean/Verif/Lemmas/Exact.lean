import Verif.Lemmas.Integrity
import Verif.Lemmas.Errors
import Verif.Lemmas.Performable
import Verif.Lemmas.Unique
import Verif.Spec.Exact

/-!
# Exactly when the operations of a transaction succeed
-/

set_option autoImplicit false

namespace TTGraph
open Spec
variable [SetImpl] {S : Schema} {dbg : Bool} {R : World → Call → Prop}

omit [SetImpl] in
theorem Spec.AppliedIn.applied {K : NodeIndex → Prop} {l : List (NodeIndex × Closure)} {v v' : View} (h : AppliedIn K l v v') : Applied l v v' := by
  induction h with
  | nil h => exact .nil h
  | cons h1 h2 _ h4 _ ih => exact .cons h1 h2 h4 ih

omit [SetImpl] in
theorem Spec.AppliedIn.weaken {K K' : NodeIndex → Prop} {l : List (NodeIndex × Closure)} {v v' : View} (h : AppliedIn K l v v')
    (hk : ∀ i f, (i, f) ∈ l → ∀ n n', f n = .ok n' → ∀ s y, n'.Holds s y → K y → K' y) : AppliedIn K' l v v' := by
  induction h with
  | nil h => exact .nil h
  | cons h1 h2 h3 h4 _ ih =>
    exact .cons h1 h2 (fun s y hh => hk _ _ List.mem_cons_self _ _ h2 s y hh (h3 s y hh)) h4
      (ih fun i f hm => hk i f (List.mem_cons_of_mem _ hm))

namespace Graph
variable {e0 : Prop} {step : Graph → NodeIndex → Closure → Lcr → Except Panic (Graph × Lcr)}

omit [SetImpl] in
theorem applyClosures_do (hst : IsStep step) (K : NodeIndex → Prop) {l : List (NodeIndex × Closure)} {w w' : View} (ha : AppliedIn K l w w') :
    ∀ {g : Graph} {r : Lcr}, g.Inv S e0 → (∀ y, K y → g.back.Known y) → View.Same w g.get? →
      (∀ p ∈ l, Closure.Typed S p.2 ∧ p.2.Respects) → ∃ st', applyClosures step (g, r) l = .ok st' := by
  induction ha with
  | nil _ => intro g r _ _ _ _; exact ⟨_, rfl⟩
  | @cons i f l v v1 v' n n' h1 h2 h3 h4 _ ih =>
    intro g r h hk hs hl
    obtain ⟨n0, hn0, hsn⟩ := hs.some h1
    rcases (hl (i, f) List.mem_cons_self).2 n n0 hsn with ⟨e, he, _⟩ | ⟨m, m', hm, hm', hmm⟩
    · rw [show f n = .error e from he] at h2; exact absurd h2 (by simp)
    obtain rfl : m = n' := by
      have : f n = .ok m := hm
      rw [h2] at this
      simpa using this.symm
    have hh : ∀ s y, m'.Holds s y → g.back.Known y := fun s y hy => hk y (h3 s y (((Node.same_iff.1 hmm).2 s y).1 hy))
    obtain ⟨g1, r1, k1, k2, k3, _, _, k6, _⟩ := step_ok (r := r) hst h hn0 hm' ((hl (i, f) List.mem_cons_self).1 n0 m' (h.wt _ _ hn0) hm') hh
      (fun _ => True)
    obtain ⟨st', hst'⟩ := ih (r := r1) k3 (fun y hy => (k6 y).2 (hk y hy)) (set_same h4 k2 hmm hs) (fun p hp => hl p (List.mem_cons_of_mem _ hp))
    refine ⟨st', ?_⟩
    simp only [applyClosures, foldE] at hst' ⊢
    rw [k1]
    exact hst'

/-- In a graph without stale back-link entries the operations succeed exactly if they can be carried out. -/
theorem perform_iff (hS : S.discs.Nodup) {g : Graph} {t : Trans} (h : g.Inv S e0) (ht : t.Good S) (hd : g.nodes.Disjoint t.inc)
    (hz : t.NoFromEmpty) (hti : g.Tight) (hs : Sound g.get? t.pending) (hreg : Regular t.pending) (he : NoEmptyLinks t.pending) :
    (∃ g6 r6, perform S g t = .ok (g6, r6)) ↔ ∃ v6, CarriedOut t.pending g.get? v6 := by
  have hz1 : ∀ p ∈ t.redir, p.1 ≠ emptyIdx := fun p hp e => hz p.2 (List.mem_append_left _ (by rw [← e]; exact hp))
  have hz2 : ∀ p ∈ t.redirAll, p.1 ≠ emptyIdx := fun p hp e => hz p.2 (List.mem_append_right _ (by rw [← e]; exact hp))
  have hK1 : ∀ y, g.back.Known y → y = emptyIdx ∨ Present g.get? t.pending y := fun y hy => (hti y hy).imp id Or.inl
  have hEx : ∀ y, Exists g.get? t.pending y → y = emptyIdx ∨ Present g.get? t.pending y := fun y hy => hy
  constructor
  · rintro ⟨g6, r6, hp⟩
    simp only [perform] at hp
    rcases redirect_cases (S := S) h Lcr.new (reps := t.redir) (fun ⟨n, hn⟩ => absurd (List.mem_append_left _ hn) (hz n)) (View.L g.get?) with
      ⟨_, h1⟩ | ⟨_, h1⟩ | ⟨hk1, g1, r1, h1, o1⟩
    · rw [h1] at hp; exact absurd hp (by simp)
    · rw [h1] at hp; exact absurd hp (by simp)
    rw [h1] at hp
    simp only at hp
    have hd1 : g1.nodes.Disjoint t.inc := by intro i hi; rw [o1.disp]; exact hd i hi
    obtain ⟨m1, m2, m3, m4, m5, m6⟩ := mergeNodes_spec (r := r1) (L0 := View.L g.get?) hS o1.inv ht.inv hd1 ht.noEmpty ht.wt
    have hk2 : ∀ y, (mergeNodes S g1 t.inc r1).1.back.Known y → y = emptyIdx ∨ Present g.get? t.pending y := by
      intro y hy
      rcases (m5 y).1 hy with hy | ⟨n, hy⟩ | hy
      · rcases o1.known' y hy with hy | ⟨p, hp, rfl⟩
        · exact hK1 y hy
        · exact hEx _ (hs.2 p.1 p.2 (List.mem_append_left _ hp))
      · exact Or.inr (Or.inr (by simp [Trans.pending, hy]))
      · exact hEx _ (hs.1 y hy)
    cases h3 : applyClosures modifyNode (mergeNodes S g1 t.inc r1) t.muts with
    | error e => rw [h3] at hp; exact absurd hp (by simp)
    | ok st3 =>
    rw [h3] at hp
    simp only at hp
    have c3 := applyClosures_in (S := S) (Or.inl rfl) t.muts (fun p hp => ht.closures p (List.mem_append_left _ hp)) _ m2 hk2 h3
    have o3 := applyClosures_out (S := S) (Or.inl rfl) (View.L g.get?) t.muts (fun p hp => ht.closures p (List.mem_append_left _ hp)) m2 h3
    cases h4 : applyClosures updateNode st3 t.upds with
    | error e => rw [h4] at hp; exact absurd hp (by simp)
    | ok st4 =>
    have c4 := applyClosures_in (S := S) (Or.inr rfl) t.upds (fun p hp => ht.closures p (List.mem_append_right _ hp)) _ o3.inv
      (fun y hy => hk2 y ((o3.known y).1 hy)) h4
    have o4 := applyClosures_out (S := S) (Or.inr rfl) (View.L g.get?) t.upds (fun p hp => ht.closures p (List.mem_append_right _ hp)) o3.inv h4
    rw [h4] at hp
    obtain ⟨g4, r4⟩ := st4
    simp only at hp
    have hins : Inserted t.inc.get? g1.get? (mergeNodes S g1 t.inc r1).1.get? :=
      inserted_of_merge (fun x hx => Arena.get?_of_disp_none (hd1 x fun e => hx (Arena.get?_of_disp_none e))) m1
    have hpres : ∀ y, Present g.get? t.pending y → g4.get? y ≠ none := by
      intro y hy hn
      have h2 := (applied_exists o3.applied y).1 ((applied_exists o4.applied y).1 hn)
      rw [m1] at h2
      rcases hy with hy | hy
      · have := (o1.shape.exists y).2 hy
        cases hi : t.inc.get? y with
        | none => rw [hi] at h2; exact this (by simpa using h2)
        | some n => rw [hi] at h2; exact absurd h2 (by simp)
      · obtain ⟨n, hn⟩ := Option.ne_none_iff_exists'.1 hy
        rw [show t.inc.get? y = some n from hn] at h2
        exact absurd h2 (by simp)
    rcases redirect_cases (S := S) o4.inv r4 (reps := t.redirAll) (fun ⟨n, hn⟩ => absurd (List.mem_append_right _ hn) (hz n)) (View.L g.get?) with
      ⟨_, h5⟩ | ⟨_, h5⟩ | ⟨hk5, g5, r5, h5, o5⟩
    · rw [h5] at hp; exact absurd hp (by simp)
    · rw [h5] at hp; exact absurd hp (by simp)
    rw [h5] at hp
    simp only at hp
    rcases removeAll_cases (S := S) (r := r5) t.dec.elems t.dec.nodup (View.L g.get?) o5.inv with ⟨_, h6⟩ | ⟨hall, g6', r6', h6, o6⟩
    · rw [h6] at hp; exact absurd hp (by simp)
    refine ⟨g6'.get?, g1.get?, _, _, g4.get?, g5.get?, t.dec.elems, ⟨fun old new ho => ?_, fun hl => ?_, o1.redirected⟩, hins,
      c3.weaken fun i f hm n n' hf s y hh => ?_, c4.weaken fun i f hm n n' hf s y hh => ?_, ⟨fun old new ho => ?_, fun hl => ?_, o5.redirected⟩,
      fun x => Iff.rfl, removed_of_out o5.inv hall o6⟩
    · exact (hti old (hk1 _ ho)).resolve_left (hz1 _ ho)
    · exact absurd (h1.symm.trans (redirect_loop (reps := t.redir) hreg.redir hl g Lcr.new)) (by simp)
    · rintro (rfl | hy)
      · exact absurd hh (he i f (List.mem_append_left _ hm) n n' hf s)
      · exact hy
    · rintro (rfl | hy)
      · exact absurd hh (he i f (List.mem_append_right _ hm) n n' hf s)
      · exact hy
    · refine hpres old ?_
      exact (hk2 old ((o3.known _).1 ((o4.known _).1 (hk5 _ ho)))).resolve_left (hz2 _ ho)
    · exact absurd (h5.symm.trans (redirect_loop (reps := t.redirAll) hreg.redirAll hl g4 r4)) (by simp)
  · rintro ⟨v6, v1, v2, v3, v4, v5, xs, ⟨a1, a2, a3⟩, b, c, d, ⟨e1, e2, e3⟩, hxs, f⟩
    rcases redirect_cases (S := S) h Lcr.new (reps := t.redir) (fun ⟨n, hn⟩ => absurd (List.mem_append_left _ hn) (hz n)) (View.L g.get?) with
      ⟨hl, _⟩ | ⟨⟨p, hp1, hp2⟩, _⟩ | ⟨_, g1, r1, h1, o1⟩
    · exact absurd hl a2
    · exact absurd (h.known_of (Or.inl (a1 p.1 p.2 hp1))) hp2
    have hd1 : g1.nodes.Disjoint t.inc := by intro i hi; rw [o1.disp]; exact hd i hi
    obtain ⟨m1, m2, m3, m4, m5, m6⟩ := mergeNodes_spec (r := r1) (L0 := View.L g.get?) hS o1.inv ht.inv hd1 ht.noEmpty ht.wt
    have hins : Inserted t.inc.get? g1.get? (mergeNodes S g1 t.inc r1).1.get? :=
      inserted_of_merge (fun x hx => Arena.get?_of_disp_none (hd1 x fun e => hx (Arena.get?_of_disp_none e))) m1
    have s1 := redirected_same hreg.redir a3 o1.redirected (.refl _)
    have s2 := inserted_same b hins s1
    have hK : ∀ y, Present g.get? t.pending y → (mergeNodes S g1 t.inc r1).1.back.Known y := by
      rintro y (hy | hy)
      · exact (m5 y).2 (Or.inl (o1.known y (h.known_of (Or.inl hy))))
      · exact (m5 y).2 (Or.inr (Or.inl (Option.ne_none_iff_exists'.1 hy)))
    obtain ⟨st3, h3⟩ := applyClosures_do (S := S) (step := modifyNode) (Or.inl rfl) _ c (r := (mergeNodes S g1 t.inc r1).2) m2 hK s2
      (fun p hp => ⟨ht.closures p (List.mem_append_left _ hp), hreg.closures p.1 p.2 (List.mem_append_left _ hp)⟩)
    have o3 := applyClosures_out (L0 := View.L g.get?) (Or.inl rfl) t.muts (fun p hp => ht.closures p (by simp [hp])) m2 h3
    have s3 := applied_same (fun p hp => hreg.closures p.1 p.2 (List.mem_append_left _ hp)) c.applied o3.applied s2
    obtain ⟨st4, h4⟩ := applyClosures_do (S := S) (step := updateNode) (Or.inr rfl) _ d (r := st3.2) o3.inv
      (fun y hy => (o3.known y).2 (hK y hy)) s3
      (fun p hp => ⟨ht.closures p (List.mem_append_right _ hp), hreg.closures p.1 p.2 (List.mem_append_right _ hp)⟩)
    have o4 := applyClosures_out (L0 := View.L g.get?) (Or.inr rfl) t.upds (fun p hp => ht.closures p (by simp [hp])) o3.inv h4
    have s4 := applied_same (fun p hp => hreg.closures p.1 p.2 (List.mem_append_right _ hp)) d.applied o4.applied s3
    rcases redirect_cases (S := S) o4.inv st4.2 (reps := t.redirAll) (fun ⟨n, hn⟩ => absurd (List.mem_append_right _ hn) (hz n)) (View.L g.get?) with
      ⟨hl, _⟩ | ⟨⟨p, hp1, hp2⟩, _⟩ | ⟨_, g5, r5, h5, o5⟩
    · exact absurd hl e2
    · refine absurd (o4.inv.known_of (Or.inl fun hn => e1 p.1 p.2 hp1 ?_)) hp2
      exact (s4.none_iff p.1).1 hn
    have s5 := redirected_same hreg.redirAll e3 o5.redirected s4
    rcases removeAll_cases (S := S) (r := r5) t.dec.elems t.dec.nodup (View.L g.get?) o5.inv with ⟨⟨x, hx, hn⟩, _⟩ | ⟨hall, g6, r6, h6, o6⟩
    · exact absurd ((s5.none_iff x).1 hn) (f.1 x ((hxs x).2 hx)).1
    · refine ⟨g6, r6, ?_⟩
      have h3' : applyClosures modifyNode (mergeNodes S g1 t.inc r1) t.muts = .ok st3 := h3
      have h4' : applyClosures updateNode st3 t.upds = .ok st4 := h4
      simp only [perform, h1, h3', h4', h5, h6]

end Graph

omit [SetImpl] in
theorem Spec.CarriedOut.performed {t : Trans} {v v6 : View} (h : CarriedOut t.pending v v6) : Performed t v v6 := by
  obtain ⟨v1, v2, v3, v4, v5, xs, a, b, c, d, e, hxs, f⟩ := h
  refine ⟨v1, v2, v3, v4, v5, a.2.2, b, c.applied, d.applied, e.2.2, fun x hx => f.1 x ((hxs x).2 hx), fun x hx => ?_⟩
  have h1 := f.2 x fun h => hx ((hxs x).1 h)
  have h2 : (fun u => if u ∈ xs then emptyIdx else u) = fun u => if u ∈ t.dec.elems then emptyIdx else u := by
    funext u
    by_cases hu : u ∈ t.dec.elems
    · rw [if_pos ((hxs u).2 hu), if_pos hu]
    · rw [if_neg fun h => hu ((hxs u).1 h), if_neg hu]
  rw [h2] at h1
  exact h1

end TTGraph
