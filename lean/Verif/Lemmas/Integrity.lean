import Verif.Lemmas.History
import Verif.Lemmas.Contexts
import Verif.Model.Check
import Verif.Spec.Integrity

/-!
# Which indices have a back-link entry
-/

set_option autoImplicit false

namespace TTGraph
open Spec
variable [SetImpl] {S : Schema} {dbg : Bool} {R : World → Call → Prop}

/-- Only nodes and the empty index have a back-link entry. -/
def Graph.Tight (g : Graph) : Prop := ∀ y, g.back.Known y → y = emptyIdx ∨ g.get? y ≠ none

omit [SetImpl] in
theorem Graph.Tight.internal {g : Graph} {e0 : Prop} (h : g.Tight) (hi : g.Inv S e0) : Internal g.get? :=
  fun x s y hh => h y (hi.recd x s y hh).known

theorem Graph.Tight.commit (hw : WellNamed S) {g g' : Graph} {t : Trans} (h : Meets S dbg R g t) (ht : g.Tight)
    (hs : Sound g.get? t.pending) {dbg' : Bool} (hc : g.commit S dbg' t = .ok g') : g'.Tight := by
  obtain ⟨v6, out⟩ := h.commit hw hc
  have key : ∀ y, y ∉ t.dec.elems → Exists g.get? t.pending y → y = emptyIdx ∨ g'.get? y ≠ none := by
    intro y hy he
    rcases he with he | he | he
    · exact Or.inl he
    · refine Or.inr fun hn => ?_
      rcases (CommitOut.none_iff out y).1 hn with ⟨h1, _⟩ | h1
      · exact he h1
      · exact hy h1
    · refine Or.inr fun hn => ?_
      rcases (CommitOut.none_iff out y).1 hn with ⟨_, h1⟩ | h1
      · exact he h1
      · exact hy h1
  intro y hk
  obtain ⟨hy, hk⟩ := out.known y hk
  refine key y hy ?_
  rcases hk with hk | ⟨n, hn⟩ | hk | ⟨p, hp, rfl⟩
  · rcases ht y hk with h1 | h1
    · exact Or.inl h1
    · exact Or.inr (Or.inl h1)
  · exact Or.inr (Or.inr (by simp [Trans.pending, hn]))
  · exact hs.1 y hk
  · exact hs.2 p.1 p.2 hp

theorem tight_closed (hw : WellNamed S) (hR : ∀ w c, R w c → SoundCalls w c) : Closed S dbg R Graph.Tight (fun _ => True) where
  newGraph u y hk := by
    obtain ⟨st, hk⟩ := hk
    simp [Graph.new, OrderMap.empty, OrderMap.get?, alGet] at hk
  newTrans _ := trivial
  op := fun _ _ _ _ _ _ _ => trivial
  merge := fun _ _ _ _ _ _ _ _ => trivial
  commit := by
    intro w k h g g' t _ hm hr ⟨c, hg⟩ ⟨c', ht⟩ hti _ hc
    have hs : Sound g.get? t.pending := by
      rcases hr with hr | ⟨cs, hr⟩
      · exact hR _ _ hr c g c' t hg ht
      · exact hR _ _ hr c g c' t hg ht
    exact hti.commit hw hm hs hc
  caught := fun _ _ hr _ _ _ _ _ => absurd (hR _ _ hr) id
  switch := by
    intro w h c g g' u cnt cnt' _ hr _ _ hti he
    obtain ⟨a0, idMap, a, h1, h2, h3, h4, h5, h6, h7, _⟩ := switch_ok hw (hr.inv hw) he
    have hmap : ∀ i j, idMap.get? i = some j → a.get? j ≠ none := by
      intro i j hij
      obtain ⟨n, hn⟩ := Option.ne_none_iff_exists'.1 ((h2 i).1 (by rw [hij]; simp))
      obtain ⟨n', hn', _⟩ := h5.node i n j hn hij
      rw [hn']
      simp
    intro y hk
    rw [Ne, LoadOut.none_iff h6]
    rcases (h6.known y).1 hk with ⟨n, hn⟩ | ⟨x, s, n, hn, hh⟩
    · exact Or.inr (by rw [hn]; simp)
    · have hx : a0.get? x ≠ none := fun e => by rw [(h5.absent x).2 e] at hn; exact absurd hn (by simp)
      obtain ⟨n0, hn0⟩ := Option.ne_none_iff_exists'.1 hx
      obtain ⟨i, m, hi, hij⟩ := (Graph.Moved.good (hr.inv hw) h1 h5).1 x (by rw [hn]; simp)
      obtain ⟨n', hn', _, hh1⟩ := h5.node i m x hi hij
      rw [hn] at hn'
      obtain rfl : n = n' := by simpa using hn'
      obtain ⟨u, hu, _, hren⟩ := (hh1 s y).1 hh
      rcases hren with ⟨hno, rfl⟩ | ⟨_, hmp⟩
      · rcases hti.internal (hr.inv hw) i s y ⟨m, hi, hu⟩ with e | e
        · exact Or.inl e
        · exact absurd ((h2 y).2 e) hno
      · exact Or.inr (hmap u y hmp)
  deserialize := by
    intro w h c input cnt g _ hr hin hd
    obtain ⟨_, _, a, h1, h2, h3⟩ := deserialize_ok hw hin hd
    intro y hk
    rw [Ne, LoadOut.none_iff h3]
    rcases (h3.known y).1 hk with ⟨n, hn⟩ | ⟨x, s, n, hn, hh⟩
    · exact Or.inr (by rw [hn]; simp)
    · rcases hR _ _ hr (x, n) ((h1.get x n).1 hn) s y hh with e | ⟨e', he', rfl⟩
      · exact Or.inl e
      · exact Or.inr (by rw [(h1.get e'.1 e'.2).2 he']; simp)

namespace Graph
variable {e0 : Prop} {step : Graph → NodeIndex → Closure → Lcr → Except Panic (Graph × Lcr)}

omit [SetImpl] in
theorem applyClosures_in (hst : IsStep step) (l : List (NodeIndex × Closure)) (hl : ∀ p ∈ l, Closure.Typed S p.2) (K : NodeIndex → Prop) :
    ∀ {g : Graph} {r : Lcr} {st' : Graph × Lcr}, g.Inv S e0 → (∀ y, g.back.Known y → K y) → applyClosures step (g, r) l = .ok st' →
      AppliedIn K l g.get? st'.1.get? := by
  induction l with
  | nil =>
    intro g r st' _ _ hs
    simp only [applyClosures, foldE, Except.ok.injEq] at hs
    subst hs
    exact .nil fun _ => rfl
  | cons p l ih =>
    intro g r st' h hk hs
    simp only [applyClosures, foldE] at hs
    cases hp : step g p.1 p.2 r with
    | error e => rw [hp] at hs; exact absurd hs (by simp)
    | ok st1 =>
      rw [hp] at hs
      obtain ⟨g1, r1⟩ := st1
      obtain ⟨n, n', h1, h2, h3⟩ := step_inv hst h hp
      obtain ⟨g1', r1', h4, h5, h6, h7, h8, h9, h10, h11⟩ :=
        step_ok (r := r) hst h h1 h2 (hl p (by simp) n n' (h.wt _ _ h1) h2) h3 (fun _ => True)
      rw [hp] at h4
      obtain ⟨rfl, rfl⟩ : g1 = g1' ∧ r1 = r1' := by simpa using h4
      exact .cons h1 h2 (fun s y hh => hk y (h3 s y hh)) h5
        (ih (fun q hq => hl q (by simp [hq])) h6 (fun y hy => hk y ((h9 y).1 hy)) (st' := st') hs)

/-- If the operations succeed, the closures left only links to indices with a back-link entry. -/
theorem perform_in (hS : S.discs.Nodup) {g g' : Graph} {t : Trans} {r' : Lcr} (h : g.Inv S e0) (ht : t.Good S) (hd : g.nodes.Disjoint t.inc)
    (hz : t.NoFromEmpty) (K : NodeIndex → Prop)
    (hK : ∀ y, g.back.Known y ∨ (∃ n, t.inc.get? y = some n) ∨ View.Linked t.inc.get? y ∨ (∃ p ∈ t.redir, y = p.2) → K y)
    (hs : perform S g t = .ok (g', r')) :
    ∃ v1 v2 v3 v4, Redirected t.redir g.get? v1 ∧ Inserted t.inc.get? v1 v2 ∧ AppliedIn K t.muts v2 v3 ∧ AppliedIn K t.upds v3 v4 := by
  simp only [perform] at hs
  cases h1 : redirectLinksVec g t.redir Lcr.new with
  | error e => rw [h1] at hs; exact absurd hs (by simp)
  | ok st1 =>
    obtain ⟨g1, r1⟩ := st1
    rw [h1] at hs
    simp only at hs
    have o1 := redirect_out (L0 := View.L g.get?) h (fun ⟨n, hn⟩ => absurd (List.mem_append_left _ hn) (hz n)) h1
    have hd1 : g1.nodes.Disjoint t.inc := by intro i hi; rw [o1.disp]; exact hd i hi
    obtain ⟨m1, m2, m3, m4, m5, m6⟩ := mergeNodes_spec (r := r1) (L0 := View.L g.get?) hS o1.inv ht.inv hd1 ht.noEmpty ht.wt
    have hk2 : ∀ y, (mergeNodes S g1 t.inc r1).1.back.Known y → K y := by
      intro y hy
      rcases (m5 y).1 hy with hy | hy | hy
      · rcases o1.known' y hy with hy | hy
        · exact hK y (Or.inl hy)
        · exact hK y (Or.inr (Or.inr (Or.inr hy)))
      · exact hK y (Or.inr (Or.inl hy))
      · exact hK y (Or.inr (Or.inr (Or.inl hy)))
    cases h3 : applyClosures modifyNode (mergeNodes S g1 t.inc r1) t.muts with
    | error e => rw [h3] at hs; exact absurd hs (by simp)
    | ok st3 =>
      rw [h3] at hs
      simp only at hs
      have c3 := applyClosures_in (S := S) (Or.inl rfl) t.muts (fun p hp => ht.closures p (List.mem_append_left _ hp)) K m2 hk2 h3
      have o3 := applyClosures_out (S := S) (Or.inl rfl) (View.L g.get?) t.muts (fun p hp => ht.closures p (List.mem_append_left _ hp)) m2 h3
      cases h4 : applyClosures updateNode st3 t.upds with
      | error e => rw [h4] at hs; exact absurd hs (by simp)
      | ok st4 =>
        have c4 := applyClosures_in (S := S) (Or.inr rfl) t.upds (fun p hp => ht.closures p (List.mem_append_right _ hp)) K o3.inv
          (fun y hy => hk2 y ((o3.known y).1 hy)) h4
        refine ⟨g1.get?, _, _, _, o1.redirected, ⟨fun x hx => ?_, fun x n hn => ⟨?_, ?_⟩⟩, c3, c4⟩
        · rw [m1, hx]; rfl
        · by_contra hne
          have := hd1 x fun e => by rw [Arena.get?_of_disp_none e] at hn; exact absurd hn (by simp)
          exact hne (Arena.get?_of_disp_none this)
        · rw [m1, hn]; rfl

omit [SetImpl] in
/-- `check_integrity` looks at all links. -/
theorem checkIntegrity_ok {g : Graph} (hi : g.nodes.Inv S) : checkIntegrity S dbg g = .ok () ↔
    (dbg = true → ∀ x s y, View.Holds g.get? x s y → g.get? y ≠ none) := by
  have inner : ∀ l : List (NodeIndex × Source), foldE (fun _ (p : NodeIndex × Source) =>
      if dbg && (g.get? p.1).isNone then Except.error Panic.integrity else .ok ()) () l = .ok () ↔ (dbg = true → ∀ p ∈ l, g.get? p.1 ≠ none) := by
    intro l
    induction l with
    | nil => simp [foldE]
    | cons p l ih =>
      simp only [foldE]
      by_cases hc : (dbg && (g.get? p.1).isNone) = true
      · rw [if_pos hc]
        simp only [Bool.and_eq_true, Option.isNone_iff_eq_none] at hc
        simp [hc.1, hc.2]
      · rw [if_neg hc]
        simp only [ih]
        cases dbg <;> simp_all
  have outer : ∀ l : List (NodeIndex × Node), foldE (fun _ (e : NodeIndex × Node) =>
      foldE (fun _ (p : NodeIndex × Source) =>
        if dbg && (g.get? p.1).isNone then Except.error Panic.integrity else .ok ()) () e.2.iterSources) () l = .ok () ↔
      (dbg = true → ∀ e ∈ l, ∀ p ∈ e.2.iterSources, g.get? p.1 ≠ none) := by
    intro l
    induction l with
    | nil => simp [foldE]
    | cons e l ih =>
      simp only [foldE]
      cases hc : foldE (fun _ (p : NodeIndex × Source) =>
        if dbg && (g.get? p.1).isNone then Except.error Panic.integrity else .ok ()) () e.2.iterSources with
      | error er =>
        simp only [reduceCtorEq, false_iff]
        intro hall
        have := (inner e.2.iterSources).2 fun hd => (hall hd) e List.mem_cons_self
        rw [hc] at this
        exact absurd this (by simp)
      | ok u =>
        have h1 := (inner e.2.iterSources).1 hc
        simp only [ih, List.forall_mem_cons]
        exact ⟨fun h hd => ⟨h1 hd, h hd⟩, fun h hd => (h hd).2⟩
  unfold checkIntegrity
  rw [outer]
  constructor
  · rintro h hd x s y ⟨n, hn, hh⟩
    exact h hd (x, n) ((Arena.mem_entries hi).2 hn) (y, s) (Node.mem_iterSources.2 hh)
  · rintro h hd ⟨x, n⟩ he ⟨y, s⟩ hp
    exact h hd x s y ⟨n, (Arena.mem_entries hi).1 he, Node.mem_iterSources.1 hp⟩

end Graph
end TTGraph
