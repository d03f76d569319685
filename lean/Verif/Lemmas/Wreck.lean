import Verif.Spec.Wreck
import Verif.Lemmas.Left

/-!
# The graph that is left by a commit that stops in the middle of a closure
-/

set_option autoImplicit false

namespace TTGraph
namespace Graph
open Spec
variable {S : Schema} {e0 : Prop}

/-- The step and what is left of it. -/
def stepOf : Loop2 → Graph → NodeIndex → Closure → Lcr → Except Panic (Graph × Lcr)
  | .mutating => modifyNode
  | .updating => updateNode

def midOf (left : Node → Node) : Loop2 → Graph → NodeIndex → Closure → Option Graph
  | .mutating => modifyLeft left
  | .updating => updateLeft

theorem stepOf_isStep (k : Loop2) : IsStep (stepOf k) := by
  cases k
  · exact Or.inl rfl
  · exact Or.inr rfl

/-- The links up to the first unknown index are recorded. -/
theorem relinkLeft_spec (x : NodeIndex) (srcs : List (NodeIndex × Source)) (b : Back) (hu : ∃ p ∈ srcs, ¬ b.Known p.1) :
    ∃ pre q post, srcs = pre ++ q :: post ∧ (∀ p ∈ pre, b.Known p.1) ∧ ¬ b.Known q.1 ∧
      (∀ y e, (relinkLeft x b srcs).Rec y e ↔ b.Rec y e ∨ (e.1 = x ∧ (y, e.2) ∈ pre)) ∧ ∀ y, (relinkLeft x b srcs).Known y ↔ b.Known y := by
  induction srcs generalizing b with
  | nil => simp at hu
  | cons p srcs ih =>
    by_cases hp : b.Known p.1
    · obtain ⟨b1, h1, h2, h3⟩ := Back.linkKnown_ok hp (x, p.2)
      obtain ⟨q, hq, hnq⟩ := hu
      have hq' : q ∈ srcs := by
        rcases List.mem_cons.1 hq with rfl | hq
        · exact absurd hp hnq
        · exact hq
      obtain ⟨pre, q, post, e, k1, k2, k3, k4⟩ := ih b1 ⟨q, hq', fun hc => hnq ((h3 _).1 hc)⟩
      have hr : relinkLeft x b (p :: srcs) = relinkLeft x b1 srcs := by simp only [relinkLeft, stopped, h1]
      refine ⟨p :: pre, q, post, by rw [e]; rfl, ?_, fun hc => k2 ((h3 _).2 hc), ?_, ?_⟩
      · intro a ha
        rcases List.mem_cons.1 ha with rfl | ha
        · exact hp
        · exact (h3 _).1 (k1 a ha)
      · intro y e
        rw [hr, k3, h2]
        constructor
        · rintro ((h | ⟨rfl, rfl⟩) | ⟨h, h'⟩)
          · exact Or.inl h
          · exact Or.inr ⟨rfl, by simp⟩
          · exact Or.inr ⟨h, by simp [h']⟩
        · rintro (h | ⟨h, h'⟩)
          · exact Or.inl (Or.inl h)
          · rcases List.mem_cons.1 h' with h' | h'
            · refine Or.inl (Or.inr ⟨?_, ?_⟩)
              · rw [← h']
              · rw [← h', ← h]
            · exact Or.inr ⟨h, h'⟩
      · intro y; rw [hr, k4, h3]
    · have hr : relinkLeft x b (p :: srcs) = b := by simp only [relinkLeft, stopped, Back.linkKnown_none hp]
      exact ⟨[], p, srcs, rfl, by simp, hp, by simp [hr], by simp [hr]⟩

/-- The graph in the middle of a closure. -/
theorem midOf_spec (k : Loop2) (left : Node → Node) {g : Graph} {x : NodeIndex} {n : Node} {f : Closure} (h : g.Inv S e0) (hn : g.get? x = some n)
    (hf : (∃ e, f n = .error e) ∨ ∃ n', f n = .ok n' ∧ ∃ s y, n'.Holds s y ∧ ¬ g.back.Known y) :
    ∃ g', midOf left k g x f = some g' ∧ g'.ctxId = g.ctxId ∧ (∀ j, j ≠ x → g'.get? j = g.get? j) ∧
      (∀ y z s, z ≠ x → (g'.back.Rec y (z, s) ↔ g.back.Rec y (z, s))) ∧ (∀ y, g'.back.Known y ↔ g.back.Known y) ∧
      ((∃ e, f n = .error e ∧ g'.get? x = Torn left n k ∧ ∀ y s, (y ≠ emptyIdx ∨ e0) → ¬ g'.back.Rec y (x, s)) ∨
       ∃ n' pre q post, f n = .ok n' ∧ g'.get? x = some n' ∧ n'.iterSources = pre ++ q :: post ∧ (∀ p ∈ pre, g.back.Known p.1) ∧
         ¬ g.back.Known q.1 ∧ ∀ y s, (y ≠ emptyIdx ∨ e0) → (g'.back.Rec y (x, s) ↔ (y, s) ∈ pre)) := by
  obtain ⟨b1, u1, u2, u3⟩ := removeBackLinks_spec x n.iterSources g.back (by
    rintro ⟨y, s⟩ hp
    exact (h.recd x s y ⟨n, hn, Node.mem_iterSources.1 hp⟩).known)
  have hown : ∀ y s, (y ≠ emptyIdx ∨ e0) → ¬ b1.Rec y (x, s) := by
    intro y s hy hc
    obtain ⟨hc1, hc2⟩ := (u2 y (x, s)).1 hc
    obtain ⟨m, hm, hh⟩ := h.exact x s y hy hc1
    rw [hn] at hm
    obtain rfl := Option.some.inj hm
    exact hc2 ⟨rfl, Node.mem_iterSources.2 hh⟩
  have hoth : ∀ y z s, z ≠ x → (b1.Rec y (z, s) ↔ g.back.Rec y (z, s)) := by
    intro y z s hz
    rw [u2]
    exact ⟨And.left, fun h => ⟨h, fun hc => hz hc.1⟩⟩
  obtain ⟨d, hd, hc⟩ := Arena.get?_eq_some.1 (show g.nodes.get? x = some n from hn)
  have hn' : g.nodes.get? x = some n := hn
  rcases hf with ⟨e, hf⟩ | ⟨n', hf, s, y, hh, hk⟩
  · cases k with
    | mutating =>
      obtain ⟨a', m1, m2, _⟩ := Arena.modifyAt_ok (S := S) (β := Unit) (f := fun n => .ok (left n, ())) (n' := left n) (r := ()) hn' rfl
      refine ⟨{ g with nodes := a', back := b1 }, ?_, rfl, ?_, hoth, u3, Or.inl ⟨e, hf, ?_, hown⟩⟩
      · simp only [midOf, modifyLeft, hn', u1, hf, m1]
      · intro j hj
        exact (m2 j).trans (if_neg (Ne.symm hj))
      · exact (m2 x).trans (if_pos rfl)
    | updating =>
      have hcc : ∀ j, ((g.nodes.cont d).swapRemove x).get? j = if x = j then none else (g.nodes.cont d).get? j := fun j => OrderMap.get?_swapRemove _ _ _
      refine ⟨{ g with nodes := g.nodes.setCont d ((g.nodes.cont d).swapRemove x), back := b1 }, ?_, rfl, ?_, hoth, u3, Or.inl ⟨e, hf, ?_, hown⟩⟩
      · simp only [midOf, updateLeft, hd, hn', u1, hf]
      · intro j hj
        show ((g.nodes.disp.get? j).bind fun d' => (if d' = d then (g.nodes.cont d).swapRemove x else g.nodes.cont d').get? j) = g.nodes.get? j
        rw [Arena.get?]
        congr 1
        funext d'
        by_cases hd' : d' = d
        · rw [if_pos hd', hcc, if_neg (Ne.symm hj), hd']
        · rw [if_neg hd']
      · show ((g.nodes.disp.get? x).bind fun d' => (if d' = d then (g.nodes.cont d).swapRemove x else g.nodes.cont d').get? x) = none
        rw [hd, Option.bind_some, if_pos rfl, hcc, if_pos rfl]
  · obtain ⟨pre, q, post, k1, k2, k3, k4, k5⟩ := relinkLeft_spec x n'.iterSources b1 ⟨(y, s), Node.mem_iterSources.2 hh, fun hc => hk ((u3 y).1 hc)⟩
    have hoth' : ∀ y z s, z ≠ x → ((relinkLeft x b1 n'.iterSources).Rec y (z, s) ↔ g.back.Rec y (z, s)) := by
      intro y z s hz
      rw [k4, hoth y z s hz]
      exact ⟨fun h => h.elim id fun hc => absurd hc.1 hz, Or.inl⟩
    have hown' : ∀ y s, (y ≠ emptyIdx ∨ e0) → ((relinkLeft x b1 n'.iterSources).Rec y (x, s) ↔ (y, s) ∈ pre) := by
      intro y s hy
      rw [k4]
      exact ⟨fun h => h.elim (fun hc => absurd hc (hown y s hy)) And.right, fun h => Or.inr ⟨rfl, h⟩⟩
    have hkn : ∀ y, (relinkLeft x b1 n'.iterSources).Known y ↔ g.back.Known y := fun y => (k5 y).trans (u3 y)
    have hpre : ∀ p ∈ pre, g.back.Known p.1 := fun p hp => (u3 _).1 (k2 p hp)
    have hq : ¬ g.back.Known q.1 := fun hc => k3 ((u3 _).2 hc)
    cases k with
    | mutating =>
      obtain ⟨a', m1, m2, _⟩ := Arena.modifyAt_ok (S := S) (β := Unit) (f := fun _ => .ok (n', ())) (n' := n') (r := ()) hn' rfl
      refine ⟨{ g with nodes := a', back := relinkLeft x b1 n'.iterSources }, ?_, rfl, ?_, hoth', hkn, Or.inr ⟨n', pre, q, post, hf, ?_, k1, hpre, hq, hown'⟩⟩
      · simp only [midOf, modifyLeft, hn', u1, hf, m1]
      · intro j hj
        exact (m2 j).trans (if_neg (Ne.symm hj))
      · exact (m2 x).trans (if_pos rfl)
    | updating =>
      have hcc : ∀ j, (((g.nodes.cont d).swapRemove x).insert x n').get? j = if x = j then some n' else (g.nodes.cont d).get? j := by
        intro j
        rw [OrderMap.get?_insert, OrderMap.get?_swapRemove]
        split <;> rfl
      refine ⟨{ g with nodes := g.nodes.setCont d (((g.nodes.cont d).swapRemove x).insert x n'), back := relinkLeft x b1 n'.iterSources }, ?_, rfl, ?_, hoth',
        hkn, Or.inr ⟨n', pre, q, post, hf, ?_, k1, hpre, hq, hown'⟩⟩
      · simp only [midOf, updateLeft, hd, hn', u1, hf]
      · intro j hj
        exact (Arena.setCont_get? hd hcc j).trans (if_neg (Ne.symm hj))
      · exact (Arena.setCont_get? hd hcc x).trans (if_pos rfl)

/-- Where the loop over closures stops. -/
theorem closuresLeft_mid (k : Loop2) (left : Node → Node) (l : List (NodeIndex × Closure)) (hl : ∀ p ∈ l, Closure.Typed S p.2) :
    ∀ {st : Graph × Lcr}, st.1.Inv S e0 → closuresLeft (stepOf k) (fun _ _ _ => none) st l = none →
      ∃ pre p post st3 n, l = pre ++ p :: post ∧ applyClosures (stepOf k) st pre = .ok st3 ∧ st3.1.get? p.1 = some n ∧
        closuresLeft (stepOf k) (midOf left k) st l = midOf left k st3.1 p.1 p.2 ∧
        ((∃ e, p.2 n = .error e) ∨ ∃ n', p.2 n = .ok n' ∧ ∃ s y, n'.Holds s y ∧ ¬ st3.1.back.Known y) := by
  induction l with
  | nil => intro st _ hs; exact absurd hs (by simp [closuresLeft])
  | cons p l ih =>
    intro st h hs
    simp only [closuresLeft] at hs
    cases hp : stepOf k st.1 p.1 p.2 st.2 with
    | error e =>
      rw [hp] at hs
      simp only at hs
      split at hs
      · exact absurd hs (by simp)
      · rename_i hn
        have hn0 := hn
        simp only [Option.isNone_iff_eq_none] at hn
        obtain ⟨n, hn⟩ := Option.ne_none_iff_exists'.1 hn
        refine ⟨[], p, l, st, n, rfl, rfl, hn, ?_, ?_⟩
        · simp only [closuresLeft, hp]
          rw [if_neg hn0]
        cases hf : p.2 n with
        | error e => exact Or.inl ⟨e, rfl⟩
        | ok n' =>
          refine Or.inr ⟨n', rfl, ?_⟩
          by_contra hc
          obtain ⟨g', r', h4, _⟩ := step_ok (r := st.2) (stepOf_isStep k) h hn hf (hl p (by simp) n n' (h.wt _ _ hn) hf)
            (fun s y hy => by by_contra e; exact hc ⟨s, y, hy, e⟩) (fun _ => True)
          rw [hp] at h4
          exact absurd h4 (by simp)
    | ok st1 =>
      rw [hp] at hs
      have h1 := step_partway (C := False) (D := fun _ => False) (M := fun _ => True) (stepOf_isStep k) (hl p (by simp)) (fun hc => absurd hc id) trivial h hp
      obtain ⟨pre, q, post, st3, n, e, h2, h3, h4, h5⟩ := ih (fun q hq => hl q (by simp [hq])) h1.inv hs
      refine ⟨p :: pre, q, post, st3, n, by rw [e]; rfl, ?_, h3, ?_, h5⟩
      · simp only [applyClosures, foldE, hp]
        exact h2
      · simp only [closuresLeft, hp]
        exact h4

end Graph
end TTGraph
