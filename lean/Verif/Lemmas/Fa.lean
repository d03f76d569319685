import Verif.Lemmas.Redirect
import Mathlib.Logic.Relation
import Mathlib.Data.List.Perm.Subperm

/-!
The union-find of `redirect_links_vec`.
-/

set_option autoImplicit false

namespace TTGraph
namespace Graph

/-- From `z` the parent pointers lead to the root `x` in `k` steps. -/
inductive PathN (fa : Fa) : NodeIndex → Nat → NodeIndex → Prop
  | root {x : NodeIndex} : fa.get? x = some x → PathN fa x 0 x
  | step {z y x : NodeIndex} {k : Nat} : fa.get? z = some y → y ≠ z → PathN fa y k x → PathN fa z (k + 1) x

theorem PathN.det {fa : Fa} {z x : NodeIndex} {k : Nat} (h : PathN fa z k x) : ∀ {k' x'}, PathN fa z k' x' → k = k' ∧ x = x' := by
  induction h with
  | root h0 =>
    intro k' x' h'
    cases h' with
    | root _ => exact ⟨rfl, rfl⟩
    | step h1 h2 _ => rw [h0] at h1; simp at h1; exact absurd h1.symm h2
  | step h1 h2 h3 ih =>
    intro k' x' h'
    cases h' with
    | root h0 => rw [h0] at h1; simp at h1; exact absurd h1.symm h2
    | step h1' h2' h3' =>
      rw [h1] at h1'; simp at h1'; subst h1'
      obtain ⟨e1, e2⟩ := ih h3'
      exact ⟨by rw [e1], e2⟩

theorem PathN.isRoot {fa : Fa} {z x : NodeIndex} {k : Nat} (h : PathN fa z k x) : fa.get? x = some x := by
  induction h with
  | root h0 => exact h0
  | step _ _ _ ih => exact ih

theorem PathN.key {fa : Fa} {z x : NodeIndex} {k : Nat} (h : PathN fa z k x) : z ∈ fa.keys := by
  cases h with
  | root h0 => exact OrderMap.mem_keys.2 (by simp [h0])
  | step h0 _ _ => exact OrderMap.mem_keys.2 (by simp [h0])

theorem PathN.bound {fa : Fa} {z x : NodeIndex} {k : Nat} (h : PathN fa z k x) : k + 1 ≤ fa.len := by
  have key : ∃ l : List NodeIndex, l.length = k + 1 ∧ l.Nodup ∧ (∀ u ∈ l, u ∈ fa.keys) ∧ ∀ u ∈ l, ∃ i ≤ k, PathN fa u i x := by
    induction h with
    | @root x h0 =>
      refine ⟨[x], rfl, by simp, ?_, ?_⟩
      · intro u hu; simp at hu; subst hu; exact (PathN.root h0).key
      · intro u hu; simp at hu; subst hu; exact ⟨0, Nat.le_refl 0, PathN.root h0⟩
    | @step z y x k h1 h2 h3 ih =>
      obtain ⟨l, l1, l2, l3, l4⟩ := ih
      have hz : PathN fa z (k + 1) x := PathN.step h1 h2 h3
      refine ⟨z :: l, by simp [l1], ?_, ?_, ?_⟩
      · rw [List.nodup_cons]
        refine ⟨?_, l2⟩
        intro hc
        obtain ⟨i, hi, hp⟩ := l4 z hc
        have := (hz.det hp).1
        omega
      · intro u hu
        rcases List.mem_cons.1 hu with rfl | hu
        · exact hz.key
        · exact l3 u hu
      · intro u hu
        rcases List.mem_cons.1 hu with rfl | hu
        · exact ⟨k + 1, Nat.le_refl _, hz⟩
        · obtain ⟨i, hi, hp⟩ := l4 u hu
          exact ⟨i, by omega, hp⟩
  obtain ⟨l, l1, l2, l3, _⟩ := key
  have h2 : l.Subperm fa.keys := List.subperm_of_subset l2 l3
  have := h2.length_le
  rw [l1] at this
  simpa [OrderMap.keys, OrderMap.len] using this

theorem findRoot_ok {fa : Fa} {z x : NodeIndex} {k : Nat} (h : PathN fa z k x) : ∀ {fuel}, k < fuel → findRoot fa fuel z = .ok x := by
  induction h with
  | root h0 =>
    intro fuel hf
    cases fuel with
    | zero => omega
    | succ f => simp [findRoot, h0]
  | step h1 h2 _ ih =>
    intro fuel hf
    cases fuel with
    | zero => omega
    | succ f => simp only [findRoot, h1, h2, if_false]; exact ih (by omega)

theorem chase_ok {fa : Fa} {z x : NodeIndex} {k : Nat} (h : PathN fa z k x) :
    ∀ {fuel y}, k < fuel → fa.get? z = some y → chase fa fuel z y = .ok x := by
  induction h with
  | root h0 =>
    intro fuel y hf hy
    rw [h0] at hy; simp at hy; subst hy
    cases fuel with
    | zero => omega
    | succ f => simp [chase]
  | @step z y' x k h1 h2 h3 ih =>
    intro fuel y hf hy
    rw [h1] at hy; simp at hy; subst hy
    cases fuel with
    | zero => omega
    | succ f =>
      obtain ⟨w, hy'⟩ := OrderMap.mem_keys.1 h3.key
      simp only [chase, Ne.symm h2, if_false, hy']
      exact ih (by omega) hy'

/-- Pointing a node at the root of its tree keeps all roots. -/
theorem PathN.shortcut {fa : Fa} {x y : NodeIndex} {k : Nat} (hx : PathN fa x k y) {u r : NodeIndex} {j : Nat} (h : PathN fa u j r) :
    ∃ j' ≤ j, PathN (fa.insert x y) u j' r := by
  by_cases hxy : x = y
  · subst hxy
    have hr := hx.isRoot
    have he : ∀ z, (fa.insert x x).get? z = fa.get? z := by
      intro z; rw [OrderMap.get?_insert]; split
      · rename_i h; subst h; exact hr.symm
      · rfl
    induction h with
    | root h0 => exact ⟨0, Nat.le_refl 0, PathN.root (by rw [he]; exact h0)⟩
    | step h1 h2 _ ih =>
      obtain ⟨j', hj, hp⟩ := ih
      exact ⟨j' + 1, by omega, PathN.step (by rw [he]; exact h1) h2 hp⟩
  · have hroot : (fa.insert x y).get? y = some y := by
      rw [OrderMap.get?_insert]; simp only [hxy, if_false]; exact hx.isRoot
    induction h with
    | @root r h0 =>
      refine ⟨0, Nat.le_refl 0, PathN.root ?_⟩
      rw [OrderMap.get?_insert]
      split
      · rename_i h; subst h
        have := ((PathN.root h0).det hx).2
        exact absurd this hxy
      · exact h0
    | @step z y' r k' h1 h2 h3 ih =>
      by_cases hz : x = z
      · subst hz
        have := ((PathN.step h1 h2 h3).det hx).2
        subst this
        refine ⟨1, by omega, PathN.step (y := r) ?_ (Ne.symm hxy) (PathN.root hroot)⟩
        rw [OrderMap.get?_insert]; simp
      · obtain ⟨j', hj, hp⟩ := ih
        refine ⟨j' + 1, by omega, PathN.step ?_ h2 hp⟩
        rw [OrderMap.get?_insert]; simp only [hz, if_false]; exact h1

theorem compress_ok {y : NodeIndex} : ∀ {fuel : Nat} {fa : Fa} {x : NodeIndex} {k : Nat}, PathN fa x k y → k < fuel →
    ∃ fa', compress y fuel fa x = .ok fa' ∧ (∀ u j r, PathN fa u j r → ∃ j' ≤ j, PathN fa' u j' r) := by
  intro fuel
  induction fuel with
  | zero => intro fa x k _ h; omega
  | succ f ih =>
    intro fa x k hx hk
    cases hx with
    | root h0 => exact ⟨fa, by simp [compress, h0], fun u j r h => ⟨j, Nat.le_refl j, h⟩⟩
    | @step _ z _ k' h1 h2 h3 =>
      by_cases hz : z = y
      · exact ⟨fa, by simp [compress, h1, hz], fun u j r h => ⟨j, Nat.le_refl j, h⟩⟩
      · obtain ⟨j', hj', hp⟩ := (PathN.step h1 h2 h3).shortcut h3
        obtain ⟨fa', e1, e2⟩ := ih hp (by omega)
        refine ⟨fa', by simp only [compress, h1, hz, if_false]; exact e1, ?_⟩
        intro u j r h
        obtain ⟨j1, hj1, hp1⟩ := (PathN.step h1 h2 h3).shortcut h
        obtain ⟨j2, hj2, hp2⟩ := e2 u j1 r hp1
        exact ⟨j2, by omega, hp2⟩

/-- `b` is reached from `a` by following requests. -/
def Reach (reps : List (NodeIndex × NodeIndex)) : NodeIndex → NodeIndex → Prop :=
  Relation.ReflTransGen (fun a b => (a, b) ∈ reps)

theorem Reach.mono {r1 r2 : List (NodeIndex × NodeIndex)} (hs : ∀ p ∈ r1, p ∈ r2) {a b : NodeIndex} (h : Reach r1 a b) :
    Reach r2 a b := by
  induction h with
  | refl => exact Relation.ReflTransGen.refl
  | tail _ hp ih => exact Relation.ReflTransGen.tail ih (hs _ hp)

/-- State of the second loop after the requests `Q`, started on the keys `K`. -/
structure FaInv (K : NodeIndex → Prop) (Q : List (NodeIndex × NodeIndex)) (fa : Fa) : Prop where
  keys : ∀ u, u ∈ fa.keys ↔ K u
  total : ∀ u, K u → ∃ k r, PathN fa u k r
  roots : ∀ u, fa.get? u = some u → ∀ n, (u, n) ∉ Q
  ptr : ∀ u v, fa.get? u = some v → Reach Q u v

theorem FaInv.reach {K : NodeIndex → Prop} {Q : List (NodeIndex × NodeIndex)} {fa : Fa} (h : FaInv K Q fa) {u r : NodeIndex} {k : Nat}
    (hp : PathN fa u k r) : Reach Q u r := by
  induction hp with
  | root _ => exact Relation.ReflTransGen.refl
  | step h1 _ _ ih => exact Relation.ReflTransGen.trans (h.ptr _ _ h1) ih

theorem faInit_spec (reps : List (NodeIndex × NodeIndex)) :
    FaInv (fun u => ∃ p ∈ reps, u = p.1 ∨ u = p.2) [] (faInit reps) := by
  have key : ∀ (l : List (NodeIndex × NodeIndex)) (fa : Fa), (∀ u v, fa.get? u = some v → v = u) →
      (∀ u v, (l.foldl (fun fa p => (fa.orInsert p.1 p.1).orInsert p.2 p.2) fa).get? u = some v → v = u) ∧
      (∀ u, (l.foldl (fun fa p => (fa.orInsert p.1 p.1).orInsert p.2 p.2) fa).get? u ≠ none ↔
        fa.get? u ≠ none ∨ ∃ p ∈ l, u = p.1 ∨ u = p.2) := by
    intro l
    induction l with
    | nil => intro fa h; exact ⟨h, by simp⟩
    | cons p l ih =>
      intro fa h
      have hg : ∀ u, ((fa.orInsert p.1 p.1).orInsert p.2 p.2).get? u ≠ none ↔ fa.get? u ≠ none ∨ u = p.1 ∨ u = p.2 := by
        intro u
        simp only [OrderMap.get?_orInsert]
        by_cases h1 : p.2 = u
        · subst h1; simp
        · by_cases h2 : p.1 = u
          · subst h2; simp [h1]
          · simp [h1, h2, Ne.symm h1, Ne.symm h2]
      have hv : ∀ u v, ((fa.orInsert p.1 p.1).orInsert p.2 p.2).get? u = some v → v = u := by
        have h1 : ∀ u v, (fa.orInsert p.1 p.1).get? u = some v → v = u := by
          intro u v
          simp only [OrderMap.get?_orInsert]
          split
          · rename_i hu; subst hu
            cases hf : fa.get? p.1 with
            | none => simp; exact fun hh => hh.symm
            | some w => simp; intro hh; subst hh; exact h _ _ hf
          · exact h u v
        intro u v
        rw [OrderMap.get?_orInsert]
        split
        · rename_i hu; subst hu
          cases hf : (fa.orInsert p.1 p.1).get? p.2 with
          | none => simp; exact fun hh => hh.symm
          | some w => simp; intro hh; subst hh; exact h1 _ _ hf
        · exact h1 u v
      obtain ⟨i1, i2⟩ := ih _ hv
      refine ⟨i1, ?_⟩
      intro u
      simp only [List.foldl_cons]
      rw [i2, hg]
      simp only [List.mem_cons, exists_eq_or_imp]
      exact or_assoc
  obtain ⟨k1, k2⟩ := key reps OrderMap.empty (by simp)
  have hkeys : ∀ u, u ∈ (faInit reps).keys ↔ ∃ p ∈ reps, u = p.1 ∨ u = p.2 := by
    intro u
    rw [OrderMap.mem_keys, ← Option.ne_none_iff_exists']
    refine (k2 u).trans ?_
    simp
  have hroot : ∀ u, u ∈ (faInit reps).keys → (faInit reps).get? u = some u := by
    intro u hu
    obtain ⟨v, hg⟩ := OrderMap.mem_keys.1 hu
    rw [hg, k1 u v hg]
  refine ⟨hkeys, ?_, ?_, ?_⟩
  · intro u hu
    exact ⟨0, u, PathN.root (hroot u ((hkeys u).2 hu))⟩
  · intro u _ n hn; simp at hn
  · intro u v h
    rw [k1 u v h]; exact Relation.ReflTransGen.refl

/-- Second loop: redirecting the tree pointer of `old` to the root `x ≠ old`. -/
theorem FaInv.step {K : NodeIndex → Prop} {Q : List (NodeIndex × NodeIndex)} {fa : Fa} (h : FaInv K Q fa) {old new x : NodeIndex} {k : Nat}
    (ho : K old) (hx : PathN fa new k x) (hne : x ≠ old) : FaInv K (Q ++ [(old, new)]) (fa.insert old x) := by
  have hget : ∀ z, (fa.insert old x).get? z = if old = z then some x else fa.get? z := fun z => OrderMap.get?_insert _ _ z _
  have hsub : ∀ p ∈ Q, p ∈ Q ++ [(old, new)] := fun p hp => by simp [hp]
  have hxr : PathN (fa.insert old x) x 0 x := PathN.root (by rw [hget]; simp only [Ne.symm hne, if_false]; exact hx.isRoot)
  have hoR : PathN (fa.insert old x) old 1 x := PathN.step (by rw [hget]; simp) hne hxr
  have hpath : ∀ u j r, PathN fa u j r → ∃ j' r', PathN (fa.insert old x) u j' r' := by
    intro u j r hp
    induction hp with
    | @root r h0 =>
      by_cases hc : old = r
      · subst hc; exact ⟨1, x, hoR⟩
      · exact ⟨0, r, PathN.root (by rw [hget]; simp only [hc, if_false]; exact h0)⟩
    | @step z y r k h1 h2 h3 ih =>
      by_cases hc : old = z
      · subst hc; exact ⟨1, x, hoR⟩
      · obtain ⟨j', r', hp'⟩ := ih
        exact ⟨j' + 1, r', PathN.step (by rw [hget]; simp only [hc, if_false]; exact h1) h2 hp'⟩
  refine ⟨?_, ?_, ?_, ?_⟩
  · intro u
    rw [OrderMap.mem_keys, ← h.keys, OrderMap.mem_keys, hget]
    split
    · rename_i hc; subst hc
      have := OrderMap.mem_keys.1 ((h.keys old).2 ho)
      simp only [this, iff_true]
      exact ⟨x, rfl⟩
    · rfl
  · intro u hu
    obtain ⟨j, r, hp⟩ := h.total u hu
    exact hpath u j r hp
  · intro u hu n hn
    rw [hget] at hu
    split at hu
    · rename_i hc; subst hc; simp at hu; exact hne hu
    · rename_i hc
      rcases List.mem_append.1 hn with hn | hn
      · exact h.roots u hu n hn
      · simp at hn; exact hc hn.1.symm
  · intro u v hv
    rw [hget] at hv
    split at hv
    · rename_i hc; subst hc
      simp at hv; subst hv
      exact Relation.ReflTransGen.head (by simp) ((h.reach hx).mono hsub)
    · exact (h.ptr u v hv).mono hsub

/-- The keys of the union-find. -/
def Mentioned (reps : List (NodeIndex × NodeIndex)) (u : NodeIndex) : Prop := ∃ p ∈ reps, u = p.1 ∨ u = p.2

theorem faStep_cases {K : NodeIndex → Prop} {Q : List (NodeIndex × NodeIndex)} {fa : Fa} (h : FaInv K Q fa) {p : NodeIndex × NodeIndex}
    (ho : K p.1) (hn : K p.2) :
    ∃ x, Reach Q p.2 x ∧ ((x = p.1 ∧ faStep fa p = .error .redirectLoop) ∨
      (x ≠ p.1 ∧ ∃ fa', faStep fa p = .ok fa' ∧ FaInv K (Q ++ [p]) fa')) := by
  obtain ⟨k, x, hp⟩ := h.total p.2 hn
  have hb := hp.bound
  have hf : findRoot fa (fa.len + 1) p.2 = .ok x := findRoot_ok hp (by omega)
  refine ⟨x, h.reach hp, ?_⟩
  by_cases hx : x = p.1
  · exact Or.inl ⟨hx, by simp only [faStep, hf, hx, if_true]⟩
  · exact Or.inr ⟨hx, _, by simp only [faStep, hf, hx, if_false], h.step ho hp hx⟩

/-- Some node is redirected, over any number of requests, to itself. -/
def Cyclic (reps : List (NodeIndex × NodeIndex)) : Prop := ∃ u, Relation.TransGen (fun a b => (a, b) ∈ reps) u u

theorem faPass {reps : List (NodeIndex × NodeIndex)} :
    (∃ fa, foldE faStep (faInit reps) reps = .ok fa ∧ FaInv (Mentioned reps) reps fa) ∨
    (foldE faStep (faInit reps) reps = .error .redirectLoop ∧ Cyclic reps) := by
  suffices ∀ post pre fa, reps = pre ++ post → FaInv (Mentioned reps) pre fa →
      (∃ fa', foldE faStep fa post = .ok fa' ∧ FaInv (Mentioned reps) reps fa') ∨
      (foldE faStep fa post = .error .redirectLoop ∧ Cyclic reps) from this reps [] _ rfl (faInit_spec reps)
  intro post
  induction post with
  | nil =>
    intro pre fa he h
    simp only [List.append_nil] at he
    subst he
    exact Or.inl ⟨fa, rfl, h⟩
  | cons p post ih =>
    intro pre fa he h
    have hpm : p ∈ reps := by rw [he]; simp
    obtain ⟨x, hr, hc⟩ := faStep_cases h (p := p) ⟨p, hpm, Or.inl rfl⟩ ⟨p, hpm, Or.inr rfl⟩
    rcases hc with ⟨hx, hs⟩ | ⟨hx, fa', hs, hi⟩
    · refine Or.inr ⟨by simp only [foldE, hs], p.1, ?_⟩
      subst hx
      have : Reach reps p.2 p.1 := hr.mono (by intro q hq; rw [he]; simp [hq])
      exact Relation.TransGen.head' hpm this
    · have := ih (pre ++ [p]) fa' (by rw [he]; simp) hi
      simp only [foldE, hs]
      exact this

/-- If every node is redirected at most once, loop detection is exact. -/
theorem not_cyclic_of_faInv {K : NodeIndex → Prop} {reps : List (NodeIndex × NodeIndex)} {fa : Fa} (h : FaInv K reps fa)
    (hK : ∀ p ∈ reps, K p.1) (hf : (reps.map Prod.fst).Nodup) : ¬ Cyclic reps := by
  have huniq : ∀ a b c, (a, b) ∈ reps → (a, c) ∈ reps → b = c := by
    intro a b c hb hc
    by_contra hbc
    have := List.inj_on_of_nodup_map hf hb hc rfl
    simp at this; exact hbc this
  rintro ⟨u, hu⟩
  have hstart : ∃ n, (u, n) ∈ reps ∧ Reach reps n u := by
    rcases Relation.TransGen.head'_iff.1 hu with ⟨n, h1, h2⟩
    exact ⟨n, h1, h2⟩
  have huK : K u := by
    obtain ⟨n, hn, _⟩ := hstart
    exact hK _ hn
  obtain ⟨k, r, hp⟩ := h.total u huK
  have hr := h.reach hp
  have hroot := h.roots r hp.isRoot
  -- walking from u along requests stays on the cycle
  have hwalk : ∀ w, Reach reps u w → Relation.TransGen (fun a b => (a, b) ∈ reps) w w := by
    intro w hw
    induction hw with
    | refl => exact hu
    | @tail b c _ hbc ih =>
      obtain ⟨n, hn, hnb⟩ := Relation.TransGen.head'_iff.1 ih
      have := huniq b n c hn hbc
      subst this
      exact Relation.TransGen.tail' hnb hbc
  obtain ⟨n, hn, _⟩ := Relation.TransGen.head'_iff.1 (hwalk r hr)
  exact hroot n hn

end Graph
end TTGraph
