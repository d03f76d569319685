import Verif.Lemmas.Spared
import Verif.Lemmas.Calm
import Verif.Props.Exact

/-!
# Committing several independent transactions one after the other
-/

set_option autoImplicit false

namespace TTGraph
open Spec

theorem Spec.SameAt.of_on {v w : View} {F : NodeIndex → Prop} (h : View.Same (v.on F) (w.on F)) {x : NodeIndex} (hx : F x) : SameAt v w x :=
  View.same_on.1 h x hx

theorem Spec.SameAt.refl (v : View) (x : NodeIndex) : SameAt v v x :=
  View.same_on.1 (View.Same.refl (v.on fun _ => True)) x trivial

theorem Spec.SameAt.trans {u v w : View} {x : NodeIndex} (h : SameAt u v x) (h' : SameAt v w x) : SameAt u w x := by
  have h1 : View.Same (u.on (· = x)) (v.on (· = x)) := View.same_on.2 fun y hy => hy ▸ h
  have h2 : View.Same (v.on (· = x)) (w.on (· = x)) := View.same_on.2 fun y hy => hy ▸ h'
  exact .of_on (h1.trans h2) rfl

theorem Spec.SameAt.symm {v w : View} {x : NodeIndex} (h : SameAt v w x) : SameAt w v x := by
  have h1 : View.Same (v.on (· = x)) (w.on (· = x)) := View.same_on.2 fun y hy => hy ▸ h
  exact .of_on h1.symm rfl

theorem Spec.SameAt.holds {v w : View} {x : NodeIndex} (h : SameAt v w x) (s : Source) (y : NodeIndex) : w.Holds x s y ↔ v.Holds x s y := by
  have h1 : View.Same (v.on (· = x)) (w.on (· = x)) := View.same_on.2 fun y hy => hy ▸ h
  exact h1.holds_on (x := x) rfl s y

/-- What the view `u` is after the transactions in `done` have been committed. -/
structure Spec.Midway (v : View) (done : List Nat) (v' : Nat → View) (F : Nat → NodeIndex → Prop) (u : View) : Prop where
  past : ∀ k ∈ done, ∀ x, F k x → SameAt (v' k) u x
  rest : ∀ x, (∀ k ∈ done, ¬ F k x) → SameAt v u x

section
variable [SetImpl] {S : Schema}

omit [SetImpl] in
/-- At a midway point no node outside of `F k` links to a node that `t k` redirects or removes. -/
theorem Spec.Separate.quiet {v u : View} {done todo : List Nat} {t : Nat → Trans} {v' : Nat → View} {F : Nat → NodeIndex → Prop} {k : Nat}
    (h : Separate S v (done ++ k :: todo) t v' F) (hk : k ∉ done) (hm : Midway v done v' F u) :
    View.Same (v.on (F k)) (u.on (F k)) ∧ ∀ x s y, ¬ F k x → u.Holds x s y → ¬ Displaces (t k).pending y := by
  have hkm : k ∈ done ++ k :: todo := by simp
  constructor
  · refine View.same_on.2 fun x hx => hm.rest x fun j hj hc => h.apart j (by simp [hj]) k hkm ?_ x hc hx
    rintro rfl
    exact hk hj
  · intro x s y hx hs
    by_cases hd : ∃ j ∈ done, F j x
    · obtain ⟨j, hj, hjx⟩ := hd
      refine h.clear j (by simp [hj]) k hkm ?_ x s y hjx (((hm.past j hj x hjx).holds s y).1 hs)
      rintro rfl
      exact hk hj
    · intro hdis
      exact hx ((h.own k hkm).holders x s y (((hm.rest x fun j hj hc => hd ⟨j, hj, hc⟩).holds s y).1 hs) hdis)

omit [SetImpl] in
/-- One more commit. -/
theorem Spec.Separate.step {v u u' : View} {done todo : List Nat} {t : Nat → Trans} {v' : Nat → View} {F : Nat → NodeIndex → Prop} {k : Nat}
    (h : Separate S v (done ++ k :: todo) t v' F) (hk : k ∉ done) (hm : Midway v done v' F u)
    (hreg : Regular (t k).pending) (hc : Committed S (t k) v (v' k)) (hc' : Committed S (t k) u u') :
    Midway v (done ++ [k]) v' F u' := by
  have hkm : k ∈ done ++ k :: todo := by simp
  obtain ⟨q1, q2⟩ := h.quiet hk hm
  obtain ⟨o1, o2⟩ := (h.own k hkm).committed_same hreg hc q1 q2 hc'
  constructor
  · intro j hj x hx
    rcases List.mem_append.1 hj with hj | hj
    · refine (hm.past j hj x hx).trans (.of_on o2 fun hc => h.apart j (by simp [hj]) k hkm ?_ x hx hc)
      rintro rfl
      exact hk ‹_›
    · obtain rfl : j = k := by simpa using hj
      exact .of_on o1 hx
  · intro x hx
    exact (hm.rest x fun j hj => hx j (by simp [hj])).trans (.of_on o2 (hx k (by simp)))

omit [SetImpl] in
/-- If no field holds a node twice on the way when the transactions are committed alone, none does when `t k` is committed after others. -/
theorem Spec.Separate.steady {v u v6 : View} {done todo : List Nat} {t : Nat → Trans} {v' : Nat → View} {F : Nat → NodeIndex → Prop} {k : Nat}
    (h : Separate S v (done ++ k :: todo) t v' F) (hk : k ∉ done) (hm : Midway v done v' F u) (hreg : Regular (t k).pending)
    (hp : Performed (t k) v v6) (hc : ∀ j ∈ done, Committed S (t j) v (v' j)) {x : NodeIndex} {m : Mirror} {y : NodeIndex}
    (hst : ∀ j ∈ done ++ [k], Steady S (t j) v x m y) : Steady S (t k) u x m y := by
  obtain ⟨q1, q2⟩ := h.quiet hk hm
  refine (h.own k (by simp)).ops.steady hp hreg q1 q2 (hst k (by simp)) fun _ hv a b ha hb => ?_
  by_cases hd : ∃ j ∈ done, F j x
  · obtain ⟨j, hj, hjx⟩ := hd
    exact (hst j (by simp [hj])).after (hc j hj) hv a b (((hm.past j hj x hjx).holds _ y).1 ha) (((hm.past j hj x hjx).holds _ y).1 hb)
  · have hr := hm.rest x fun j hj hc => hd ⟨j, hj, hc⟩
    exact (hst k (by simp)).resolve_left (fun hn => hn hv) v (.inl rfl) a b ((hr.holds _ y).1 ha) ((hr.holds _ y).1 hb)

omit [SetImpl] in
theorem Spec.Separate.steadyBidir {v u v6 : View} {done todo : List Nat} {t : Nat → Trans} {v' : Nat → View} {F : Nat → NodeIndex → Prop} {k : Nat}
    (h : Separate S v (done ++ k :: todo) t v' F) (hk : k ∉ done) (hm : Midway v done v' F u) (hreg : Regular (t k).pending)
    (hp : Performed (t k) v v6) (hc : ∀ j ∈ done, Committed S (t j) v (v' j)) (hst : ∀ j ∈ done ++ [k], SteadyBidir S (t j) v) :
    SteadyBidir S (t k) u := fun x m y m' ho => h.steady hk hm hreg hp hc fun j hj => hst j hj x m y m' ho

omit [SetImpl] in
theorem Spec.Separate.steadyAnnos {v u v6 : View} {done todo : List Nat} {t : Nat → Trans} {v' : Nat → View} {F : Nat → NodeIndex → Prop} {k : Nat}
    (h : Separate S v (done ++ k :: todo) t v' F) (hk : k ∉ done) (hm : Midway v done v' F u) (hreg : Regular (t k).pending)
    (hp : Performed (t k) v v6) (hc : ∀ j ∈ done, Committed S (t j) v (v' j)) (hst : ∀ j ∈ done ++ [k], SteadyAnnos S (t j) v) :
    SteadyAnnos S (t k) u := by
  intro x m y
  by_cases ha : ∀ d, AllAccept S m d
  · exact .inr ha
  · exact .inl (h.steady hk hm hreg hp hc fun j hj => (hst j hj x m y).resolve_right ha)

omit [SetImpl] in
/-- Two transactions that concern different nodes are separate. -/
theorem Spec.Independent.separate {v v1 v2 : View} {t1 t2 : Trans} (h : Independent S v t1 t2 v1 v2) :
    ∃ F : Nat → NodeIndex → Prop, Separate S v ([0] ++ 1 :: []) (fun k => if k = 0 then t1 else t2) (fun k => if k = 0 then v1 else v2) F := by
  obtain ⟨F1, F2, f1, f2, hd, k1, k2⟩ := h
  refine ⟨fun k => if k = 0 then F1 else F2, ?_, ?_, ?_⟩
  · intro k hk
    rcases (by simpa using hk : k = 0 ∨ k = 1) with rfl | rfl
    · exact f1
    · exact f2
  · intro k hk l hl hne x hx
    rcases (by simpa using hk : k = 0 ∨ k = 1) with rfl | rfl <;> rcases (by simpa using hl : l = 0 ∨ l = 1) with rfl | rfl
    · exact absurd rfl hne
    · exact hd x hx
    · exact fun hc => hd x hc hx
    · exact absurd rfl hne
  · intro k hk l hl hne
    rcases (by simpa using hk : k = 0 ∨ k = 1) with rfl | rfl <;> rcases (by simpa using hl : l = 0 ∨ l = 1) with rfl | rfl
    · exact absurd rfl hne
    · exact k1
    · exact k2
    · exact absurd rfl hne

omit [SetImpl] in
/-- If no bidirectional field holds a node twice on the way when each of two independent transactions is committed alone, none does when
the second one is committed after the first one.  The same for annotated fields. -/
theorem Spec.Independent.steady {v v1 v2 : View} {t1 t2 : Trans} (h : Independent S v t1 t2 v1 v2) (hr2 : Regular t2.pending)
    (h1 : Committed S t1 v v1) (h2 : Committed S t2 v v2) (hst1 : SteadyBidir S t1 v) (hst2 : SteadyBidir S t2 v) :
    SteadyBidir S t2 v1 ∧ (SteadyAnnos S t1 v → SteadyAnnos S t2 v → SteadyAnnos S t2 v1) := by
  obtain ⟨F, hsep⟩ := h.separate
  have hF : Footprint S t1 v (F 0) := hsep.own 0 (by simp)
  have hm : Midway v [0] (fun k => if k = 0 then v1 else v2) F v1 := by
    constructor
    · intro k hk x _
      obtain rfl := List.mem_singleton.1 hk
      exact .refl v1 x
    · intro x hx
      exact .of_on (hF.committed h1).2 (hx 0 (by simp))
  have hc : ∀ j ∈ [0], Committed S ((fun k => if k = 0 then t1 else t2) j) v ((fun k => if k = 0 then v1 else v2) j) := by
    intro j hj
    obtain rfl := List.mem_singleton.1 hj
    exact h1
  obtain ⟨v6, hp, _⟩ := h2
  have both : ∀ {P : Trans → Prop}, P t1 → P t2 → ∀ j ∈ [0] ++ [1], P ((fun k => if k = 0 then t1 else t2) j) := by
    intro P p1 p2 j hj
    rcases (by simpa using hj : j = 0 ∨ j = 1) with rfl | rfl
    · exact p1
    · exact p2
  exact ⟨hsep.steadyBidir (k := 1) (by simp) hm hr2 hp hc (both (P := fun t => SteadyBidir S t v) hst1 hst2),
    fun a1 a2 => hsep.steadyAnnos (k := 1) (by simp) hm hr2 hp hc (both (P := fun t => SteadyAnnos S t v) a1 a2)⟩

variable {dbg : Bool}

/-- A transaction that can be committed to `g` can be committed to `g1`, where the nodes that it concerns are as in `g`, those in `D` are removed
and no others. -/
theorem commit_moved (hw : WellNamed S) (ho : OneOpposite S) (hd : DeclaredOnce S)
    {g g1 g2 : Graph} {t : Trans} {F D : NodeIndex → Prop} (hst : SteadyBidir S t g.get?) (hst1 : SteadyBidir S t g1.get?)
    (hva : SteadyAnnos S t g.get?) (hva1 : SteadyAnnos S t g1.get?) (m2 : Meets S dbg SoundCalls g t) (m12 : Meets S dbg SoundCalls g1 t)
    (hs2 : Sound g.get? t.pending) (hr2 : Regular t.pending) (he2 : NoEmptyLinks t.pending) (f2 : Footprint S t g.get? F)
    (hsame : View.Same (View.on g.get? F) (View.on g1.get? F)) (hk : ∀ x s y, ¬ F x → View.Holds g1.get? x s y → ¬ Displaces t.pending y)
    (hkeep : ∀ y, g.get? y ≠ none → ¬ D y → g1.get? y ≠ none) (hD : ∀ y, D y → ¬ Mentions t.pending y)
    (hD2 : ∀ x s y, F x → View.Holds g.get? x s y → ¬ D y)
    (hdisc : ∀ y n0 n1, g.get? y = some n0 → g1.get? y = some n1 → n1.disc = n0.disc)
    (hc2 : g.commit S dbg t = .ok g2) : Sound g1.get? t.pending ∧ ∃ g12, g1.commit S dbg t = .ok g12 := by
  have hs12 : Sound g1.get? t.pending := by
    have key : ∀ y, Exists g.get? t.pending y → Mentions t.pending y → Exists g1.get? t.pending y := by
      rintro y (h1 | h1 | h1) hm
      · exact .inl h1
      · exact .inr (.inl (hkeep y h1 fun hc => hD y hc hm))
      · exact .inr (.inr h1)
    exact ⟨fun y hy => key y (hs2.1 y hy) (.inl hy), fun old new hon => key new (hs2.2 old new hon) (.inr (.inl ⟨old, .inr hon⟩))⟩
  obtain ⟨hfill, w6, hco, hcm⟩ := (C58_commit_iff hw ho hd (fun _ _ h => h) m2 hst hva hs2 hr2 he2).1 ⟨g2, hc2⟩
  refine ⟨hs12, (C58_commit_iff hw ho hd (fun _ _ h => h) m12 hst1 hva1 hs12 hr2 he2).2 ⟨hfill, View.glue F w6 g1.get?, ?_, ?_⟩⟩
  · exact hco.moved f2.ops hsame hk (fun y => ¬ D y) hkeep hD2 fun y hm hc => hD y hc hm
  · refine hcm.moved f2 hco.performed hsame fun x m y n hl hy hn => ?_
    have hti := (tight_closed hw fun _ _ h => h).reachable m2.reachable
    obtain ⟨s, hs⟩ : ∃ s, w6.Holds x s y := by
      obtain ⟨_, ⟨n0, hn0, sl, hsl⟩, _⟩ := hl
      exact ⟨_, n0, hn0, hsl⟩
    rcases hco.links (hti.internal (m2.inv hw)) hs2 x s y hs with he | he | he
    · exact absurd he hl.1
    · obtain ⟨n0, hn0⟩ := Option.ne_none_iff_exists'.1 he
      have h6 := View.same_on.1 (f2.ops.performed_off hco.performed) y hy
      rw [hn0] at h6
      cases e6 : w6 y with
      | none => rw [e6] at h6; exact h6.elim
      | some n6 =>
        rw [e6] at h6
        exact ⟨n6, rfl, by rw [show n6.disc = n0.disc from h6.1, hdisc y n0 n hn0 hn]⟩
    · exact absurd (f2.inserted y he) hy

theorem World.exec_commit {w : World} {h k c : Nat} {g g1 : Graph} {t : Trans} (hg : w.graph h = some (c, g)) (ht : w.trans k = some (c, t))
    (hc : g.commit S dbg t = .ok g1) :
    (w.exec S dbg (.commit h k)).graph h = some (c, g1) ∧ ∀ l, l ≠ k → (w.exec S dbg (.commit h k)).trans l = w.trans l := by
  constructor
  · simp [World.exec, ht, hg, hc, World.setGraph, World.setTrans, World.put]
  · intro l hl
    simp [World.exec, ht, hg, hc, World.setGraph, World.setTrans, World.put, hl]

theorem World.exec_commit_gone {w : World} {h : Nat} (hg : w.graph h = none) (k : Nat) : (w.exec S dbg (.commit h k)).graph h = none := by
  simp only [World.exec, hg]
  cases w.trans k <;> exact hg

theorem commits_gone {h : Nat} : ∀ (ks : List Nat) {w : World}, w.graph h = none → (runCalls S dbg w (ks.map (.commit h))).graph h = none
  | [], _, hg => hg
  | k :: ks, _, hg => commits_gone ks (World.exec_commit_gone hg k)

omit [SetImpl] in
theorem commit_allowed {w : World} {h k c : Nat} {g : Graph} {t : Trans} (hg : w.graph h = some (c, g)) (ht : w.trans k = some (c, t)) :
    (Call.commit h k).Allowed S w := by
  intro c1 u1 c2 g2 e1 e2
  rw [ht, Option.some.injEq, Prod.mk.injEq] at e1
  rw [hg, Option.some.injEq, Prod.mk.injEq] at e2
  rw [← e1.1, ← e2.1]

theorem parts_aux (hw : WellNamed S) {g : Graph} {h c : Nat} {t : Nat → Trans} {g' : Nat → Graph} {F : Nat → NodeIndex → Prop} :
    ∀ (todo done : List Nat) (w : World) (u : Graph), Reaches S dbg AnyCall w → w.graph h = some (c, u) → (∀ k ∈ todo, w.trans k = some (c, t k)) →
    (∀ k ∈ done ++ todo, Regular (t k).pending ∧ SteadyBidir S (t k) g.get? ∧ Committed S (t k) g.get? (g' k).get?) →
    Separate S g.get? (done ++ todo) t (fun k => (g' k).get?) F → (done ++ todo).Nodup → Midway g.get? done (fun k => (g' k).get?) F u.get? →
    ∀ c1 g1, (runCalls S dbg w (todo.map (.commit h))).graph h = some (c1, g1) → Midway g.get? (done ++ todo) (fun k => (g' k).get?) F g1.get? := by
  intro todo
  induction todo with
  | nil =>
    intro done w u _ hg _ _ _ _ hm c1 g1 hr
    have : w.graph h = some (c1, g1) := hr
    rw [hg, Option.some.injEq, Prod.mk.injEq] at this
    rw [← this.2, List.append_nil]
    exact hm
  | cons k todo ih =>
    intro done w u hre hg ht hco hsep hnd hm c1 g1 hr
    have htk := ht k (by simp)
    have hkd : k ∉ done := fun hc => by
      rw [List.nodup_append] at hnd
      exact hnd.2.2 k hc k (by simp) rfl
    have hkt : k ∉ todo := by
      rw [List.nodup_append, List.nodup_cons] at hnd
      exact hnd.2.1.1
    change (runCalls S dbg (w.exec S dbg (.commit h k)) (todo.map (.commit h))).graph h = some (c1, g1) at hr
    cases e : u.commit S dbg (t k) with
    | error _ =>
      rw [commits_gone todo (by simp [World.exec, htk, hg, e, World.setGraph, World.setTrans, World.put])] at hr
      exact absurd hr (by simp)
    | ok u1 =>
      obtain ⟨e1, e2⟩ := World.exec_commit (S := S) (dbg := dbg) hg htk e
      have m : Meets S dbg AnyCall u (t k) := ⟨w, h, k, c, hre, hg, htk⟩
      obtain ⟨hreg, _, hck⟩ := hco k (by simp)
      have hst : SteadyBidir S (t k) u.get? := by
        obtain ⟨v6, hp, _⟩ := hck
        exact hsep.steadyBidir hkd hm hreg hp (fun j hj => (hco j (by simp [hj])).2.2)
          fun j hj => (hco j (by rcases List.mem_append.1 hj with hj | hj <;> [simp [hj]; simp [List.mem_singleton.1 hj]])).2.1
      have := ih (done ++ [k]) (w.exec S dbg (.commit h k)) u1 (.step hre (commit_allowed hg htk) trivial) e1
        (fun l hl => by rw [e2 l (fun hc => hkt (hc ▸ hl))]; exact ht l (by simp [hl])) (by rwa [List.append_assoc])
        (by rwa [List.append_assoc]) (by rwa [List.append_assoc]) (hsep.step hkd hm hreg hck (C03_order hw hst m e)) c1 g1 hr
      rwa [List.append_assoc] at this

theorem all_aux (hw : WellNamed S) (ho : OneOpposite S) (hd : DeclaredOnce S)
    {g : Graph} {h c : Nat} {t : Nat → Trans} {g' : Nat → Graph} {F : Nat → NodeIndex → Prop} {ks : List Nat}
    (hst : ∀ k ∈ ks, SteadyBidir S (t k) g.get?) (hva : ∀ k ∈ ks, SteadyAnnos S (t k) g.get?)
    (hm0 : ∀ k ∈ ks, Meets S dbg SoundCalls g (t k)) (hreg : ∀ k ∈ ks, Regular (t k).pending) (hsd : ∀ k ∈ ks, Sound g.get? (t k).pending)
    (hne : ∀ k ∈ ks, NoEmptyLinks (t k).pending) (hco : ∀ k ∈ ks, g.commit S dbg (t k) = .ok (g' k))
    (hsp : ∀ k ∈ ks, ∀ l ∈ ks, k ≠ l → Spares (t k).pending (t l).pending) (hsep : Separate S g.get? ks t (fun k => (g' k).get?) F) (hnd : ks.Nodup) :
    ∀ (todo done : List Nat) (w : World) (u : Graph), done ++ todo = ks → Reaches S dbg SoundCalls w → w.graph h = some (c, u) →
    (∀ k ∈ todo, w.trans k = some (c, t k)) → Midway g.get? done (fun k => (g' k).get?) F u.get? →
    (∀ y, g.get? y ≠ none → (∀ k ∈ done, ¬ (t k).pending.removed y) → u.get? y ≠ none) →
    (todo ≠ [] → ∀ y n0 n1, g.get? y = some n0 → u.get? y = some n1 → n1.disc = n0.disc) →
    ∃ g1, (runCalls S dbg w (todo.map (.commit h))).graph h = some (c, g1) ∧ Reaches S dbg SoundCalls (runCalls S dbg w (todo.map (.commit h))) := by
  intro todo
  induction todo with
  | nil => exact fun done w u _ hre hg _ _ _ _ => ⟨u, hg, hre⟩
  | cons k todo ih =>
    intro done w u hks hre hg ht hm hkeep hdisc
    have htk := ht k (by simp)
    have hkk : k ∈ ks := by simp [← hks]
    have hin : ∀ j ∈ done, j ∈ ks := fun j hj => by simp [← hks, hj]
    have hkd : k ∉ done := fun hc => by
      rw [← hks, List.nodup_append] at hnd
      exact hnd.2.2 k hc k (by simp) rfl
    have hkt : k ∉ todo := by
      rw [← hks, List.nodup_append, List.nodup_cons] at hnd
      exact hnd.2.1.1
    have hdk : ∀ j ∈ done, j ≠ k := fun j hj hc => hkd (hc ▸ hj)
    have m : Meets S dbg SoundCalls u (t k) := ⟨w, h, k, c, hre, hg, htk⟩
    have hsep' : Separate S g.get? (done ++ k :: todo) t (fun k => (g' k).get?) F := hks ▸ hsep
    obtain ⟨q1, q2⟩ := hsep'.quiet hkd hm
    have hC : ∀ j ∈ ks, Committed S (t j) g.get? (g' j).get? := fun j hj => C03_order hw (hst j hj) (hm0 j hj) (hco j hj)
    have hdone : ∀ j ∈ done ++ [k], j ∈ ks := fun j hj => by
      rcases List.mem_append.1 hj with hj | hj
      · exact hin j hj
      · rw [List.mem_singleton.1 hj]; exact hkk
    obtain ⟨w6, hp, _⟩ := hC k hkk
    have hst1 := hsep'.steadyBidir hkd hm (hreg k hkk) hp (fun j hj => hC j (hin j hj)) fun j hj => hst j (hdone j hj)
    have hva1 := hsep'.steadyAnnos hkd hm (hreg k hkk) hp (fun j hj => hC j (hin j hj)) fun j hj => hva j (hdone j hj)
    obtain ⟨hsu, u1, e⟩ := commit_moved hw ho hd (hst k hkk) hst1 (hva k hkk) hva1 (D := fun y => ∃ j ∈ done, (t j).pending.removed y) (hm0 k hkk) m (hsd k hkk) (hreg k hkk)
      (hne k hkk) (hsep.own k hkk) q1 q2 (fun y h1 h2 => hkeep y h1 fun j hj hr => h2 ⟨j, hj, hr⟩)
      (fun y ⟨j, hj, hr⟩ => (hsp j (hin j hj) k hkk (hdk j hj)).1 y hr)
      (fun x s y hx hs ⟨j, hj, hr⟩ => hsep.apart j (hin j hj) k hkk (hdk j hj) x ((hsep.own j (hin j hj)).holders x s y hs (.inr hr)) hx)
      (hdisc (by simp)) (hco k hkk)
    obtain ⟨e1, e2⟩ := World.exec_commit (S := S) (dbg := dbg) hg htk e
    have C := C03_order hw hst1 m e
    obtain ⟨v6, out⟩ := m.commit hw e
    refine ih (done ++ [k]) (w.exec S dbg (.commit h k)) u1 (by rw [← hks]; simp) (.step hre (commit_allowed hg htk) ?_) e1
      (fun l hl => by rw [e2 l (fun hc => hkt (hc ▸ hl))]; exact ht l (by simp [hl]))
      (hsep'.step hkd hm (hreg k hkk) (hC k hkk) C) ?_ ?_
    · intro c1 g1 c2 t2 h1 h2
      rw [hg, Option.some.injEq, Prod.mk.injEq] at h1
      rw [htk, Option.some.injEq, Prod.mk.injEq] at h2
      rw [← h1.2, ← h2.2]
      exact hsu
    · intro y hy hr hn
      rcases (CommitOut.none_iff out y).1 hn with ⟨h1, _⟩ | h1
      · exact hkeep y hy (fun j hj => hr j (by simp [hj])) h1
      · exact hr k (by simp) h1
    · intro hne' y n0 n2 h0 h2
      obtain ⟨l, hl⟩ := List.exists_mem_of_ne_nil _ hne'
      have hlk : k ≠ l := fun hc => hkt (hc ▸ hl)
      have hnr : ¬ (t k).pending.removed y := fun hc => by
        rw [(CommitOut.none_iff out y).2 (.inr hc)] at h2
        exact absurd h2 (by simp)
      cases e3 : u.get? y with
      | none =>
        exfalso
        have : ∃ j ∈ done, (t j).pending.removed y := by
          by_contra hc
          exact hkeep y (by simp [h0]) (fun j hj hr => hc ⟨j, hj, hr⟩) e3
        obtain ⟨j, hj, hrem⟩ := this
        have hnew : (t k).pending.new y ≠ none := fun hc => by
          rw [(CommitOut.none_iff out y).2 (.inl ⟨e3, hc⟩)] at h2
          exact absurd h2 (by simp)
        exact hsep.apart j (hin j hj) k hkk (hdk j hj) y ((hsep.own j (hin j hj)).removed y hrem) ((hsep.own k hkk).inserted y hnew)
      | some n1 =>
        obtain ⟨n2', h2', h3⟩ := committed_disc (hsp k hkk l (by simp [← hks, hl]) hlk).2 C e3 hnr
        rw [h2, Option.some.injEq] at h2'
        rw [h2', h3]
        exact hdisc (by simp) y n0 n1 h0 e3

end
end TTGraph
