import Verif.Lemmas.Shadow
import Verif.Spec.Nested

/-!
# Lemmas about closures that call the API
-/

set_option autoImplicit false

namespace TTGraph
open Spec

variable [SetImpl] {S : Schema} {dbg : Bool} {σ : Type}

/-! ### What a run leaves alone -/

/-- The objects in `b` are the same in both states. -/
structure Spared (b : Busy) (w w' : EWorld σ) : Prop where
  graph : ∀ g, b.graph g → w'.world.graph g = w.world.graph g
  trans : ∀ k, b.trans k → w'.world.trans k = w.world.trans k
  pend : ∀ k, b.trans k → w'.pend k = w.pend k

omit [SetImpl] in
theorem Spared.refl (b : Busy) (w : EWorld σ) : Spared b w w := ⟨fun _ _ => rfl, fun _ _ => rfl, fun _ _ => rfl⟩

omit [SetImpl] in
theorem Spared.comp {b : Busy} {w w1 w2 : EWorld σ} (h1 : Spared b w w1) (h2 : Spared b w1 w2) : Spared b w w2 :=
  ⟨fun g h => (h2.graph g h).trans (h1.graph g h), fun k h => (h2.trans k h).trans (h1.trans k h), fun k h => (h2.pend k h).trans (h1.pend k h)⟩

omit [SetImpl] in
theorem Spared.mono {b b' : Busy} {w w1 : EWorld σ} (h1 : Spared b' w w1) (hg : ∀ g, b.graph g → b'.graph g) (hk : ∀ k, b.trans k → b'.trans k) :
    Spared b w w1 :=
  ⟨fun g h => h1.graph g (hg g h), fun k h => h1.trans k (hk k h), fun k h => h1.pend k (hk k h)⟩

omit [SetImpl] in
theorem spared_ran {b : Busy} {w : EWorld σ} {k c : Nat} {t : Trans} (hk : ¬ b.trans k) (q : Except Panic Arena × σ) : Spared b w (w.ran k c t q) := by
  have ne : ∀ j, b.trans j → j ≠ k := fun j hj e => hk (e ▸ hj)
  obtain ⟨_ | _, _⟩ := q
  · exact ⟨fun _ _ => rfl, fun j hj => World.put_ne _ _ (ne j hj), fun _ _ => rfl⟩
  · exact ⟨fun _ _ => rfl, fun j hj => World.put_ne _ _ (ne j hj), fun _ _ => rfl⟩

omit [SetImpl] in
theorem spared_committed {b : Busy} {w : EWorld σ} {g k c : Nat} (hg : ¬ b.graph g) (hk : ¬ b.trans k) (q : Except Panic Graph × σ) :
    Spared b w (w.committed g k c q) := by
  have ne : ∀ j, b.trans j → j ≠ k := fun j hj e => hk (e ▸ hj)
  have ne' : ∀ j, b.graph j → j ≠ g := fun j hj e => hg (e ▸ hj)
  obtain ⟨_ | _, _⟩ := q
  · exact ⟨fun j hj => World.put_ne _ _ (ne' j hj), fun j hj => World.put_ne _ _ (ne j hj), fun _ _ => rfl⟩
  · exact ⟨fun j hj => World.put_ne _ _ (ne' j hj), fun j hj => World.put_ne _ _ (ne j hj), fun _ _ => rfl⟩

theorem World.exec_graph_other (w : World) (c : Call) (j : Nat) (h : ¬ Call.usesGraph c j) : (w.exec S dbg c).graph j = w.graph j := by
  cases c <;> simp only [Call.usesGraph] at h <;> simp only [World.exec] <;> (try split) <;> (try split) <;> (try split) <;>
    first | rfl | exact World.put_ne _ _ h

theorem World.exec_trans_other (w : World) (c : Call) (j : Nat) (h : ¬ Call.usesTrans c j) : (w.exec S dbg c).trans j = w.trans j := by
  cases c <;> simp only [Call.usesTrans] at h <;> simp only [World.exec] <;> (try split) <;> (try split) <;> (try split) <;>
    first | rfl | exact World.put_ne _ _ h

theorem spared_exec {b : Busy} {w : EWorld σ} {e : ECall σ} (h : Free b e) : Spared b w (w.exec S dbg e) := by
  cases e with
  | think f => exact ⟨fun _ _ => rfl, fun _ _ => rfl, fun _ _ => rfl⟩
  | plain c =>
    refine ⟨fun g hg => World.exec_graph_other _ _ _ fun h1 => h.1 g h1 hg, fun k hk => World.exec_trans_other _ _ _ fun h1 => h.2 k h1 hk, fun k hk => ?_⟩
    cases c with
    | newTrans k' c => exact World.put_ne _ _ fun e => h.2 k e hk
    | _ => rfl
  | mutate k i f =>
    have ne : ∀ j, b.trans j → j ≠ k := fun j hj e => h (e ▸ hj)
    simp only [EWorld.exec]
    split
    · split
      · exact spared_ran h _
      · exact ⟨fun _ _ => rfl, fun _ _ => rfl, fun j hj => World.put_ne _ _ (ne j hj)⟩
    · exact .refl _ _
  | update k i f =>
    have ne : ∀ j, b.trans j → j ≠ k := fun j hj e => h (e ▸ hj)
    simp only [EWorld.exec]
    split
    · split
      · exact spared_ran h _
      · exact ⟨fun _ _ => rfl, fun _ _ => rfl, fun j hj => World.put_ne _ _ (ne j hj)⟩
    · exact .refl _ _
  | commit g k =>
    simp only [EWorld.exec]
    split
    · exact spared_committed h.1 h.2 _
    · exact .refl _ _
  | commitChecked g k cs =>
    simp only [EWorld.exec]
    split
    · exact spared_committed h.1 h.2 _
    · exact .refl _ _

/-- A run leaves the busy objects alone. -/
theorem Spec.Goes.spared {R : EWorld σ → ECall σ → Prop} {b : Busy} {w w' : EWorld σ} (h : Goes S dbg R b w w') : Spared b w w' := by
  have inM : ∀ (b : Busy) (k : Nat) {w w1 : EWorld σ}, Spared (b.method k) w w1 → Spared b w w1 := fun b k _ _ h => h.mono (fun _ h => h) fun _ h => Or.inr h
  have inC : ∀ (b : Busy) (g k : Nat) {w w1 : EWorld σ}, Spared (b.commit g k) w w1 → Spared b w w1 :=
    fun b g k _ _ h => h.mono (fun _ h => Or.inr h) fun _ h => Or.inr h
  induction h with
  | done => exact .refl _ _
  | step _ h1 _ _ ih => exact ih.comp (spared_exec h1)
  | mutate _ hk _ _ _ _ _ _ _ ih1 ih2 => exact (ih1.comp (inM _ _ ih2)).comp (spared_ran hk _)
  | update _ hk _ _ _ _ _ _ _ ih1 ih2 => exact (ih1.comp (inM _ _ ih2)).comp (spared_ran hk _)
  | commit _ hg hk _ _ _ _ _ _ ih1 ih2 => exact (ih1.comp (inC _ _ _ ih2)).comp (spared_committed hg hk _)
  | commitChecked _ hg hk _ _ _ _ _ _ ih1 ih2 => exact (ih1.comp (inC _ _ _ ih2)).comp (spared_committed hg hk _)

/-! ### The shadows of a run -/

/-- All shadows are states of programs whose closures are functions. -/
def Grounded (S : Schema) (dbg : Bool) (R : World → Call → Prop) (ew : EWorld σ) : Prop := ∀ w, Shadow ew w → Reaches S dbg R w

theorem Grounded.owned {R : World → Call → Prop} {ew : EWorld σ} (h : Grounded S dbg R ew) : ew.world.Owned := by
  obtain ⟨w, hw⟩ := Shadow.ex ew
  have h1 : w.Owned := by
    have := h w hw
    clear hw h
    induction this with
    | init => exact fun k c t h => by simp [World.init] at h
    | step _ _ _ ih => exact ih.exec _
  intro k c t hk
  have h2 := hw.trans k
  rw [hk] at h2
  obtain ⟨ms, us, h3, _, _⟩ := h2.get
  rw [← hw.ctx]
  exact h1 k c _ h3

theorem Grounded.exec {R : World → Call → Prop} {ew : EWorld σ} {e : ECall σ} (h : Grounded S dbg R ew) (ha : EAllowed S ew e) (hR : Whatever R ew e) :
    Grounded S dbg R (ew.exec S dbg e) := by
  intro w' hw'
  rcases mirror_step h.owned ha hw' with h1 | ⟨w, c, h1, h2, h3, h4⟩
  · exact h w' h1
  · rw [← h4]
    exact .step (h w h1) h3 (hR w c h1 h2)

omit [SetImpl] in
theorem Spec.Deep.behaves {f : EClosure σ} {d : EClosure (EWorld σ)} {p : Closure} (h : Deep f d) (hp : Behaves d p) : Behaves f p := by
  intro n
  obtain ⟨w, hw⟩ := hp n
  obtain ⟨s, hs⟩ := h n w
  exact ⟨s, hw.trans hs⟩

omit [SetImpl] in
theorem deep_behaves {l : List (NodeIndex × EClosure σ)} {l' : List (NodeIndex × EClosure (EWorld σ))} {m : List (NodeIndex × Closure)}
    (h : List.Forall₂ (fun e d => d.1 = e.1 ∧ Deep e.2 d.2) l l') (h' : List.Forall₂ (fun e p => p.1 = e.1 ∧ Behaves e.2 p.2) l' m) :
    List.Forall₂ (fun e p => p.1 = e.1 ∧ Behaves e.2 p.2) l m := by
  induction h generalizing m with
  | nil =>
    cases h'
    exact .nil
  | cons h1 _ ih =>
    cases h' with
    | cons h2 h3 => exact .cons ⟨h2.1.trans h1.1, h1.2.behaves h2.2⟩ (ih h3)

omit [SetImpl] in
/-- The functions with which a commit does the same are possible behaviours. -/
theorem CommitCalls.deep {α : Type} {p : Pend σ} {q : Pend (EWorld σ)} {t : Trans} {com : Trans → Except Panic α} {w : EWorld σ}
    {res : Except Panic α × EWorld σ} {l : List (Ran (EWorld σ))} (h : CommitCalls q (fun ms us => com (withClosures t q ms us)) w res l)
    (hd : DeepPend p q) (c : Nat) : ∃ t', Poses (some (c, t)) p (some (c, t')) ∧ com t' = res.1 := by
  obtain ⟨ms, us, h1, h2, h3⟩ := h.pick
  exact ⟨_, ⟨rfl, _, _, rfl, deep_behaves hd.1 h2, deep_behaves hd.2 h3⟩, h1⟩

/-- What a commit with a function in place of each closure does to a shadow. -/
theorem shadow_committed {ew : EWorld σ} {w' : World} {call : Call} {g k c : Nat} {t t' : Trans} {com : Trans → Except Panic Graph}
    {q : Except Panic Graph × σ} (hk : ew.world.trans k = some (c, t)) (hs : Poses (some (c, t)) (ew.pend k) (some (c, t'))) (hc : com t' = q.1)
    (hx : ∀ w, w.trans k = some (c, t') → w.graph = ew.world.graph → call.Allowed S w ∧ w.exec S dbg call = match com t' with
      | .ok gr' => (w.setTrans k none).setGraph g (some (c, gr'))
      | .error _ => (w.setTrans k none).setGraph g none) (hw' : Shadow (ew.committed g k c q) w') :
    ∃ w, Shadow ew w ∧ w.trans k = some (c, t') ∧ call.Allowed S w ∧ w.exec S dbg call = w' := by
  have h2 := hw'.trans k
  have h3 := hw'.ctx
  have h4 := hw'.graph
  have h5 := hw'.issued
  have others : ∀ j, j ≠ k → Poses (ew.world.trans j) (ew.pend j) (w'.trans j) := by
    intro j hj
    have h6 := hw'.trans j
    obtain ⟨_ | _, _⟩ := q <;> (simp only [EWorld.committed, World.setTrans, World.setGraph, World.put_ne _ _ hj] at h6; exact h6)
  have hsh : Shadow ew (ew.back w' k (some (c, t'))) := EWorld.back_shadow others (by rw [hk]; exact hs)
  obtain ⟨hal, hex⟩ := hx (ew.back w' k (some (c, t'))) (World.put_at _ _ _) rfl
  refine ⟨_, hsh, World.put_at _ _ _, hal, ?_⟩
  rw [hex, hc]
  obtain ⟨_ | gr', s'⟩ := q
  · simp only [EWorld.committed, World.setTrans, World.setGraph, World.put_at] at h2 h3 h4 h5
    exact World.ext' h3.symm h4.symm (by simp only [World.setTrans, World.setGraph, EWorld.back, World.put_put]; exact World.put_same _ _ _ h2.nil) h5.symm
  · simp only [EWorld.committed, World.setTrans, World.setGraph, World.put_at] at h2 h3 h4 h5
    exact World.ext' h3.symm h4.symm (by simp only [World.setTrans, World.setGraph, EWorld.back, World.put_put]; exact World.put_same _ _ _ h2.nil) h5.symm

theorem exec_commit_shadow {ew : EWorld σ} {g k c : Nat} {gr : Graph} {t' : Trans} (hg : ew.world.graph g = some (c, gr)) (w : World)
    (h1 : w.trans k = some (c, t')) (h2 : w.graph = ew.world.graph) :
    Call.Allowed S w (.commit g k) ∧ w.exec S dbg (.commit g k) = match gr.commit S dbg t' with
      | .ok gr' => (w.setTrans k none).setGraph g (some (c, gr'))
      | .error _ => (w.setTrans k none).setGraph g none := by
  have h3 : w.graph g = some (c, gr) := by rw [h2, hg]
  refine ⟨fun a1 t1 c1 gr1 h5 h6 => ?_, ?_⟩
  · rw [h1] at h5
    rw [h3] at h6
    simp only [Option.some.injEq, Prod.mk.injEq] at h5 h6
    exact h5.1.symm.trans h6.1
  · simp only [World.exec, h1, h3]
    cases gr.commit S dbg t' <;> rfl

theorem exec_commitChecked_shadow {ew : EWorld σ} {g k c : Nat} {gr : Graph} {t' : Trans} {cs : GraphCheck} (hg : ew.world.graph g = some (c, gr))
    (w : World) (h1 : w.trans k = some (c, t')) (h2 : w.graph = ew.world.graph) :
    Call.Allowed S w (.commitChecked g k cs) ∧ w.exec S dbg (.commitChecked g k cs) = match gr.commitChecked S dbg t' cs with
      | .ok gr' => (w.setTrans k none).setGraph g (some (c, gr'))
      | .error _ => (w.setTrans k none).setGraph g none := by
  have h3 : w.graph g = some (c, gr) := by rw [h2, hg]
  refine ⟨fun a1 t1 c1 gr1 h5 h6 => ?_, ?_⟩
  · rw [h1] at h5
    rw [h3] at h6
    simp only [Option.some.injEq, Prod.mk.injEq] at h5 h6
    exact h5.1.symm.trans h6.1
  · simp only [World.exec, h1, h3]
    cases gr.commitChecked S dbg t' cs <;> rfl

/-- A commit whose closures run the program on: the calls of the closures, and then a commit whose closures are functions. -/
theorem nested_commit {R : EWorld σ → ECall σ → Prop} {b : Busy} {w1 w2 : EWorld σ} {g k c : Nat} {t : Trans} {gr : Graph} {q : Pend (EWorld σ)}
    {r : Except Panic Graph} (ht : w1.world.trans k = some (c, t)) (hg : w1.world.graph g = some (c, gr)) (hd : DeepPend (w1.pend k) q)
    (hrun : gr.commitE S dbg t q w1 = (r, w2)) (h2 : Goes S dbg R (b.commit g k) w1 w2) :
    ∃ t', Poses (some (c, t)) (w1.pend k) (some (c, t')) ∧ gr.commit S dbg t' = r ∧
      ∀ w', Shadow (w2.committed g k c (r, w2.env)) w' →
        ∃ w, Shadow w2 w ∧ w.trans k = some (c, t') ∧ Call.Allowed S w (.commit g k) ∧ w.exec S dbg (.commit g k) = w' := by
  have ht2 : w2.world.trans k = some (c, t) := (h2.spared.trans k (Or.inl rfl)).trans ht
  have hg2 : w2.world.graph g = some (c, gr) := (h2.spared.graph g (Or.inl rfl)).trans hg
  have hp2 : w2.pend k = w1.pend k := h2.spared.pend k (Or.inl rfl)
  obtain ⟨l, hl⟩ := Graph.commitE_calls S dbg gr t q w1
  obtain ⟨t', h3, h4⟩ := CommitCalls.deep (com := fun t' => gr.commit S dbg t') hl hd c
  rw [hrun] at h4
  refine ⟨t', h3, h4, fun w' hw' => ?_⟩
  exact shadow_committed (com := fun t' => gr.commit S dbg t') ht2 (hp2 ▸ h3) h4 (exec_commit_shadow hg2) hw'

theorem nested_commitChecked {R : EWorld σ → ECall σ → Prop} {b : Busy} {w1 w2 : EWorld σ} {g k c : Nat} {t : Trans} {gr : Graph}
    {q : Pend (EWorld σ)} {cs : GraphCheck} {r : Except Panic Graph} (ht : w1.world.trans k = some (c, t)) (hg : w1.world.graph g = some (c, gr))
    (hd : DeepPend (w1.pend k) q) (hrun : gr.commitCheckedE S dbg t q cs w1 = (r, w2)) (h2 : Goes S dbg R (b.commit g k) w1 w2) :
    ∃ t', Poses (some (c, t)) (w1.pend k) (some (c, t')) ∧ gr.commitChecked S dbg t' cs = r ∧
      ∀ w', Shadow (w2.committed g k c (r, w2.env)) w' →
        ∃ w, Shadow w2 w ∧ w.trans k = some (c, t') ∧ Call.Allowed S w (.commitChecked g k cs) ∧ w.exec S dbg (.commitChecked g k cs) = w' := by
  have ht2 : w2.world.trans k = some (c, t) := (h2.spared.trans k (Or.inl rfl)).trans ht
  have hg2 : w2.world.graph g = some (c, gr) := (h2.spared.graph g (Or.inl rfl)).trans hg
  have hp2 : w2.pend k = w1.pend k := h2.spared.pend k (Or.inl rfl)
  obtain ⟨l, hl⟩ := Graph.commitCheckedE_calls S dbg gr t q cs w1
  obtain ⟨t', h3, h4⟩ := CommitCalls.deep (com := fun t' => gr.commitChecked S dbg t' cs) hl hd c
  rw [hrun] at h4
  refine ⟨t', h3, h4, fun w' hw' => ?_⟩
  exact shadow_committed (com := fun t' => gr.commitChecked S dbg t' cs) ht2 (hp2 ▸ h3) h4 (exec_commitChecked_shadow hg2) hw'

omit [SetImpl] in
/-- A closure that ignores the state. -/
theorem deep_still {f : EClosure σ} {d : EClosure (EWorld σ)} (h : Deep f d) (w : EWorld σ) {p : Closure}
    (hp : Behaves (fun n (s : σ) => ((d n w).1, s)) p) : Behaves f p := by
  intro n
  obtain ⟨_, h1⟩ := hp n
  obtain ⟨s, h2⟩ := h n w
  exact ⟨s, h1.trans h2⟩

omit [SetImpl] in
theorem typed_still {f : EClosure σ} {d : EClosure (EWorld σ)} (h : Deep f d) (w : EWorld σ) (ht : ETyped S f) :
    ETyped S (fun n (s : σ) => ((d n w).1, s)) := by
  intro n n' _ hn h1
  obtain ⟨s, h2⟩ := h n w
  exact ht n n' s hn (h2.symm.trans h1)

omit [SetImpl] in
theorem modifyAtE_still (a : Arena) (i : NodeIndex) (d : EClosure (EWorld σ)) (w : EWorld σ) (s : σ) :
    a.modifyAtE i (fun n (s : σ) => ((d n w).1, s)) s = ((a.modifyAtE i d w).1, s) := by
  simp only [Arena.modifyAtE]
  cases a.disp.get? i with
  | none => rfl
  | some x =>
    simp only
    cases (a.cont x).get? i with
    | none => rfl
    | some n =>
      simp only
      rcases d n w with ⟨_ | _, _⟩ <;> rfl

omit [SetImpl] in
theorem updateWithE_still (a : Arena) (i : NodeIndex) (d : EClosure (EWorld σ)) (w : EWorld σ) (s : σ) :
    a.updateWithE i (fun n (s : σ) => ((d n w).1, s)) s = ((a.updateWithE i d w).1, s) := by
  simp only [Arena.updateWithE]
  cases a.disp.get? i with
  | none => rfl
  | some x =>
    simp only
    cases (a.cont x).get? i with
    | none => rfl
    | some n =>
      simp only
      rcases d n w with ⟨_ | _, _⟩ <;> rfl

/-- A run leads from states whose shadows are states of programs to such states. -/
theorem Spec.Goes.grounded {R : World → Call → Prop} {b : Busy} {w w' : EWorld σ} (h : Goes S dbg (Whatever R) b w w') (hw : Grounded S dbg R w) :
    Grounded S dbg R w' := by
  induction h with
  | done => exact hw
  | step _ _ h1 h2 ih => exact (ih hw).exec h1 h2
  | @mutate b w w1 w2 k c i t f d r h1 hk ht hi hf hd hrun h2 hR ih1 ih2 =>
    have hw2 := ih2 (ih1 hw)
    have ht2 : w2.world.trans k = some (c, t) := (h2.spared.trans k (Or.inl rfl)).trans ht
    have := hw2.exec (e := .mutate k i (fun n s => ((d n w1).1, s))) (typed_still hd w1 hf) (by
      intro w c hs himg
      cases himg with
      | mutate hp => exact hR w _ hs (.mutate (deep_still hd w1 hp)))
    simp only [EWorld.exec, ht2, hi, if_true, modifyAtE_still, hrun] at this
    exact this
  | @update b w w1 w2 k c i t f d r h1 hk ht hi hf hd hrun h2 hR ih1 ih2 =>
    have hw2 := ih2 (ih1 hw)
    have ht2 : w2.world.trans k = some (c, t) := (h2.spared.trans k (Or.inl rfl)).trans ht
    have := hw2.exec (e := .update k i (fun n s => ((d n w1).1, s))) (typed_still hd w1 hf) (by
      intro w c hs himg
      cases himg with
      | update hp => exact hR w _ hs (.update (deep_still hd w1 hp)))
    simp only [EWorld.exec, ht2, hi, if_true, updateWithE_still, hrun] at this
    exact this
  | @commit b w w1 w2 g k c t gr q r h1 hg hk ht hgr hd hrun h2 hR ih1 ih2 =>
    obtain ⟨_, _, _, h5⟩ := nested_commit ht hgr hd hrun h2
    intro w' hw'
    obtain ⟨v, h6, _, h7, h8⟩ := h5 w' hw'
    exact h8 ▸ .step (ih2 (ih1 hw) v h6) h7 (hR _ _ h6 (.commit g k))
  | @commitChecked b w w1 w2 g k c t gr q r cs h1 hg hk ht hgr hd hrun h2 hR ih1 ih2 =>
    obtain ⟨_, _, _, h5⟩ := nested_commitChecked ht hgr hd hrun h2
    intro w' hw'
    obtain ⟨v, h6, _, h7, h8⟩ := h5 w' hw'
    exact h8 ▸ .step (ih2 (ih1 hw) v h6) h7 (hR _ _ h6 (.commitChecked g k cs))

theorem grounded_init (R : World → Call → Prop) (s : σ) : Grounded S dbg R (EWorld.init s) := fun w hw => EReaches.shadow .init w hw

theorem Spec.NReaches.grounded {R : World → Call → Prop} {s : σ} {b : Busy} {w : EWorld σ} (h : NReaches S dbg (Whatever R) s b w) :
    Grounded S dbg R w := by
  induction h with
  | init => exact grounded_init R s
  | run _ h1 ih => exact h1.grounded ih
  | enter _ _ _ ih => exact ih

/-- A program whose closures do not call the API. -/
theorem Spec.EReaches.goes {R : EWorld σ → ECall σ → Prop} {s : σ} {w : EWorld σ} (h : EReaches S dbg R s w) :
    Goes S dbg R Busy.none (EWorld.init s) w := by
  induction h with
  | init => exact .done _ _
  | @step w e _ ha hR ih =>
    refine .step ih ?_ ha hR
    cases e <;> first | trivial | exact ⟨fun _ _ h => h, fun _ _ h => h⟩ | exact ⟨fun h => h, fun h => h⟩ | exact fun h => h

/-- Other restrictions. -/
theorem Spec.Goes.weaken {R R' : EWorld σ → ECall σ → Prop} (hr : ∀ w e, EAllowed S w e → R w e → R' w e) {b : Busy} {w w' : EWorld σ}
    (h : Goes S dbg R b w w') : Goes S dbg R' b w w' := by
  induction h with
  | done => exact .done _ _
  | step _ h1 h2 h3 ih => exact .step ih h1 h2 (hr _ _ h2 h3)
  | mutate _ hk ht hi hf hd hrun _ hR ih1 ih2 => exact .mutate ih1 hk ht hi hf hd hrun ih2 (hr _ _ hf hR)
  | update _ hk ht hi hf hd hrun _ hR ih1 ih2 => exact .update ih1 hk ht hi hf hd hrun ih2 (hr _ _ hf hR)
  | @commit b w w1 w2 g k c t gr q r _ hg hk ht hgr hd hrun h2 hR ih1 ih2 =>
    refine .commit ih1 hg hk ht hgr hd hrun ih2 (hr _ _ (fun c1 t1 c2 g2 h5 h6 => ?_) hR)
    rw [h2.spared.trans k (Or.inl rfl), ht] at h5
    rw [h2.spared.graph g (Or.inl rfl), hgr] at h6
    simp only [Option.some.injEq, Prod.mk.injEq] at h5 h6
    exact h5.1.symm.trans h6.1
  | @commitChecked b w w1 w2 g k c t gr q r cs _ hg hk ht hgr hd hrun h2 hR ih1 ih2 =>
    refine .commitChecked ih1 hg hk ht hgr hd hrun ih2 (hr _ _ (fun c1 t1 c2 g2 h5 h6 => ?_) hR)
    rw [h2.spared.trans k (Or.inl rfl), ht] at h5
    rw [h2.spared.graph g (Or.inl rfl), hgr] at h6
    simp only [Option.some.injEq, Prod.mk.injEq] at h5 h6
    exact h5.1.symm.trans h6.1

theorem Spec.NReaches.weaken {R R' : EWorld σ → ECall σ → Prop} (hr : ∀ w e, EAllowed S w e → R w e → R' w e) {s : σ} {b : Busy} {w : EWorld σ}
    (h : NReaches S dbg R s b w) : NReaches S dbg R' s b w := by
  induction h with
  | init => exact .init
  | run _ h1 ih => exact .run ih (h1.weaken hr)
  | enter _ h1 h2 ih => exact .enter ih h1 h2

/-! ### Restrictions that hold whatever the closures do -/

omit [SetImpl] in
theorem whatever_any {w : EWorld σ} {e : ECall σ} : Whatever AnyCall w e := fun _ _ _ _ => trivial

omit [SetImpl] in
theorem whatever_noCatch {w : EWorld σ} {e : ECall σ} (h1 : EAllowed S w e) : Whatever NoCatch w e := by
  intro _ c _ hi
  cases hi with
  | plain => cases c <;> first | trivial | exact h1.1
  | _ => trivial

omit [SetImpl] in
theorem whatever_keep {w : EWorld σ} {e : ECall σ} (h1 : EAllowed S w e) (h2 : EKeepVariants w e) : Whatever KeepVariants w e := by
  intro _ c _ hi
  cases hi with
  | plain =>
    cases c with
    | op k o => cases o <;> first | trivial | exact h1.1.elim
    | _ => trivial
  | mutate hb =>
    intro n n' hn
    obtain ⟨s, hs⟩ := hb n
    exact h2 n n' s (hs ▸ hn)
  | update hb =>
    intro n n' hn
    obtain ⟨s, hs⟩ := hb n
    exact h2 n n' s (hs ▸ hn)
  | _ => trivial

end TTGraph
