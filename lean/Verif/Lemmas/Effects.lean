import Verif.Spec.Effects
import Mathlib.Data.List.Forall2

/-!
# Closures with side effects: lemmas
-/

set_option autoImplicit false

namespace TTGraph
open Spec

variable {σ : Type}

/-! ### One closure -/

/-- Either the closure runs once on the node `n`, and the result depends only on what it returns, or it does not run and the call panics. -/
def OneRun {α : Type} (f : EClosure σ) (pure : Closure → Except Panic α) (s : σ) (res : Except Panic α × σ) : Prop :=
  (∃ n, (f n s).2 = res.2 ∧ ∀ p : Closure, p n = (f n s).1 → pure p = res.1) ∨ (res.2 = s ∧ (∃ e, res.1 = .error e) ∧ ∀ p, pure p = res.1)

theorem Arena.modifyAtE_run (a : Arena) (i : NodeIndex) (f : EClosure σ) (s : σ) :
    OneRun f (fun p => (a.modifyAt i (fun n => (p n).map (·, ()))).map Prod.fst) s (a.modifyAtE i f s) := by
  unfold Arena.modifyAtE Arena.modifyAt
  cases h1 : a.disp.get? i with
  | none => exact Or.inr ⟨rfl, ⟨_, rfl⟩, fun p => rfl⟩
  | some d =>
    simp only
    cases h2 : (a.cont d).get? i with
    | none => exact Or.inr ⟨rfl, ⟨_, rfl⟩, fun p => rfl⟩
    | some n =>
      simp only
      left
      refine ⟨n, ?_, fun p hp => ?_⟩
      · rcases f n s with ⟨_ | _, s'⟩ <;> rfl
      · simp only [hp]
        rcases f n s with ⟨_ | _, s'⟩ <;> rfl

theorem Arena.updateWithE_run (a : Arena) (i : NodeIndex) (f : EClosure σ) (s : σ) :
    OneRun f (fun p => a.updateWith i p) s (a.updateWithE i f s) := by
  unfold Arena.updateWithE Arena.updateWith
  cases h1 : a.disp.get? i with
  | none => exact Or.inr ⟨rfl, ⟨_, rfl⟩, fun p => rfl⟩
  | some d =>
    simp only
    cases h2 : (a.cont d).get? i with
    | none => exact Or.inr ⟨rfl, ⟨_, rfl⟩, fun p => rfl⟩
    | some n =>
      simp only
      left
      refine ⟨n, ?_, fun p hp => ?_⟩
      · rcases f n s with ⟨_ | _, s'⟩ <;> rfl
      · simp only [hp]
        rcases f n s with ⟨_ | _, s'⟩ <;> rfl

namespace Graph

/-- `relinkE` without the state. -/
def relink (g : Graph) (x : NodeIndex) (st1 : Back × Lcr) : Except Panic Arena → Except Panic (Graph × Lcr)
  | .error e => .error e
  | .ok nodes1 =>
    match nodes1.get? x with
    | none => .error .nodeMissing
    | some n' =>
      match linkSources x st1 n'.iterSources with
      | .error e => .error e
      | .ok (back2, r2) => .ok ({ g with nodes := nodes1, back := back2 }, r2)

theorem relinkE_eq (g : Graph) (x : NodeIndex) (st1 : Back × Lcr) (p : Except Panic Arena × σ) :
    relinkE g x st1 p = (relink g x st1 p.1, p.2) := by
  obtain ⟨_ | a, s⟩ := p
  · rfl
  · simp only [relinkE, relink]
    cases a.get? x with
    | none => rfl
    | some n =>
      simp only
      cases linkSources x st1 n.iterSources <;> rfl

theorem _root_.TTGraph.OneRun.map {α β : Type} {f : EClosure σ} {pure : Closure → Except Panic α} {s : σ} {res : Except Panic α × σ}
    (h : OneRun f pure s res) (k : Except Panic α → Except Panic β) (hk : ∀ e, ∃ e', k (.error e) = .error e') :
    OneRun f (fun p => k (pure p)) s (k res.1, res.2) := by
  rcases h with ⟨n, h1, h2⟩ | ⟨h1, ⟨e, h2⟩, h3⟩
  · exact Or.inl ⟨n, h1, fun p hp => by simp only [h2 p hp]⟩
  · exact Or.inr ⟨h1, by simp only [h2]; exact hk e, fun p => by simp only [h3 p]⟩

theorem modifyNodeE_run (g : Graph) (x : NodeIndex) (f : EClosure σ) (r : Lcr) (s : σ) :
    OneRun f (fun p => modifyNode g x p r) s (modifyNodeE g x f r s) := by
  unfold modifyNodeE modifyNode
  cases h1 : g.nodes.get? x with
  | none => exact Or.inr ⟨rfl, ⟨_, rfl⟩, fun p => rfl⟩
  | some n =>
    simp only
    cases h2 : unlinkSources x (g.back, r) n.iterSources with
    | error e => exact Or.inr ⟨rfl, ⟨_, rfl⟩, fun p => rfl⟩
    | ok st1 =>
      simp only
      have h3 := (Arena.modifyAtE_run g.nodes x f s).map (relink g x st1) (fun e => ⟨e, rfl⟩)
      rw [relinkE_eq]
      refine (congrArg (fun q => OneRun f q s _) (funext fun p => ?_)).mp h3
      rcases g.nodes.modifyAt x (fun n => (p n).map (·, ())) with e | ⟨a, b⟩ <;> rfl

theorem updateNodeE_run (g : Graph) (x : NodeIndex) (f : EClosure σ) (r : Lcr) (s : σ) :
    OneRun f (fun p => updateNode g x p r) s (updateNodeE g x f r s) := by
  unfold updateNodeE updateNode
  cases h1 : g.nodes.get? x with
  | none => exact Or.inr ⟨rfl, ⟨_, rfl⟩, fun p => rfl⟩
  | some n =>
    simp only
    cases h2 : unlinkSources x (g.back, r) n.iterSources with
    | error e => exact Or.inr ⟨rfl, ⟨_, rfl⟩, fun p => rfl⟩
    | ok st1 =>
      simp only
      have h3 := (Arena.updateWithE_run g.nodes x f s).map (relink g x st1) (fun e => ⟨e, rfl⟩)
      rw [relinkE_eq]
      refine (congrArg (fun q => OneRun f q s _) (funext fun p => ?_)).mp h3
      rcases g.nodes.updateWith x p with e | a <;> rfl

end Graph

/-! ### Several closures -/

theorem Played.append {l1 l2 : List (Ran σ)} {s s1 s2 : σ} (h1 : Played l1 s s1) (h2 : Played l2 s1 s2) : Played (l1 ++ l2) s s2 := by
  induction l1 generalizing s with
  | nil => obtain rfl : s1 = s := h1; exact h2
  | cons r l ih =>
    obtain ⟨s', h3, h4⟩ := h1
    exact ⟨s', h3, ih h4⟩

/-- What a loop over closures does. -/
structure Calls {α : Type} (fs : List (EClosure σ)) (pure : List Closure → Except Panic α) (s : σ) (res : Except Panic α × σ) (l : List (Ran σ)) : Prop where
  called : l.map (·.fn) <+: fs
  all : ∀ a, res.1 = .ok a → l.length = fs.length
  played : Played l s res.2
  same : ∀ ps : List Closure, ps.length = fs.length → Reproduces ps l → pure ps = res.1

theorem Graph.applyClosuresE_calls {step : Graph → NodeIndex → EClosure σ → Lcr → σ → Except Panic (Graph × Lcr) × σ}
    {stepP : Graph → NodeIndex → Closure → Lcr → Except Panic (Graph × Lcr)}
    (hs : ∀ g x f r s, OneRun f (fun p => stepP g x p r) s (step g x f r s)) (l : List (NodeIndex × EClosure σ)) :
    ∀ (st : Graph × Lcr) (s : σ), ∃ calls, Calls (l.map Prod.snd) (fun ps => Graph.applyClosures stepP st ((l.map Prod.fst).zip ps)) s
      (Graph.applyClosuresE step st l s) calls := by
  induction l with
  | nil => exact fun st s => ⟨[], List.prefix_rfl, fun _ _ => rfl, rfl, fun ps _ _ => rfl⟩
  | cons p l ih =>
    intro st s
    obtain ⟨i, f⟩ := p
    have h1 := hs st.1 i f st.2 s
    simp only [Graph.applyClosuresE, List.map_cons]
    cases h2 : step st.1 i f st.2 s with
    | mk res s1 =>
      rw [h2] at h1
      rcases h1 with ⟨n, h3, h4⟩ | ⟨h3, ⟨e, h4⟩, h5⟩
      · simp only at h3 h4
        cases res with
        | error e =>
          simp only
          refine ⟨[⟨f, n, (f n s).1⟩], ⟨by simp, fun a ha => by simp at ha, ⟨s1, by rw [← h3], rfl⟩, fun ps hl hr => ?_⟩⟩
          match ps, hl with
          | q :: qs, _ =>
            simp only [List.zip_cons_cons, Graph.applyClosures, foldE, h4 q hr.1]
        | ok st' =>
          simp only
          obtain ⟨calls, hc⟩ := ih st' s1
          refine ⟨⟨f, n, (f n s).1⟩ :: calls, ⟨by simpa using hc.called, fun a ha => by simpa using hc.all a ha, ⟨s1, by rw [← h3], hc.played⟩, fun ps hl hr => ?_⟩⟩
          match ps, hl with
          | q :: qs, hl =>
            have := hc.same qs (by simpa using hl) hr.2
            simp only [Graph.applyClosures] at this
            simp only [List.zip_cons_cons, Graph.applyClosures, foldE, h4 q hr.1, this]
      · simp only at h3 h4 h5
        subst h4
        simp only
        refine ⟨[], ⟨by simp, fun a ha => by simp at ha, h3, fun ps hl hr => ?_⟩⟩
        match ps, hl with
        | q :: qs, _ => simp only [List.zip_cons_cons, Graph.applyClosures, foldE, h5 q]

theorem Reproduces.take {l1 l2 : List (Ran σ)} {ms us : List Closure} (h : Reproduces (ms ++ us) (l1 ++ l2)) (hl : l1.length ≤ ms.length) :
    Reproduces ms l1 := by
  induction l1 generalizing ms with
  | nil => cases ms <;> trivial
  | cons r l ih =>
    match ms, hl with
    | m :: ms, hl => exact ⟨h.1, ih h.2 (by simpa using hl)⟩

theorem Reproduces.drop {l1 l2 : List (Ran σ)} {ms us : List Closure} (h : Reproduces (ms ++ us) (l1 ++ l2)) (hl : l1.length = ms.length) :
    Reproduces us l2 := by
  induction l1 generalizing ms with
  | nil =>
    match ms, hl with
    | [], _ => exact h
  | cons r l ih =>
    match ms, hl with
    | m :: ms, hl => exact ih h.2 (by simpa using hl)

/-- The calls of a commit. -/
structure CommitCalls {α : Type} (p : Pend σ) (pure : List Closure → List Closure → Except Panic α) (s : σ) (res : Except Panic α × σ)
    (l : List (Ran σ)) : Prop where
  called : l.map (·.fn) <+: (p.muts ++ p.upds).map Prod.snd
  all : ∀ a, res.1 = .ok a → l.length = p.muts.length + p.upds.length
  played : Played l s res.2
  same : ∀ ms us : List Closure, ms.length = p.muts.length → us.length = p.upds.length → Reproduces (ms ++ us) l → pure ms us = res.1

theorem CommitCalls.map {α β : Type} {p : Pend σ} {pure : List Closure → List Closure → Except Panic α} {s : σ} {res : Except Panic α × σ}
    {l : List (Ran σ)} (h : CommitCalls p pure s res l) (k : Except Panic α → Except Panic β) (hk : ∀ e b, k (.error e) ≠ .ok b) :
    CommitCalls p (fun ms us => k (pure ms us)) s (k res.1, res.2) l := by
  refine ⟨h.called, fun b hb => ?_, h.played, fun ms us h1 h2 h3 => by simp only [h.same ms us h1 h2 h3]⟩
  cases hr : res.1 with
  | error e => rw [hr] at hb; exact absurd hb (hk e b)
  | ok a => exact h.all a hr

variable [SetImpl]

theorem Graph.doCommitE_calls (S : Schema) (dbg : Bool) (g : Graph) (t : Trans) (p : Pend σ) (s : σ) :
    ∃ calls, CommitCalls p (fun ms us => Graph.doCommit S dbg g (withClosures t p ms us)) s (Graph.doCommitE S dbg g t p s) calls := by
  have stop : ∀ e : Panic, (∀ ms us, Graph.doCommit S dbg g (withClosures t p ms us) = .error e) →
      ∃ calls, CommitCalls p (fun ms us => Graph.doCommit S dbg g (withClosures t p ms us)) s (.error e, s) calls :=
    fun e h => ⟨[], ⟨by simp, fun a ha => by simp at ha, rfl, fun ms us _ _ _ => h ms us⟩⟩
  unfold Graph.doCommitE
  by_cases h1 : (dbg && decide (t.ctxId ≠ g.ctxId)) = true
  · rw [if_pos h1]
    exact stop _ fun ms us => if_pos h1
  rw [if_neg h1]
  by_cases h2 : (dbg && !t.allocs.isEmpty) = true
  · rw [if_pos h2]
    exact stop _ fun ms us => (if_neg h1).trans (if_pos h2)
  rw [if_neg h2]
  cases h3 : Graph.redirectLinksVec g t.redir Lcr.new with
  | error e =>
    exact stop _ fun ms us => (if_neg h1).trans ((if_neg h2).trans (by simp only [withClosures, h3]))
  | ok st1 =>
    obtain ⟨g1, r1⟩ := st1
    simp only
    obtain ⟨c1, k1⟩ := Graph.applyClosuresE_calls (fun g x f r s => Graph.modifyNodeE_run g x f r s) p.muts (Graph.mergeNodes S g1 t.inc r1) s
    have len1 : c1.length ≤ p.muts.length := by simpa using k1.called.length_le
    cases h4 : Graph.applyClosuresE Graph.modifyNodeE (Graph.mergeNodes S g1 t.inc r1) p.muts s with
    | mk res1 s1 =>
      rw [h4] at k1
      have eq : ∀ ms us, Graph.doCommit S dbg g (withClosures t p ms us) =
          match Graph.applyClosures Graph.modifyNode (Graph.mergeNodes S g1 t.inc r1) ((p.muts.map Prod.fst).zip ms) with
          | .error e => .error e
          | .ok st3 =>
            match Graph.applyClosures Graph.updateNode st3 ((p.upds.map Prod.fst).zip us) with
            | .error e => .error e
            | .ok st4 => Graph.afterClosures S t st4 := by
        intro ms us
        refine (if_neg h1).trans ((if_neg h2).trans ?_)
        simp only [withClosures, h3]
        cases Graph.applyClosures Graph.modifyNode (Graph.mergeNodes S g1 t.inc r1) ((p.muts.map Prod.fst).zip ms) with
        | error e => rfl
        | ok st3 =>
          simp only
          cases Graph.applyClosures Graph.updateNode st3 ((p.upds.map Prod.fst).zip us) <;> rfl
      cases res1 with
      | error e =>
        simp only
        refine ⟨c1, ⟨k1.called.trans (by simp), fun a ha => by simp at ha, k1.played, fun ms us hm hu hr => ?_⟩⟩
        have := k1.same ms (by simpa using hm) (Reproduces.take (l2 := []) (by simpa using hr) (by omega))
        simp only [eq, this]
      | ok st3 =>
        simp only
        have len2 : c1.length = p.muts.length := by simpa using k1.all st3 rfl
        obtain ⟨c2, k2⟩ := Graph.applyClosuresE_calls (fun g x f r s => Graph.updateNodeE_run g x f r s) p.upds st3 s1
        have hpre : (c1 ++ c2).map (·.fn) <+: (p.muts ++ p.upds).map Prod.snd := by
          have e : c1.map (·.fn) = p.muts.map Prod.snd := k1.called.eq_of_length (by simpa using len2)
          rw [List.map_append, List.map_append, e]
          exact (List.prefix_append_right_inj _).2 k2.called
        cases h5 : Graph.applyClosuresE Graph.updateNodeE st3 p.upds s1 with
        | mk res2 s2 =>
          rw [h5] at k2
          have same : ∀ ms us : List Closure, ms.length = p.muts.length → us.length = p.upds.length → Reproduces (ms ++ us) (c1 ++ c2) →
              Graph.doCommit S dbg g (withClosures t p ms us) = match res2 with
                | .error e => .error e
                | .ok st4 => Graph.afterClosures S t st4 := by
            intro ms us hm hu hr
            have e1 := k1.same ms (by simpa using hm) (Reproduces.take hr (by omega))
            have e2 := k2.same us (by simpa using hu) (Reproduces.drop hr (by omega))
            simp only at e1 e2
            simp only [eq, e1, e2]
            cases res2 <;> rfl
          cases res2 with
          | error e => exact ⟨c1 ++ c2, ⟨hpre, fun a ha => by simp at ha, Played.append k1.played k2.played, same⟩⟩
          | ok st4 =>
            refine ⟨c1 ++ c2, ⟨hpre, fun a ha => ?_, Played.append k1.played k2.played, same⟩⟩
            have := k2.all st4 rfl
            simp only [List.length_map] at this
            rw [List.length_append]
            omega

theorem Graph.commit_finish (S : Schema) (dbg : Bool) (g : Graph) (t : Trans) : g.commit S dbg t = Graph.finish S (Graph.doCommit S dbg g t) := by
  unfold Graph.commit
  cases Graph.doCommit S dbg g t <;> rfl

theorem Graph.commitChecked_finish (S : Schema) (dbg : Bool) (g : Graph) (t : Trans) (cs : GraphCheck) :
    g.commitChecked S dbg t cs = Graph.finishChecked S cs (Graph.doCommit S dbg g t) := by
  unfold Graph.commitChecked
  cases Graph.doCommit S dbg g t <;> rfl

theorem Graph.commitE_calls (S : Schema) (dbg : Bool) (g : Graph) (t : Trans) (p : Pend σ) (s : σ) :
    ∃ calls, CommitCalls p (fun ms us => g.commit S dbg (withClosures t p ms us)) s (g.commitE S dbg t p s) calls := by
  obtain ⟨calls, h⟩ := Graph.doCommitE_calls S dbg g t p s
  refine ⟨calls, ?_⟩
  simp only [Graph.commit_finish]
  exact h.map (Graph.finish S) (fun e b => by simp [Graph.finish])

theorem Graph.commitCheckedE_calls (S : Schema) (dbg : Bool) (g : Graph) (t : Trans) (p : Pend σ) (cs : GraphCheck) (s : σ) :
    ∃ calls, CommitCalls p (fun ms us => g.commitChecked S dbg (withClosures t p ms us) cs) s (g.commitCheckedE S dbg t p cs s) calls := by
  obtain ⟨calls, h⟩ := Graph.doCommitE_calls S dbg g t p s
  refine ⟨calls, ?_⟩
  simp only [Graph.commitChecked_finish]
  exact h.map (Graph.finishChecked S cs) (fun e b => by simp [Graph.finishChecked])

end TTGraph
