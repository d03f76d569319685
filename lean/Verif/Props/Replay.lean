import Verif.Lemmas.Replay
import Verif.Props.Report
import Verif.Props.Checks
import Verif.Props.Rerun

/-!
# C91: a program that runs through does so again
-/

set_option autoImplicit false

namespace TTGraph
open Spec
variable [SetImpl] {S : Schema} {dbg : Bool}

/-- In programs without dangling links, a commit with checks that do not look at the order of sets returns in one run exactly if it returns in the
other one. -/
theorem C91_checked {R : World → Call → Prop} (hw : WellNamed S) (ho : OneOpposite S) (hd : DeclaredOnce S) (hR : ∀ w c, R w c → SoundCalls w c)
    {g g2 : Graph} {t t2 : Trans} (h : Meets S dbg R g t) (h2 : Meets S dbg R g2 t2) (hg : View.Same g.get? g2.get?)
    (hp : SamePending t.pending t2.pending) (ht : Tidy S g.get? t) (hst : ∀ x m y, Steady S t g.get? x m y) {cs cs2 : GraphCheck}
    (hcs : LikeChecks cs cs2) : (∃ g', g.commitChecked S dbg t cs = .ok g') ↔ ∃ g2', g2.commitChecked S dbg t2 cs2 = .ok g2' := by
  have go : ∀ {g g2 : Graph} {t t2 : Trans} {cs cs2 : GraphCheck}, Meets S dbg R g t → Meets S dbg R g2 t2 → View.Same g.get? g2.get? →
      SamePending t.pending t2.pending → Tidy S g.get? t → (∀ x m y, Steady S t g.get? x m y) → LikeChecks cs cs2 →
      (∃ g', g.commitChecked S dbg t cs = .ok g') → ∃ g2', g2.commitChecked S dbg t2 cs2 = .ok g2' := by
    rintro g g2 t t2 cs cs2 h h2 hg hp ht hst hcs ⟨g', hc⟩
    have ht2 := ht.again hp hg
    have hcom := Graph.commit_of_checked hc
    obtain ⟨g2', hcom2⟩ := (C91_commit hw ho hd hR h h2 hg hp ht.bidir ht2.bidir ht.annos ht2.annos ht.sound ht.regular ht.noEmpty).1 ⟨g', hcom⟩
    have hal : AlikePending (Equiv.refl _) t.pending t2.pending :=
      ⟨hp.new, hp.unfilled, hp.removed, hp.muts, hp.upds, by simpa using hp.redirAll, by simpa using hp.redir⟩
    have hg' : View.Same g'.get? g2'.get? := C50_commit (σ := Equiv.refl _) rfl hw ht.bidir ht2.bidir h h2 hg hal hcom hcom2
    obtain ⟨_, c6, k1, _⟩ := (C58_commit_iff hw ho hd hR h ht.bidir ht.annos ht.sound ht.regular ht.noEmpty).1 ⟨g', hcom⟩
    obtain ⟨d6, k2, k3⟩ := carriedOut_same hp hg k1
    obtain ⟨v6, r, p1, _, p2, p3, p4, _⟩ := recorded hw hst h hcom
    obtain ⟨u6, r2, q1, _, q2, q3, q4, _⟩ := recorded hw (fun x m y => steady_again hp hg (hst x m y)) h2 hcom2
    have s1 : View.Same v6 c6 := performed_same rfl ht.regular.redir ht.regular.redirAll (fun p hp => ht.regular.closures p.1 p.2 hp) (.refl _) p1 k1.performed
    have s2 : View.Same d6 u6 := performed_same rfl ht2.regular.redir ht2.regular.redirAll (fun p hp => ht2.regular.closures p.1 p.2 hp) (.refl _) k2.performed q1
    have s : View.Same v6 u6 := (s1.trans k3).trans s2
    have e1 : Graph.checkChange g' r cs = .ok [] := by
      have := (p2 cs).symm.trans hc
      revert this
      cases Graph.checkChange g' r cs with
      | error e => simp
      | ok l => cases l <;> simp
    have e2 := checkChange_again (r2 := r2) hg' hcs (fun x hx => by
      rw [p3]
      obtain ⟨m, y, hl⟩ := (q3 x).1 hx
      exact ⟨m, y, hl.imp (hg.addedLink s x m y).1 (hg.removedLink s x m y).1⟩)
      (fun c hc => (p4 c).2 ((hg.addedLink s _ _ _).1 ((q4 c).1 hc))) e1
    refine ⟨g2', ?_⟩
    rw [q2 cs2, e2]
  exact ⟨go h h2 hg hp ht hst hcs, go h2 h hg.symm hp.symm (ht.again hp hg) (fun x m y => steady_again hp hg (hst x m y)) (likeChecks_symm hcs)⟩

/-- If checks refuse what such a commit has done, they are the same checks in both runs, in the same order.  (The checks do not panic, and no
node with links is removed if there are node checks, see C31.) -/
theorem C91_refused {R : World → Call → Prop} (hw : WellNamed S) (ho : OneOpposite S) (hd : DeclaredOnce S) (hR : ∀ w c, R w c → SoundCalls w c)
    {g g' g2 : Graph} {t t2 : Trans} (h : Meets S dbg R g t) (h2 : Meets S dbg R g2 t2) (hg : View.Same g.get? g2.get?)
    (hp : SamePending t.pending t2.pending) (ht : Tidy S g.get? t) (hst : ∀ x m y, Steady S t g.get? x m y) {cs cs2 : GraphCheck}
    (hcs : LikeChecks cs cs2) (hq : cs.NeverPanics) (hq2 : cs2.NeverPanics) (hc : g.commit S dbg t = .ok g')
    (hrem : (∃ name f, cs.nodeChecks.get? name = some f) → ∀ x m y, y ≠ emptyIdx → View.Link g.get? x m y → g'.get? x ≠ none) (names : List Ident) :
    g.commitChecked S dbg t cs = .error (.checkFailed names) ↔ g2.commitChecked S dbg t2 cs2 = .error (.checkFailed names) := by
  have ht2 := ht.again hp hg
  obtain ⟨g2', hc2⟩ := (C91_commit hw ho hd hR h h2 hg hp ht.bidir ht2.bidir ht.annos ht2.annos ht.sound ht.regular ht.noEmpty).1 ⟨g', hc⟩
  have hal : AlikePending (Equiv.refl _) t.pending t2.pending :=
    ⟨hp.new, hp.unfilled, hp.removed, hp.muts, hp.upds, by simpa using hp.redirAll, by simpa using hp.redir⟩
  have hg' : View.Same g'.get? g2'.get? := C50_commit (σ := Equiv.refl _) rfl hw ht.bidir ht2.bidir h h2 hg hal hc hc2
  obtain ⟨_, c6, k1, _⟩ := (C58_commit_iff hw ho hd hR h ht.bidir ht.annos ht.sound ht.regular ht.noEmpty).1 ⟨g', hc⟩
  obtain ⟨d6, k2, k3⟩ := carriedOut_same hp hg k1
  obtain ⟨v6, ns, p1, _, p2, p3⟩ := C60_report hw hst h hc hrem fun v6 _ => hq.quiet
  obtain ⟨u6, ns2, q1, _, q2, q3⟩ := C60_report hw (fun x m y => steady_again hp hg (hst x m y)) h2 hc2 (cs := cs2) (by
    rintro ⟨name, f, hf⟩ x m y hy hl he
    have := hcs.node name
    rw [hf] at this
    cases e : cs.nodeChecks.get? name with
    | none => rw [e] at this; exact this
    | some f0 => exact hrem ⟨name, f0, e⟩ x m y hy ((hg.link x m y).1 hl) ((hg'.none_iff x).1 he)) fun v6 _ => hq2.quiet
  have s1 : View.Same v6 c6 := performed_same rfl ht.regular.redir ht.regular.redirAll (fun p hp => ht.regular.closures p.1 p.2 hp) (.refl _) p1 k1.performed
  have s2 : View.Same d6 u6 := performed_same rfl ht2.regular.redir ht2.regular.redirAll (fun p hp => ht2.regular.closures p.1 p.2 hp) (.refl _) k2.performed q1
  have e : ns = ns2 := report_same hg ((s1.trans k3).trans s2) hg' hcs p2 q2
  subst e
  rw [p3, q3]
  by_cases e : ns = []
  · simp [e]
  · simp [e]

/-- A program without dangling links that runs through without a panic does so whatever the order of hash sets and the ids of contexts, and ends with
the same. -/
theorem C91_replay (hw : WellNamed S) (ho : OneOpposite S) (hd : DeclaredOnce S) {l l2 : List Call} {w : World}
    (h : RunsThrough S dbg (TidyCalls S) World.init l w) (hl : List.Forall₂ SameCallAsking l l2) (ha : AllowedAll S dbg World.init l2) :
    ∃ w2, RunsThrough S dbg (TidyCalls S) World.init l2 w2 ∧ SameWorld S w w2 := by
  have hst : ∀ w c, TidyCalls S w c → SteadyBidirCalls S w c := fun w c h => h.steady
  have key : ∀ {l l2 : List Call}, List.Forall₂ SameCallAsking l l2 → ∀ {u u2 w : World}, Reruns S dbg (TidyCalls S) u u2 →
      RunsThrough S dbg (TidyCalls S) u l w → AllowedAll S dbg u2 l2 →
      ∃ w2, RunsThrough S dbg (TidyCalls S) u2 l2 w2 ∧ Reruns S dbg (TidyCalls S) w w2 := by
    intro l l2 hl
    induction hl with
    | nil =>
      intro u u2 w hr h _
      cases h
      exact ⟨u2, .nil, hr⟩
    | @cons a b l l2 hab _ ih =>
      intro u u2 w hr h ha
      obtain ⟨hab, hask⟩ := hab
      cases h with
      | cons k1 k2 k3 k4 =>
        have hb : b.Allowed S u2 := ha [] b l2 u2 rfl .nil
        have hsame := C91_program hw hst hr
        have hr2 : TidyCalls S u2 b := k2.again hsame hab
        have find : ∀ {gh k c c' : Nat} {g : Graph} {t : Trans}, u.trans k = some (c, t) → u.graph gh = some (c', g) → c = c' →
            ∃ g2 t2, u2.trans k = some (c, t2) ∧ u2.graph gh = some (c', g2) ∧ View.Same g.get? g2.get? ∧ SamePending t.pending t2.pending ∧
              Meets S dbg (TidyCalls S) g t ∧ Meets S dbg (TidyCalls S) g2 t2 := by
          rintro gh k c _ g t ht hg rfl
          rcases hsame.graph gh with ⟨e, _⟩ | ⟨c0, g0, g2, e1, e2, e3⟩
          · rw [e] at hg; exact absurd hg (by simp)
          rcases hsame.trans k with ⟨f, _⟩ | ⟨c1, t0, t2, f1, f2, f3⟩
          · rw [f] at ht; exact absurd ht (by simp)
          rw [e1, Option.some.injEq, Prod.mk.injEq] at hg
          rw [f1, Option.some.injEq, Prod.mk.injEq] at ht
          obtain ⟨rfl, rfl⟩ := hg
          obtain ⟨rfl, rfl⟩ := ht
          exact ⟨g2, t2, f2, e2, e3.get, f3, ⟨u, gh, k, _, hr.reaches, e1, f1⟩, ⟨u2, gh, k, _, hr.symm.reaches, e2, f2⟩⟩
        have hret : Returns S dbg u2 b := by
          by_cases hc : ∃ g k, a = .commit g k
          · obtain ⟨gh, k, rfl⟩ := hc
            cases b <;> try exact hab.elim
            obtain ⟨rfl, rfl⟩ := hab
            obtain ⟨c, t, c', g, g', ht, hg, hcom⟩ := k3
            obtain ⟨g2, t2, f2, e2, e3, f3, m1, m2⟩ := find ht hg (k1 _ _ _ _ ht hg)
            have ti := k2 _ _ _ _ hg ht
            have ti2 := ti.again f3 e3
            obtain ⟨g2', hc2⟩ := (C91_commit hw ho hd (fun _ _ h => TidyCalls.sound h) m1 m2 e3 f3 ti.bidir ti2.bidir ti.annos ti2.annos
              ti.sound ti.regular ti.noEmpty).1 ⟨g', hcom⟩
            exact ⟨_, t2, _, g2, g2', f2, e2, hc2⟩
          · by_cases hk : ∃ g k cs, a = .commitChecked g k cs
            · obtain ⟨gh, k, cs, rfl⟩ := hk
              cases b <;> try exact hab.elim
              obtain ⟨rfl, rfl⟩ := hab
              obtain ⟨c, t, c', g, g', ht, hg, hcom⟩ := k3
              obtain ⟨g2, t2, f2, e2, e3, f3, m1, m2⟩ := find ht hg (k1 _ _ _ _ ht hg)
              obtain ⟨ti, st⟩ := k2 _ _ _ _ hg ht
              obtain ⟨g2', hc2⟩ := (C91_checked hw ho hd (fun _ _ h => TidyCalls.sound h) m1 m2 e3 f3 ti st (hask _ _ _ _ _ _ rfl rfl)).1 ⟨g', hcom⟩
              exact ⟨_, t2, _, g2, g2', f2, e2, hc2⟩
            · exact (C91_returns hw ho hd hst hr hab k1 hb (fun g k e => hc ⟨g, k, e⟩) (fun g k ch e => hk ⟨g, k, ch, e⟩)).1 k3
        have ha' : AllowedAll S dbg (u2.exec S dbg b) l2 := by
          intro pre c post v e hv
          exact ha (b :: pre) c post v (by rw [e]; rfl) (.cons hb trivial hret hv)
        obtain ⟨w2, j1, j2⟩ := ih (hr.call k1 hb k2 hr2 hab k3 hret) k4 ha'
        exact ⟨w2, .cons hb hr2 hret j1, j2⟩
  obtain ⟨w2, k1, k2⟩ := key hl .start h ha
  exact ⟨w2, k1, C91_program hw hst k2⟩

end TTGraph

namespace TTGraph.Demo
open Spec

/-- The transaction has no closures and redirects each node once. -/
def simple (t : Trans) : Bool :=
  t.muts.isEmpty && t.upds.isEmpty && decide ((t.redir.map Prod.fst).Nodup) && decide ((t.redirAll.map Prod.fst).Nodup)

/-- The step is sound, and simple transactions are committed. -/
def tidyStep (S : Schema) (w : World) (s : Step) : Bool :=
  soundStep S w s && match s with
    | .call (.commit _ k) => simple (transAt w k)
    | .call (.commitChecked _ k _) => simple (transAt w k)
    | _ => true

theorem tidyStep_ok [SetImpl] {S : Schema} {dbg : Bool} {R : World → Call → Prop} (hw : WellNamed S) (hv : noVecFields S = true) (w : World) (s : Step)
    (h : Reaches S dbg R w) (hs : tidyStep S w s = true) : TidyCalls S w s.call' := by
  simp only [tidyStep, Bool.and_eq_true] at hs
  have hso := soundStep_ok hw w s h hs.1
  have st : ∀ (t : Trans) (v : View) x m y, Steady S t v x m y := fun t v x m y => .inl (noVecFields_sound hv m)
  have tidy : ∀ {v : View} {t : Trans}, Sound v t.pending → simple t = true → Tidy S v t := by
    intro v t h h2
    simp only [simple, Bool.and_eq_true, List.isEmpty_iff, decide_eq_true_eq] at h2
    obtain ⟨⟨⟨k1, k2⟩, k3⟩, k4⟩ := h2
    have none : ∀ {i f}, (i, f) ∉ t.pending.muts ++ t.pending.upds := by
      intro i f hm
      have hm : (i, f) ∈ t.muts ++ t.upds := hm
      rw [k1, k2] at hm
      exact absurd hm (by simp)
    exact ⟨h, ⟨k3, k4, fun i f hm => absurd hm none⟩, fun i f hm => absurd hm none, fun _ _ _ _ _ => st _ _ _ _ _, fun _ _ _ => .inl (st _ _ _ _ _)⟩
  cases s with
  | call c =>
    cases c with
    | commit gh k =>
      intro c g c' t hg ht
      have e2 : transAt w k = t := by simp [transAt, ht]
      exact tidy (hso c g c' t hg ht) (by rw [← e2]; exact hs.2)
    | commitChecked gh k cs =>
      intro c g c' t hg ht
      have e2 : transAt w k = t := by simp [transAt, ht]
      exact ⟨tidy (hso c g c' t hg ht) (by rw [← e2]; exact hs.2), st _ _⟩
    | _ => exact hso
  | _ => exact hso

theorem runsThrough_of [SetImpl] {S : Schema} {dbg : Bool} (hw : WellNamed S) (hv : noVecFields S = true) (l : List Step) :
    ∀ {us : List Nat} {w : World}, Reaches S dbg (TidyCalls S) w → Ids us w →
    runOk S dbg (fun w s => tidyStep S w s && returnsOk S dbg w s) us w l = true →
    RunsThrough S dbg (TidyCalls S) w (l.map Step.call') (run S dbg w l) := by
  induction l with
  | nil => exact fun _ _ _ => .nil
  | cons s l ih =>
    intro us w h hu hok
    simp only [runOk, Bool.and_eq_true] at hok
    have h1 := stepOk_sound hu hok.1.1
    have h2 := tidyStep_ok hw hv w s h hok.1.2.1
    exact .cons h1 h2 (returnsOk_sound hok.1.2.2) (ih (h.step h1 h2) (hu.exec _) hok.2)

theorem allowedAll_of [SetImpl] {S : Schema} {dbg : Bool} (l : List Step) : ∀ {us : List Nat} {w : World}, Ids us w →
    runOk S dbg anyStep us w l = true → AllowedAll S dbg w (l.map Step.call') := by
  induction l with
  | nil =>
    intro us w _ _ pre b post u e _
    exact absurd (congrArg List.length e) (by simp)
  | cons s l ih =>
    intro us w hu hok pre b post u e hr
    simp only [runOk, Bool.and_eq_true] at hok
    cases pre with
    | nil =>
      simp only [List.map_cons, List.nil_append, List.cons.injEq] at e
      cases hr
      rw [← e.1]
      exact stepOk_sound hu hok.1.1
    | cons p pre =>
      simp only [List.map_cons, List.cons_append, List.cons.injEq] at e
      cases hr with
      | cons _ _ _ hr =>
        rw [← e.1] at hr
        exact ih (hu.exec _) hok.2 pre b post u e.2 hr

/-- A check that looks at the variant of the node and at nothing else. -/
def variants12 : GraphCheck := GraphCheck.new.insertAddCheck 7 fun _ _ n _ => if n.disc = 1 ∨ n.disc = 2 then .ok else .err

/-- Another closure for the same check: it accepts the same links. -/
def variants21 : GraphCheck := GraphCheck.new.insertAddCheck 7 fun _ _ n _ => if n.disc = 2 ∨ n.disc = 1 then .ok else .err

theorem variants_same : LikeChecks variants12 variants21 := by
  refine ⟨fun name => trivial, fun name => ?_, fun name => trivial⟩
  simp only [variants12, variants21, GraphCheck.insertAddCheck, Sorted.get?_insert]
  by_cases e : (7 : Ident) = name
  · simp only [e, if_true]
    intro x y n n2 o o2 hn _
    have e : n2.disc = n.disc := hn.1
    rw [e]
    simp only [or_comm]
  · simp only [e, if_false]
    trivial

/-- Three nodes and a commit; then a new node with a set, a redirection, a removal and a commit with checks; then the graph moves to another
context. -/
def replay (u : Nat) (s : List NodeIndex) (cs : GraphCheck) : List Step :=
  [.call (.newContext 0 u), .call (.newContext 1 (u + 1)), .call (.newGraph 0 0), .call (.newTrans 0 0), .call (.op 0 (.insert (pA 2 []))),
   .call (.op 0 (.insert (pB [] 0))), .call (.op 0 (.insert (pB [] 0))), .call (.commit 0 0), .call (.newTrans 1 0), .call (.op 1 (.insert (pA 3 s))),
   .call (.op 1 (.redirectLinks 2 3)), .call (.op 1 (.remove 2)), .call (.commitChecked 0 1 cs), .call (.switchContext 0 1)]

/-- C91: a program whose sets may be iterated in different orders runs through once; hence it does so with the other order and other ids too. -/
example : let w := run typed true World.init (replay 77 [2, 3] variants12)
    RunsThrough typed true (TidyCalls typed) World.init ((replay 77 [2, 3] variants12).map Step.call') w ∧ (w.graph 0).isSome = true ∧
    ∃ w2, RunsThrough typed true (TidyCalls typed) World.init ((replay 88 [3, 2] variants21).map Step.call') w2 ∧ SameWorld typed w w2 := by
  intro w
  have hr : RunsThrough typed true (TidyCalls typed) World.init ((replay 77 [2, 3] variants12).map Step.call') w :=
    runsThrough_of (us := []) typed_named (by decide) _ .init (fun _ _ h => absurd h (by simp [World.init])) (by decide +kernel)
  refine ⟨hr, by decide +kernel, C91_replay typed_named typed_one typed_once hr ?_
    (allowedAll_of (us := []) _ (fun _ _ h => absurd h (by simp [World.init])) (by decide +kernel))⟩
  have no : ∀ {a b : Call}, (∀ g k cs, a ≠ .commitChecked g k cs) → SameCall a b → SameCallAsking a b := fun h hab =>
    ⟨hab, fun g k cs _ _ _ e _ => absurd e (h g k cs)⟩
  exact .cons (no (by simp [Step.call']) rfl) (.cons (no (by simp [Step.call']) rfl) (.cons (no (by simp [Step.call']) ⟨rfl, rfl⟩) (.cons (no (by simp [Step.call']) ⟨rfl, rfl⟩)
    (.cons (no (by simp [Step.call']) ⟨rfl, .refl _⟩) (.cons (no (by simp [Step.call']) ⟨rfl, .refl _⟩) (.cons (no (by simp [Step.call']) ⟨rfl, .refl _⟩) (.cons (no (by simp [Step.call']) ⟨rfl, rfl⟩)
    (.cons (no (by simp [Step.call']) ⟨rfl, rfl⟩) (.cons (no (by simp [Step.call']) ⟨rfl, pA_same⟩) (.cons (no (by simp [Step.call']) ⟨rfl, rfl, rfl⟩) (.cons (no (by simp [Step.call']) ⟨rfl, rfl⟩)
    (.cons ⟨⟨rfl, rfl⟩, fun _ _ _ _ _ _ e e2 => by cases e; cases e2; exact variants_same⟩ (.cons (no (by simp [Step.call']) ⟨rfl, rfl⟩) .nil)))))))))))))

/-- Refuses links from nodes of the variant 1. -/
def refuse1 : GraphCheck := GraphCheck.new.insertAddCheck 7 fun _ _ n _ => if n.disc = 1 then .err else .ok

theorem likeChecks_disc (name : Ident) (f : Ident → CheckResult) :
    LikeChecks (GraphCheck.new.insertAddCheck name fun _ _ n _ => f n.disc) (GraphCheck.new.insertAddCheck name fun _ _ n _ => f n.disc) := by
  refine ⟨fun _ => trivial, fun j => ?_, fun _ => trivial⟩
  simp only [GraphCheck.insertAddCheck, Sorted.get?_insert]
  by_cases e : name = j
  · simp only [e, if_true]
    intro x y n n2 o o2 hn _
    rw [show n2.disc = n.disc from hn.1]
  · simp only [e, if_false]
    trivial

theorem neverPanics_disc {name : Ident} {f : Ident → CheckResult} (h : ∀ d, f d ≠ .panics) :
    (GraphCheck.new.insertAddCheck name fun _ _ n _ => f n.disc).NeverPanics := by
  refine ⟨fun j f0 e => absurd e (by simp [GraphCheck.insertAddCheck, GraphCheck.new]), fun j f0 e x y n o => ?_⟩
  simp only [GraphCheck.insertAddCheck, GraphCheck.new, Sorted.get?_insert, Sorted.get?_empty] at e
  rcases e with e | e
  · split at e
    · simp only [Option.some.injEq] at e
      rw [← e]
      exact h _
    · exact absurd e (by simp)
  · exact absurd e (by simp)

/-- C91: the hypotheses of `C91_checked` and `C91_refused` hold in two runs in which a set is iterated in different orders, just before a commit.  One
check accepts what is done in the first run, hence in the second one too; the other one refuses it and is named, hence in the second one too. -/
example : let w := run typed true World.init (rerun3 77 [2, 3])
    let w2 := run typed true World.init (rerun3 88 [3, 2])
    Meets typed true SoundCalls (graphAt w 0) (transAt w 1) ∧ Meets typed true SoundCalls (graphAt w2 0) (transAt w2 1) ∧
    View.Same (graphAt w 0).get? (graphAt w2 0).get? ∧ SamePending (transAt w 1).pending (transAt w2 1).pending ∧
    Tidy typed (graphAt w 0).get? (transAt w 1) ∧ LikeChecks refuse1 refuse1 ∧ refuse1.NeverPanics ∧
    (∃ g2', (graphAt w2 0).commitChecked typed true (transAt w2 1) variants21 = .ok g2') ∧
    (graphAt w2 0).commitChecked typed true (transAt w2 1) refuse1 = .error (.checkFailed [7]) := by
  intro w w2
  have hm : Meets typed true SoundCalls (graphAt w 0) (transAt w 1) := meets_of (rerun3_sound (by decide +kernel)) 0 1 (by decide +kernel)
  have hm2 : Meets typed true SoundCalls (graphAt w2 0) (transAt w2 1) := meets_of (rerun3_sound (by decide +kernel)) 0 1 (by decide +kernel)
  have hs : Sound (graphAt w 0).get? (transAt w 1).pending := sound_sound (hm.ready typed_named).good.inv (by decide +kernel)
  obtain ⟨hr, he⟩ := regular_of (p := (transAt w 1).pending) (l := [(3, pB [1] 4)]) rfl (by decide +kernel) (by decide +kernel) (by decide +kernel)
  have hsame := C91_program typed_named (fun w c _ => typed_noVec.steadyBidirCalls w c) rerun34
  have hg : View.Same (graphAt w 0).get? (graphAt w2 0).get? := by
    rcases hsame.graph 0 with ⟨h, -⟩ | ⟨c, g, g2, h, h2, hs⟩
    · exact absurd (congrArg Option.isSome h) (by decide +kernel)
    · have e : graphAt w 0 = g := by show ((w.graph 0).map Prod.snd).getD _ = g; rw [h]; rfl
      have e2 : graphAt w2 0 = g2 := by show ((w2.graph 0).map Prod.snd).getD _ = g2; rw [h2]; rfl
      rw [e, e2]; exact hs.get
  have hp : SamePending (transAt w 1).pending (transAt w2 1).pending := by
    rcases hsame.trans 1 with ⟨h, -⟩ | ⟨c, g, g2, h, h2, hs⟩
    · exact absurd (congrArg Option.isSome h) (by decide +kernel)
    · have e : transAt w 1 = g := by show ((w.trans 1).map Prod.snd).getD _ = g; rw [h]; rfl
      have e2 : transAt w2 1 = g2 := by show ((w2.trans 1).map Prod.snd).getD _ = g2; rw [h2]; rfl
      rw [e, e2]; exact hs
  have ht : Tidy typed (graphAt w 0).get? (transAt w 1) := ⟨hs, hr, he, typed_noVec.steadyBidir _ _, typed_noVecAnnos.steady _ _⟩
  have st : ∀ x m y, Steady typed (transAt w 1) (graphAt w 0).get? x m y := fun x m y => .inl (noVecFields_sound (by decide) m)
  have hl : LikeChecks refuse1 refuse1 := likeChecks_disc 7 fun d => if d = 1 then .err else .ok
  have hq : refuse1.NeverPanics := neverPanics_disc (f := fun d => if d = 1 then .err else .ok) fun d => by
    by_cases e : d = 1 <;> simp [e]
  refine ⟨hm, hm2, hg, hp, ht, hl, hq, ?_, ?_⟩
  · exact (C91_checked typed_named typed_one typed_once (fun _ _ h => h) hm hm2 hg hp ht st variants_same).1
      ⟨_, got_ok (d := Graph.new 0) (by decide +kernel)⟩
  · refine (C91_refused typed_named typed_one typed_once (fun _ _ h => h) hm hm2 hg hp ht st hl hq hq (got_ok (d := Graph.new 0) (by decide +kernel))
      (fun ⟨name, f, e⟩ => absurd e (by simp [refuse1, GraphCheck.insertAddCheck, GraphCheck.new])) [7]).1 (panic_of (by decide +kernel))

end TTGraph.Demo
