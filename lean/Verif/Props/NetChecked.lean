import Verif.Lemmas.Replay
import Verif.Props.Report
import Verif.Props.Replay
import Verif.Props.Net

/-!
# Only the net effect of a transaction counts, with checks: C85
-/

set_option autoImplicit false

namespace TTGraph
open Spec
variable [SetImpl] {S : Schema} {dbg dbg' : Bool} {R R' : World → Call → Prop}

/-- Two transactions with the same net effect that `commit` accepts: checks that do not look at the order of sets let both pass or none.  (No `Vec`
holds a node twice on the way.) -/
theorem C85_checked (hw : WellNamed S) {g h g' h' : Graph} {t t' : Trans} (hm : Meets S dbg R g t) (hm' : Meets S dbg' R' h t')
    (hst : ∀ x m y, Steady S t g.get? x m y) (hst' : ∀ x m y, Steady S t' h.get? x m y) (hs : View.Same g.get? h.get?)
    (hn : SameNet t t' g.get? h.get?) (hc : g.commit S dbg t = .ok g') (hc' : h.commit S dbg' t' = .ok h') {cs cs' : GraphCheck}
    (hcs : LikeChecks cs cs') : g.commitChecked S dbg t cs = .ok g' ↔ h.commitChecked S dbg' t' cs' = .ok h' := by
  have hg' : View.Same g'.get? h'.get? := C85_same hw hm hm' (fun x m y _ _ => hst x m y) (fun x m y _ _ => hst' x m y) hs hn hc hc'
  obtain ⟨v6, r, p1, _, p2, p3, p4, _⟩ := recorded hw hst hm hc
  obtain ⟨u6, r2, q1, _, q2, q3, q4, _⟩ := recorded hw hst' hm' hc'
  have s : View.Same v6 u6 := hn _ _ p1 q1
  have k : g.commitChecked S dbg t cs = .ok g' ↔ Graph.checkChange g' r cs = .ok [] := by
    rw [p2]
    cases Graph.checkChange g' r cs with
    | error e => simp
    | ok l => cases l <;> simp
  have k' : h.commitChecked S dbg' t' cs' = .ok h' ↔ Graph.checkChange h' r2 cs' = .ok [] := by
    rw [q2]
    cases Graph.checkChange h' r2 cs' with
    | error e => simp
    | ok l => cases l <;> simp
  rw [k, k']
  constructor
  · exact checkChange_again hg' hcs (fun x hx => by
      rw [p3]
      obtain ⟨m, y, hl⟩ := (q3 x).1 hx
      exact ⟨m, y, hl.imp (hs.addedLink s x m y).1 (hs.removedLink s x m y).1⟩)
      (fun c hc => (p4 c).2 ((hs.addedLink s _ _ _).1 ((q4 c).1 hc)))
  · exact checkChange_again hg'.symm (likeChecks_symm hcs) (fun x hx => by
      rw [q3]
      obtain ⟨m, y, hl⟩ := (p3 x).1 hx
      exact ⟨m, y, hl.imp (hs.addedLink s x m y).2 (hs.removedLink s x m y).2⟩)
      (fun c hc => (q4 c).2 ((hs.addedLink s _ _ _).2 ((p4 c).1 hc)))

/-- If checks refuse one of the two transactions, the same ones refuse the other one, and the panics name them in the same order.  (The checks do not
panic, and no node with links is removed if there are node checks, see C31.) -/
theorem C85_refused (hw : WellNamed S) {g h g' h' : Graph} {t t' : Trans} (hm : Meets S dbg R g t) (hm' : Meets S dbg' R' h t')
    (hst : ∀ x m y, Steady S t g.get? x m y) (hst' : ∀ x m y, Steady S t' h.get? x m y) (hs : View.Same g.get? h.get?)
    (hn : SameNet t t' g.get? h.get?) (hc : g.commit S dbg t = .ok g') (hc' : h.commit S dbg' t' = .ok h') {cs cs' : GraphCheck}
    (hcs : LikeChecks cs cs') (hq : cs.NeverPanics) (hq' : cs'.NeverPanics)
    (hrem : (∃ name f, cs.nodeChecks.get? name = some f) → ∀ x m y, y ≠ emptyIdx → View.Link g.get? x m y → g'.get? x ≠ none) (names : List Ident) :
    g.commitChecked S dbg t cs = .error (.checkFailed names) ↔ h.commitChecked S dbg' t' cs' = .error (.checkFailed names) := by
  have hg' : View.Same g'.get? h'.get? := C85_same hw hm hm' (fun x m y _ _ => hst x m y) (fun x m y _ _ => hst' x m y) hs hn hc hc'
  obtain ⟨v6, ns, p1, _, p2, p3⟩ := C60_report hw hst hm hc hrem fun v6 _ => hq.quiet
  obtain ⟨u6, ns2, q1, _, q2, q3⟩ := C60_report hw hst' hm' hc' (cs := cs') (by
    rintro ⟨name, f, hf⟩ x m y hy hl he
    have := hcs.node name
    rw [hf] at this
    cases e : cs.nodeChecks.get? name with
    | none => rw [e] at this; exact this
    | some f0 => exact hrem ⟨name, f0, e⟩ x m y hy ((hs.link x m y).1 hl) ((hg'.none_iff x).1 he)) fun v6 _ => hq'.quiet
  have e : ns = ns2 := report_same hs (hn _ _ p1 q1) hg' hcs p2 q2
  subst e
  rw [p3, q3]
  by_cases e : ns = []
  · simp [e]
  · simp [e]

/-- A transaction without net effect passes all checks, whatever they are: none of them is run. -/
theorem C85_nothing_checked (hw : WellNamed S) {g : Graph} {t : Trans} (hm : Meets S dbg R g t) (hst : ∀ x m y, Steady S t g.get? x m y)
    (hn : NoNet t g.get?) (hfill : dbg = true → ∀ i, ¬ t.pending.unfilled i) (hvalid : Valid S g.get? t.pending) (cs : GraphCheck) :
    ∃ g', g.commitChecked S dbg t cs = .ok g' ∧ View.Same g.get? g'.get? := by
  obtain ⟨g', hc, hs⟩ := C85_nothing hw hm (fun x m y _ _ => hst x m y) (fun x m y => .inl (hst x m y)) hn hfill hvalid
  obtain ⟨v6, r, p1, _, p2, p3, p4, _⟩ := recorded hw hst hm hc
  have n1 : (Graph.changedNodes r).elems = [] := by
    refine List.eq_nil_iff_forall_not_mem.2 fun x hx => ?_
    obtain ⟨m, y, hl | hl⟩ := (p3 x).1 hx
    · exact hl.2.2 (((hn v6 p1).link x m y).1 hl.2.1)
    · exact hl.2.2 (((hn v6 p1).link x m y).2 hl.2.1)
  have n2 : r.adds.elems = [] := by
    refine List.eq_nil_iff_forall_not_mem.2 fun c hx => ?_
    have hl := (p4 c).1 hx
    exact hl.2.2 (((hn v6 p1).link _ _ _).1 hl.2.1)
  refine ⟨g', ?_, hs⟩
  rw [p2, show Graph.checkChange g' r cs = .ok [] from Graph.checkChange_nil.2 (by simp [n1, n2])]

end TTGraph

namespace TTGraph.Demo
open Spec

theorem pair_steady (t : Trans) (v : View) (x : NodeIndex) (m : Mirror) (y : NodeIndex) : Steady pair t v x m y := .inl (noVecFields_sound (by decide) m)

/-- Refuses links from nodes of the variant 2. -/
def refuse2 : GraphCheck := GraphCheck.new.insertAddCheck 7 fun _ _ n _ => if n.disc = 2 then .err else .ok

/-- C85: the two transactions with the same net effect of `net4`.  One check lets the first one pass, hence the second one too; another one refuses the
first one and is named, hence the second one too. -/
example : let g := graphAt netW 0
    (∃ g2, g.commitChecked pair true (transAt netW 2) refuse2 = .ok g2) ∧
    g.commitChecked pair true (transAt netW 2) refuse1 = .error (.checkFailed [7]) := by
  have hc1 : (graphAt netW 0).commit pair true (transAt netW 1) = .ok _ := got_ok (d := Graph.new 0) (by decide +kernel)
  have hc2 : (graphAt netW 0).commit pair true (transAt netW 2) = .ok _ := got_ok (d := Graph.new 0) (by decide +kernel)
  have hq : refuse1.NeverPanics := neverPanics_disc (f := fun d => if d = 1 then .err else .ok) fun d => by
    by_cases e : d = 1 <;> simp [e]
  refine ⟨⟨_, (C85_checked pair_named (netW_meets 1) (netW_meets 2) (pair_steady _ _) (pair_steady _ _) (.refl _) net_same hc1 hc2
    (likeChecks_disc 7 fun d => if d = 2 then .err else .ok)).1 ?_⟩, ?_⟩
  · obtain ⟨g', h⟩ : ∃ g', (graphAt netW 0).commitChecked pair true (transAt netW 1) refuse2 = .ok g' := ⟨_, got_ok (d := Graph.new 0) (by decide +kernel)⟩
    have := Graph.commit_of_checked h
    rw [hc1, Except.ok.injEq] at this
    rw [this]
    exact h
  · exact (C85_refused pair_named (netW_meets 1) (netW_meets 2) (pair_steady _ _) (pair_steady _ _) (.refl _) net_same hc1 hc2
      (likeChecks_disc 7 fun d => if d = 1 then .err else .ok) hq hq
      (fun ⟨name, f, e⟩ => absurd e (by simp [refuse1, GraphCheck.insertAddCheck, GraphCheck.new])) [7]).1 (panic_of (by decide +kernel))

/-- C85: a check that refuses every node and a check that panics on every link are not asked about the third transaction. -/
example : let g := graphAt netW 0
    ∃ g', g.commitChecked pair true (transAt netW 3) ((GraphCheck.new.insertNodeCheck 8 fun _ _ => .err).insertAddCheck 9 fun _ _ _ _ => .panics) = .ok g' ∧
      View.Same g.get? g'.get? := by
  refine C85_nothing_checked pair_named (netW_meets 3) (pair_steady _ _) ?_ (net_filled 3) net_valid3 _
  refine noNet_of pair_named (netW_meets 3) (by decide +kernel) (by decide +kernel) ?_ (got_ok (d := (Graph.new 0, Lcr.new)) (by decide +kernel)) (by decide +kernel)
  intro p hp
  have : p ∈ [((1 : NodeIndex), const (pA 4 [4])), (1, const (pA 2 [4]))] := hp
  simp only [List.mem_cons, List.not_mem_nil, or_false] at this
  rcases this with rfl | rfl <;> exact const_respects _

end TTGraph.Demo
