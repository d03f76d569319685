import Verif.Lemmas.Report
import Verif.Props.Checks
import Verif.Props.Types

/-!
# C60: what `commit_checked` reports
-/

set_option autoImplicit false

namespace TTGraph

open Spec

variable [SetImpl] {S : Schema} {dbg : Bool} {R : World → Call → Prop}

/-- `commit_checked` when `commit` would return and no check function panics (and no node check meets a removed node, see C31): with the
names of the failed checks as `Report` says, it returns the graph of `commit` if there are none, and otherwise panics with exactly these names in
this order. -/
theorem C60_report (hw : WellNamed S) {g g' : Graph} {t : Trans} {cs : GraphCheck}
    (hnv : ∀ x m y, Steady S t g.get? x m y) (h : Meets S dbg R g t) (hc : g.commit S dbg t = .ok g')
    (hrem : (∃ name f, cs.nodeChecks.get? name = some f) → ∀ x m y, y ≠ emptyIdx → View.Link g.get? x m y → g'.get? x ≠ none)
    (hq : ∀ v6, Performed t g.get? v6 → ¬ CheckPanics cs g.get? v6 g'.get?) :
    ∃ v6 names, Performed t g.get? v6 ∧ Completion S g.get? v6 g'.get? ∧ Report cs g.get? v6 g'.get? names ∧
      g.commitChecked S dbg t cs = if names = [] then .ok g' else .error (.checkFailed names) := by
  obtain ⟨v6, r, h1, h2, h3, h4, h5, h6, h7⟩ := recorded hw hnv h hc
  have hq := hq v6 h1
  have qn : ∀ name f, cs.nodeChecks.get? name = some f → ∀ x ∈ (Graph.changedNodes r).elems, ∃ n, g'.get? x = some n ∧
      Graph.runNodeCheck g' f x = (f x n).run ∧ f x n ≠ .panics := by
    intro name f hf x hx
    rcases Graph.runNodeCheck_cases (g := g') (f := f) (x := x) with ⟨hn, _⟩ | ⟨n, hn, hr⟩
    · obtain ⟨m, y, h8, h9⟩ := h7 x ((h4 x).1 hx) hn
      exact absurd hn (hrem ⟨name, f, hf⟩ x m y h8 h9)
    · exact ⟨n, hn, hr, fun hp => hq (.inl ⟨name, f, hf, x, n, (h4 x).1 hx, hn, hp⟩)⟩
  have ql : ∀ f, (∀ x m y n, AddedLink g.get? v6 x m y → g'.get? x = some n → f x y n (g'.get? y) ≠ .panics) → ∀ c ∈ r.adds.elems,
      ∃ n, g'.get? c.1 = some n ∧ Graph.runLinkCheck g' f c = (f c.1 c.2.1 n (g'.get? c.2.1)).run ∧ f c.1 c.2.1 n (g'.get? c.2.1) ≠ .panics := by
    intro f hf c hcr
    have ha := (h5 c).1 hcr
    rcases Graph.runLinkCheck_cases (g := g') (f := f) (c := c) with ⟨hn, _⟩ | ⟨n, hn, hr⟩
    · obtain ⟨n, hn'⟩ := h6 _ _ _ ha
      rw [hn] at hn'; exact absurd hn' (by simp)
    · exact ⟨n, hn, hr, hf _ _ _ n ha hn⟩
  have qa : ∀ name f, cs.addChecks.get? name = some f → ∀ x m y n, AddedLink g.get? v6 x m y → g'.get? x = some n →
      f x y n (g'.get? y) ≠ .panics := fun name f hf x m y n ha hn hp => hq (.inr (.inl ⟨name, f, hf, x, m, y, n, ha, hn, hp⟩))
  have qr : ∀ name f, cs.removeChecks.get? name = some f → ∀ x m y n, AddedLink g.get? v6 x m y → g'.get? x = some n →
      f x y n (g'.get? y) ≠ .panics := fun name f hf x m y n ha hn hp => hq (.inr (.inr ⟨name, f, hf, x, m, y, n, ha, hn, hp⟩))
  have quietN : ∀ name f, cs.nodeChecks.get? name = some f → ∀ x ∈ (Graph.changedNodes r).elems, ∀ e, Graph.runNodeCheck g' f x ≠ .error e := by
    intro name f hf x hx e he
    obtain ⟨n, _, hr, hp⟩ := qn name f hf x hx
    rw [hr] at he
    exact hp (CheckResult.run_error.1 he).1
  have quietL : ∀ f, (∀ x m y n, AddedLink g.get? v6 x m y → g'.get? x = some n → f x y n (g'.get? y) ≠ .panics) → ∀ c ∈ r.adds.elems,
      ∀ e, Graph.runLinkCheck g' f c ≠ .error e := by
    intro f hf c hcr e he
    obtain ⟨n, _, hr, hp⟩ := ql f hf c hcr
    rw [hr] at he
    exact hp (CheckResult.run_error.1 he).1
  have failN : ∀ name f, cs.nodeChecks.get? name = some f →
      (Graph.anyFails (Graph.runNodeCheck g' f) (Graph.changedNodes r).elems = .ok true ↔ NodeVerdict g.get? v6 g'.get? f .err) := by
    intro name f hf
    rw [(Graph.anyFails_of_quiet (quietN name f hf)).2]
    constructor
    · rintro ⟨x, hx, hr⟩
      obtain ⟨n, hn, hr', _⟩ := qn name f hf x hx
      rw [hr'] at hr
      exact ⟨x, n, (h4 x).1 hx, hn, CheckResult.run_false.1 hr⟩
    · rintro ⟨x, n, hx, hn, hr⟩
      obtain ⟨n', hn', hr', _⟩ := qn name f hf x ((h4 x).2 hx)
      rw [hn, Option.some.injEq] at hn'
      subst hn'
      exact ⟨x, (h4 x).2 hx, by rw [hr']; exact CheckResult.run_false.2 hr⟩
  have failL : ∀ f, (∀ x m y n, AddedLink g.get? v6 x m y → g'.get? x = some n → f x y n (g'.get? y) ≠ .panics) →
      (Graph.anyFails (Graph.runLinkCheck g' f) r.adds.elems = .ok true ↔ LinkVerdict g.get? v6 g'.get? f .err) := by
    intro f hf
    rw [(Graph.anyFails_of_quiet (quietL f hf)).2]
    constructor
    · rintro ⟨c, hcr, hr⟩
      obtain ⟨n, hn, hr', _⟩ := ql f hf c hcr
      rw [hr'] at hr
      exact ⟨c.1, c.2.2, c.2.1, n, (h5 c).1 hcr, hn, CheckResult.run_false.1 hr⟩
    · rintro ⟨x, m, y, n, ha, hn, hr⟩
      have hcr := (h5 (x, y, m)).2 ha
      obtain ⟨n', hn', hr', _⟩ := ql f hf _ hcr
      rw [hn, Option.some.injEq] at hn'
      subst hn'
      exact ⟨_, hcr, by rw [hr']; exact CheckResult.run_false.2 hr⟩
  cases hch : Graph.checkChange g' r cs with
  | error e =>
    rcases Graph.checkChange_error hch with ⟨name, f, hf, x, hx, he⟩ | ⟨name, f, hf, x, hx, he⟩ | ⟨name, f, hf, x, hx, he⟩
    · exact absurd he (quietN name f hf x hx e)
    · exact absurd he (quietL f (qa name f hf) x hx e)
    · exact absurd he (quietL f (qr name f hf) x hx e)
  | ok names =>
    obtain ⟨l1, l2, l3, he, a1, a2, a3, b1, b2, b3⟩ := Graph.checkChange_ok hch
    refine ⟨v6, names, h1, h2, ⟨l1, l2, l3, he, a1, a2, a3, fun name => ?_, fun name => ?_, fun name => ?_⟩, ?_⟩
    · rw [b1]; exact exists_congr fun f => and_congr_right fun hf => failN name f hf
    · rw [b2]; exact exists_congr fun f => and_congr_right fun hf => failL f (qa name f hf)
    · rw [b3]; exact exists_congr fun f => and_congr_right fun hf => failL f (qr name f hf)
    · rw [h3, hch]
      cases names <;> simp

/-- In general, `commit_checked` panics only for one of these reasons, if `commit` would return: some checks have returned `Err`, and it names
only such checks, and at least one; a check function has panicked; or a node check is registered and a node that had a link to another node has
been removed. -/
theorem C60_reasons (hw : WellNamed S) {g g' : Graph} {t : Trans} {cs : GraphCheck} {e : Panic}
    (hnv : ∀ x m y, Steady S t g.get? x m y) (h : Meets S dbg R g t) (hc : g.commit S dbg t = .ok g') (he : g.commitChecked S dbg t cs = .error e) :
    ∃ v6, Performed t g.get? v6 ∧ Completion S g.get? v6 g'.get? ∧
      ((∃ names, e = .checkFailed names ∧ names ≠ [] ∧ ∀ name ∈ names, CheckFails cs g.get? v6 g'.get? name) ∨
        (e = .user ∧ CheckPanics cs g.get? v6 g'.get?) ∨
        (e = .nodeMissing ∧ (∃ name f, cs.nodeChecks.get? name = some f) ∧
          ∃ x m y, y ≠ emptyIdx ∧ View.Link g.get? x m y ∧ g'.get? x = none)) := by
  obtain ⟨v6, r, h1, h2, h3, h4, h5, h6, h7⟩ := recorded hw hnv h hc
  refine ⟨v6, h1, h2, ?_⟩
  have link : ∀ f : LinkCheck, ∀ c ∈ r.adds.elems, ∃ n, g'.get? c.1 = some n ∧ Graph.runLinkCheck g' f c = (f c.1 c.2.1 n (g'.get? c.2.1)).run := by
    intro f c hcr
    rcases Graph.runLinkCheck_cases (g := g') (f := f) (c := c) with ⟨hn, _⟩ | h8
    · obtain ⟨n, hn'⟩ := h6 _ _ _ ((h5 c).1 hcr)
      rw [hn] at hn'; exact absurd hn' (by simp)
    · exact h8
  have linkFails : ∀ f : LinkCheck, Graph.anyFails (Graph.runLinkCheck g' f) r.adds.elems = .ok true → LinkVerdict g.get? v6 g'.get? f .err := by
    intro f hf
    obtain ⟨c, hcr, hr⟩ := Graph.anyFails_true hf
    obtain ⟨n, hn, hr'⟩ := link f c hcr
    rw [hr'] at hr
    exact ⟨c.1, c.2.2, c.2.1, n, (h5 c).1 hcr, hn, CheckResult.run_false.1 hr⟩
  have linkPanics : ∀ (f : LinkCheck) (c : Change) (e' : Panic), c ∈ r.adds.elems → Graph.runLinkCheck g' f c = .error e' →
      e' = .user ∧ LinkVerdict g.get? v6 g'.get? f .panics := by
    intro f c e' hcr hr
    obtain ⟨n, hn, hr'⟩ := link f c hcr
    rw [hr'] at hr
    exact ⟨(CheckResult.run_error.1 hr).2, c.1, c.2.2, c.2.1, n, (h5 c).1 hcr, hn, (CheckResult.run_error.1 hr).1⟩
  rw [h3] at he
  cases hch : Graph.checkChange g' r cs with
  | error e' =>
    rw [hch] at he
    simp only [Except.error.injEq] at he
    subst he
    rcases Graph.checkChange_error hch with ⟨name, f, hf, x, hx, he⟩ | ⟨name, f, hf, c, hcr, he⟩ | ⟨name, f, hf, c, hcr, he⟩
    · rcases Graph.runNodeCheck_cases (g := g') (f := f) (x := x) with ⟨hn, hr⟩ | ⟨n, hn, hr⟩
      · rw [hr, Except.error.injEq] at he
        obtain ⟨m, y, h8, h9⟩ := h7 x ((h4 x).1 hx) hn
        exact .inr (.inr ⟨he.symm, ⟨name, f, hf⟩, x, m, y, h8, h9, hn⟩)
      · rw [hr] at he
        exact .inr (.inl ⟨(CheckResult.run_error.1 he).2, .inl ⟨name, f, hf, x, n, (h4 x).1 hx, hn, (CheckResult.run_error.1 he).1⟩⟩)
    · obtain ⟨h8, h9⟩ := linkPanics f c _ hcr he
      exact .inr (.inl ⟨h8, .inr (.inl ⟨name, f, hf, h9⟩)⟩)
    · obtain ⟨h8, h9⟩ := linkPanics f c _ hcr he
      exact .inr (.inl ⟨h8, .inr (.inr ⟨name, f, hf, h9⟩)⟩)
  | ok names =>
    rw [hch] at he
    cases names with
    | nil => exact absurd he (by simp)
    | cons a names =>
      simp only [Except.error.injEq] at he
      refine .inl ⟨_, he.symm, by simp, fun name hname => ?_⟩
      obtain ⟨l1, l2, l3, hl, _, _, _, b1, b2, b3⟩ := Graph.checkChange_ok hch
      rw [hl, List.mem_append, List.mem_append] at hname
      rcases hname with (hname | hname) | hname
      · obtain ⟨f, hf, hr⟩ := (b1 name).1 hname
        obtain ⟨x, hx, hr⟩ := Graph.anyFails_true hr
        rcases Graph.runNodeCheck_cases (g := g') (f := f) (x := x) with ⟨_, hr'⟩ | ⟨n, hn, hr'⟩
        · rw [hr'] at hr; exact absurd hr (by simp)
        · rw [hr'] at hr
          exact .inl ⟨f, hf, x, n, (h4 x).1 hx, hn, CheckResult.run_false.1 hr⟩
      · obtain ⟨f, hf, hr⟩ := (b2 name).1 hname
        exact .inr (.inl ⟨f, hf, linkFails f hr⟩)
      · obtain ⟨f, hf, hr⟩ := (b3 name).1 hname
        exact .inr (.inr ⟨f, hf, linkFails f hr⟩)

end TTGraph

/-! ### Concrete cases -/

namespace TTGraph.Demo
open Spec

/-- Link-add checks under the names 9 and 8, registered in this order, that refuse everything; one under the name 7 that accepts links to node
3; a node check under the name 9 and a link-remove check under the name 5, that refuse everything. -/
def manyChecks : GraphCheck :=
  ((((GraphCheck.new.insertAddCheck 9 refuse).insertAddCheck 8 refuse).insertAddCheck 7 only3).insertNodeCheck 9 refuseNode).insertRemoveCheck 5 refuse

/-- A transaction that inserts a node with a link to node 3. -/
def link3 : List Step := check3 ++ [.call (.op 1 (.insert (pA 3 [])))]

theorem link3_meets : Meets pair true AnyCall (graphAt (run pair true World.init link3) 0) (transAt (run pair true World.init link3) 1) :=
  meets_of (reaches link3 (by decide +kernel)) 0 1 (by decide +kernel)

/-- `commit_checked` names the node check 9, the link-add checks 8 and 9, and the link-remove check 5, in this order. -/
theorem link3_checked : checked pair link3 manyChecks = .error (.checkFailed [9, 8, 9, 5]) := rfl

theorem manyChecks_node {name : Ident} {f : NodeCheck} (hf : manyChecks.nodeChecks.get? name = some f) : f = refuseNode := by
  have : manyChecks.nodeChecks.get? name = if 9 = name then some refuseNode else none := Sorted.get?_insert _ _ _ _
  rw [this] at hf
  split at hf
  · exact (Option.some.inj hf).symm
  · exact absurd hf (by simp)

theorem manyChecks_add {name : Ident} {f : LinkCheck} (hf : manyChecks.addChecks.get? name = some f) : f = refuse ∨ f = only3 := by
  have : manyChecks.addChecks.get? name = if 7 = name then some only3 else if 8 = name then some refuse else if 9 = name then some refuse else none := by
    simp [manyChecks, GraphCheck.insertAddCheck, GraphCheck.insertNodeCheck, GraphCheck.insertRemoveCheck, GraphCheck.new, Sorted.get?_insert]
  rw [this] at hf
  split at hf
  · exact .inr (Option.some.inj hf).symm
  · split at hf
    · exact .inl (Option.some.inj hf).symm
    · split at hf
      · exact .inl (Option.some.inj hf).symm
      · exact absurd hf (by simp)

theorem manyChecks_remove {name : Ident} {f : LinkCheck} (hf : manyChecks.removeChecks.get? name = some f) : f = refuse := by
  have : manyChecks.removeChecks.get? name = if 5 = name then some refuse else none := Sorted.get?_insert _ _ _ _
  rw [this] at hf
  split at hf
  · exact (Option.some.inj hf).symm
  · exact absurd hf (by simp)

theorem only3_quiet (x y : NodeIndex) (n : Node) (o : Option Node) : only3 x y n o ≠ .panics := by
  unfold only3; split <;> simp

theorem manyChecks_quiet (v v6 v' : View) : ¬ CheckPanics manyChecks v v6 v' := by
  rintro (⟨name, f, hf, x, n, _, _, hp⟩ | ⟨name, f, hf, x, m, y, n, _, _, hp⟩ | ⟨name, f, hf, x, m, y, n, _, _, hp⟩)
  · rw [manyChecks_node hf] at hp; exact absurd hp (by simp [refuseNode])
  · rcases manyChecks_add hf with rfl | rfl
    · exact absurd hp (by simp [refuse])
    · exact only3_quiet _ _ _ _ hp
  · rw [manyChecks_remove hf] at hp; exact absurd hp (by simp [refuse])

/-- `C60_report` applies there, and the report of it is the list above. -/
example : ∃ v6 g', (graphAt (run pair true World.init link3) 0).commit pair true (transAt (run pair true World.init link3) 1) = .ok g' ∧
    Performed (transAt (run pair true World.init link3) 1) (graphAt (run pair true World.init link3) 0).get? v6 ∧
    Report manyChecks (graphAt (run pair true World.init link3) 0).get? v6 g'.get? [9, 8, 9, 5] := by
  have hc : (graphAt (run pair true World.init link3) 0).commit pair true (transAt (run pair true World.init link3) 1) =
      .ok (got (Graph.new 0) ((graphAt (run pair true World.init link3) 0).commit pair true (transAt (run pair true World.init link3) 1))) :=
    got_ok (by decide +kernel)
  obtain ⟨v6, names, h1, _, h2, h3⟩ := C60_report (cs := manyChecks) pair_named (fun _ m _ => Or.inl (noVecFields_sound (by decide) m)) link3_meets hc
    (fun _ x m y h0 hl hn => by
      have hk := keepsLinks_sound (link3_meets.inv pair_named) (v' := (got (Graph.new 0) ((graphAt (run pair true World.init link3) 0).commit pair
        true (transAt (run pair true World.init link3) 1))).get?) (by decide +kernel) x m y
      exact hk ⟨h0, hl, fun ⟨n, hn', _⟩ => by rw [hn] at hn'; exact absurd hn' (by simp)⟩)
    (fun v6 _ => manyChecks_quiet _ v6 _)
  have h4 := link3_checked
  unfold checked at h4
  rw [h3] at h4
  split at h4
  · exact absurd h4 (by simp)
  · simp only [Except.error.injEq, Panic.checkFailed.injEq] at h4
    subst h4
    exact ⟨v6, _, hc, h1, h2⟩

/-- A check function that panics, and that is registered under a name that comes first: its panic is what one sees. -/
example : checked pair link3 (manyChecks.insertNodeCheck 3 fun _ _ => .panics) = .error .user := rfl

/-- Also when other checks have failed before: the panic hides their names. -/
example : checked pair link3 (manyChecks.insertRemoveCheck 9 fun _ _ _ _ => .panics) = .error .user := rfl

/-- `C60_reasons` applies there. -/
example : ∃ v6 g', (graphAt (run pair true World.init link3) 0).commit pair true (transAt (run pair true World.init link3) 1) = .ok g' ∧
    CheckPanics (manyChecks.insertNodeCheck 3 fun _ _ => .panics) (graphAt (run pair true World.init link3) 0).get? v6 g'.get? := by
  have hc : (graphAt (run pair true World.init link3) 0).commit pair true (transAt (run pair true World.init link3) 1) =
      .ok (got (Graph.new 0) ((graphAt (run pair true World.init link3) 0).commit pair true (transAt (run pair true World.init link3) 1))) :=
    got_ok (by decide +kernel)
  have he : (graphAt (run pair true World.init link3) 0).commitChecked pair true (transAt (run pair true World.init link3) 1)
      (manyChecks.insertNodeCheck 3 fun _ _ => .panics) = .error .user := rfl
  obtain ⟨v6, _, _, ⟨_, h, _⟩ | ⟨_, h⟩ | ⟨h, _⟩⟩ := C60_reasons pair_named (fun _ m _ => Or.inl (noVecFields_sound (by decide) m)) link3_meets hc he
  · exact absurd h (by simp)
  · exact ⟨v6, _, hc, h⟩
  · exact absurd h (by simp)

/-- The hypotheses of C29, C30, C31 and C60 for a `Vec` field: it goes from `[1]` to `[2, 1]`, and a check that accepts only links to 2 passes, so it
was run on the new link only. -/
example : let w := run vecAnno true World.init (vec3 ++ [.mutate 1 3 (nA 0 [] [2, 1] 0)])
    Meets vecAnno true AnyCall (graphAt w 0) (transAt w 1) ∧ vecAnno.kind? ⟨1, 2⟩ = some .vec ∧
      (∀ x m y, Steady vecAnno (transAt w 1) (graphAt w 0).get? x m y) ∧
      (∃ g', (graphAt w 0).commitChecked vecAnno true (transAt w 1) (addCheck fun _ y _ _ => if y = 2 then .ok else .err) = .ok g' ∧
        AddedLink (graphAt w 0).get? g'.get? 3 ⟨1, 2⟩ 2) ∧
      (graphAt w 0).commitChecked vecAnno true (transAt w 1) (addCheck fun _ y _ _ => if y = 1 then .ok else .err) = .error (.checkFailed [7]) := by
  have hm := meets_of (reaches (S := vecAnno) (dbg := true) (vec3 ++ [.mutate 1 3 (nA 0 [] [2, 1] 0)]) (by decide +kernel)) 0 1 (by decide +kernel)
  exact ⟨hm, rfl, fun x m y => vec3_steady hm (by decide +kernel) x m y (by decide +kernel) (by decide +kernel),
    ⟨_, got_ok (d := Graph.new 0) (by decide +kernel), added_of (by decide +kernel)⟩, rfl⟩

end TTGraph.Demo
