import Verif.Spec.Vec
import Verif.Lemmas.BidirVec
import Verif.Lemmas.Schema

/-!
# `commit` against its specification
-/

set_option autoImplicit false

namespace TTGraph
namespace Graph
open Spec

section
variable [SetImpl] {S : Schema} {e0 : Prop}

omit [SetImpl] in
theorem link_of_adds {v v6 : View} {r : Lcr} (ho : Lcr.Ok (Tracked S) (View.L v) (View.L v6) r) {x y : NodeIndex} {m : Mirror} (hm : S.kind? m ≠ some .vec) :
    (x, y, m) ∈ r.adds ↔ AddedLink v v6 x m y := by
  constructor
  · intro h
    have hz := ho.nzA _ h
    exact ⟨hz, ho.weakA _ h, ho.addsD _ ⟨hz, hm⟩ h⟩
  · rintro ⟨hz, h1, h2⟩
    exact ho.fullA _ ⟨hz, hm⟩ h1 h2

omit [SetImpl] in
theorem link_of_removes {v v6 : View} {r : Lcr} (ho : Lcr.Ok (Tracked S) (View.L v) (View.L v6) r) {x y : NodeIndex} {m : Mirror} (hm : S.kind? m ≠ some .vec) :
    (x, y, m) ∈ r.removes ↔ RemovedLink v v6 x m y := by
  constructor
  · intro h
    have hz := ho.nzR _ h
    exact ⟨hz, ho.remsD _ ⟨hz, hm⟩ h, ho.weakR _ h⟩
  · rintro ⟨hz, h1, h2⟩
    exact ho.fullR _ ⟨hz, hm⟩ h1 h2

omit [SetImpl] in
theorem PerformOut.adds {t : Trans} {g g' : Graph} {r' : Lcr} (h : PerformOut S e0 t g g' r') {x y : NodeIndex} {m : Mirror}
    (hs : Spec.Steady S t g.get? x m y) : (x, y, m) ∈ r'.adds ↔ AddedLink g.get? g'.get? x m y := by
  have ho := h.ok (fun c => c.2.1 ≠ emptyIdx ∧ Spec.Steady S t g.get? c.1 c.2.2 c.2.1) fun _ hc => hc
  constructor
  · intro h
    have hz := ho.nzA _ h
    exact ⟨hz, ho.weakA _ h, ho.addsD _ ⟨hz, hs⟩ h⟩
  · rintro ⟨hz, h1, h2⟩
    exact ho.fullA _ ⟨hz, hs⟩ h1 h2

omit [SetImpl] in
theorem PerformOut.removes {t : Trans} {g g' : Graph} {r' : Lcr} (h : PerformOut S e0 t g g' r') {x y : NodeIndex} {m : Mirror}
    (hs : Spec.Steady S t g.get? x m y) : (x, y, m) ∈ r'.removes ↔ RemovedLink g.get? g'.get? x m y := by
  have ho := h.ok (fun c => c.2.1 ≠ emptyIdx ∧ Spec.Steady S t g.get? c.1 c.2.2 c.2.1) fun _ hc => hc
  constructor
  · intro h
    have hz := ho.nzR _ h
    exact ⟨hz, ho.remsD _ ⟨hz, hs⟩ h, ho.weakR _ h⟩
  · rintro ⟨hz, h1, h2⟩
    exact ho.fullR _ ⟨hz, hs⟩ h1 h2

omit [SetImpl] in
theorem opp_iff (hw : WellNamed S) {v : View} {x y : NodeIndex} {m m' : Mirror} :
    View.Opp S v (x, y, m) m' ↔ ∃ d, Ends v x y d ∧ Opposite S m m' ∧ m'.disc = d := by
  simp only [View.Opp, Ends, Schema.mem_opposites_iff hw]
  constructor
  · rintro ⟨h1, n, h2, h3, h4⟩; exact ⟨n.disc, ⟨h1, n, h2, rfl⟩, h3, h4⟩
  · rintro ⟨d, ⟨h1, n, h2, rfl⟩, h3, h4⟩; exact ⟨h1, n, h2, h3, h4⟩

omit [SetImpl] in
theorem onlyOpp_imp (hw : WellNamed S) {v : View} {x y : NodeIndex} {m m' : Mirror} (h : View.OnlyOpp S v (x, y, m) m') :
    ∃ d, Ends v x y d ∧ OnlyOpposite S m d m' := by
  obtain ⟨h1, n, h2, h3⟩ := h
  exact ⟨n.disc, ⟨h1, n, h2, rfl⟩, Schema.onlyOpposite_of_single hw h3⟩

omit [SetImpl] in
theorem onlyOpp_iff (hw : WellNamed S) (hd : DeclaredOnce S) {v : View} {x y : NodeIndex} {m m' : Mirror} :
    View.OnlyOpp S v (x, y, m) m' ↔ ∃ d, Ends v x y d ∧ OnlyOpposite S m d m' := by
  refine ⟨onlyOpp_imp hw, ?_⟩
  rintro ⟨d, ⟨h1, n, h2, rfl⟩, h3⟩
  exact ⟨h1, n, h2, Schema.opposites_single hw hd h3⟩

/-- Every added link whose target has a possible opposite field has an opposite in `v7`. -/
def Covered (S : Schema) (v v6 v7 : View) : Prop :=
  ∀ x m y d, AddedLink v v6 x m y → Ends v6 x y d → (∃ m', Opposite S m m' ∧ m'.disc = d) → ∃ m', Opposite S m m' ∧ m'.disc = d ∧ v7.Link y m' x

/-- An added link has possible opposites and none of them is there. -/
def Unanswered (S : Schema) (v v6 : View) : Prop :=
  ∃ x m y d, AddedLink v v6 x m y ∧ Ends v6 x y d ∧ (∃ m1, Opposite S m m1 ∧ m1.disc = d) ∧
    ∀ m', Opposite S m m' → m'.disc = d → ¬ StillLinked S v v6 y m' x

omit [SetImpl] in
theorem Edited.same (hw : WellNamed S) {g g' : Graph} (h : Edited S e0 g g') : SameUpToBidir S g.get? g'.get? :=
  ⟨h.kept.shape, fun x s y hs => h.only x s y fun m hm => hs m ((Schema.mem_mirrorsOf hw).1 hm)⟩

/-- Completion of any kind of field, if it returns. -/
theorem completion_of (hw : WellNamed S) {v : View} {g6 g7 : Graph} {r6 : Lcr} (hinv : g6.Inv S e0)
    (hadds : ∀ {x m y m'}, Opposite S m m' → ((x, y, m) ∈ r6.adds ↔ AddedLink v g6.get? x m y))
    (hrems : ∀ {x m y m'}, Opposite S m m' → ((x, y, m) ∈ r6.removes ↔ RemovedLink v g6.get? x m y))
    (h1 : applyBidirectional S g6 r6 = .ok g7) :
    Completion S v g6.get? g7.get? ∧ Covered S v g6.get? g7.get? ∧ ¬ VecLeft S v g6.get? := by
  obtain ⟨hk, hnv, hH, hcov⟩ := applyBidirectional_vec hinv h1
  have hC : Covered S v g6.get? g7.get? := by
    rintro x m y d h2 h3 ⟨m', h4, h5⟩
    obtain ⟨m2, h6, h7⟩ := hcov (x, y, m) ((hadds h4).2 h2) ⟨m', (opp_iff hw).2 ⟨d, h3, h4, h5⟩⟩
    obtain ⟨d2, h8, h9, h10⟩ := (opp_iff hw).1 h6
    refine ⟨m2, h9, ?_, h7⟩
    obtain ⟨_, n, hn, rfl⟩ := h3
    obtain ⟨_, n2, hn2, rfl⟩ := h8
    rw [hn] at hn2
    simp only [Option.some.injEq] at hn2
    rw [h10, hn2]
  have hcl : ∀ z w m', (∃ c ∈ r6.removes.elems, z = c.2.1 ∧ w = c.1 ∧ View.Opp S g6.get? c m') ↔
      ∃ m d, RemovedLink v g6.get? w m z ∧ Ends g6.get? w z d ∧ Opposite S m m' ∧ m'.disc = d := by
    intro z w m'
    constructor
    · rintro ⟨⟨x, y, m⟩, hc, rfl, rfl, hopp⟩
      obtain ⟨d, h1, h2, h3⟩ := (opp_iff hw).1 hopp
      exact ⟨m, d, (hrems h2).1 hc, h1, h2, h3⟩
    · rintro ⟨m, d, h1, h2, h3, h4⟩
      exact ⟨(w, z, m), (hrems h3).2 h1, rfl, rfl, (opp_iff hw).2 ⟨d, h2, h3, h4⟩⟩
  refine ⟨⟨hk.shape, fun z t w => ⟨fun h => ?_, ?_⟩⟩, hC, ?_⟩
  · rcases (hH z t w).1 h with ⟨h1, h2⟩ | ⟨⟨x, y, m⟩, h1, rfl, rfl, h2, h2', h3⟩
    · exact Or.inl ⟨h1, fun hx => h2 ((hcl _ _ _).2 hx)⟩
    · obtain ⟨d, h4, h5⟩ := onlyOpp_imp hw h3
      exact Or.inr ⟨h2, h2', m, d, (hadds h5.1).1 h1, h4, h5⟩
  · rintro (⟨h1, h2⟩ | ⟨h0, h0', m, d, h1, h2, h3⟩)
    · exact (hH z t w).2 (Or.inl ⟨h1, fun hx => h2 ((hcl _ _ _).1 hx)⟩)
    · obtain ⟨m', h4, h5, h6⟩ := hC w m z d h1 h2 ⟨t.mirror, h3.1, h3.2.1⟩
      have : m' = t.mirror := h3.2.2 m' h4 h5
      subst this
      obtain ⟨k, h9⟩ := View.link_iff.1 h6
      have hk0 : k = 0 := View.slot_zero hk.inv.wt h9 h0'
      subst hk0
      have : t = ⟨t.mirror.disc, t.mirror.pos, 0⟩ := by cases t; simp_all [Source.mirror]
      rw [this]; exact h9
  · rintro ⟨x, m, y, d, m', h1, h2, h3, h4, h5⟩
    exact hnv (x, y, m) ((hrems h3).2 h1) m' ((opp_iff hw).2 ⟨d, h2, h3, h4⟩) h5

/-- All outcomes of completion against the specification. -/
theorem complete_cases (hw : WellNamed S) {v : View} {g6 : Graph} {r6 : Lcr} (hinv : g6.Inv S e0)
    (hadds : ∀ {x m y m'}, Opposite S m m' → ((x, y, m) ∈ r6.adds ↔ AddedLink v g6.get? x m y))
    (hrems : ∀ {x m y m'}, Opposite S m m' → ((x, y, m) ∈ r6.removes ↔ RemovedLink v g6.get? x m y)) :
    (applyBidirectional S g6 r6 = .error .removeOnVec ∧ VecLeft S v g6.get?) ∨ (¬ VecLeft S v g6.get? ∧
    ((∃ g7, applyBidirectional S g6 r6 = .ok g7 ∧ ¬ Spec.Conflict S v g6.get?) ∨
    (applyBidirectional S g6 r6 = .error .multiChoice ∧ Unanswered S v g6.get? ∧ Spec.Undecided S v g6.get?) ∨
    (applyBidirectional S g6 r6 = .error .addOnExisting ∧ Spec.Conflict S v g6.get?) ∨
    (applyBidirectional S g6 r6 = .error .addOnVec ∧ VecMissing S v g6.get?))) := by
  have hcl : ∀ z w m', (∃ c ∈ r6.removes.elems, z = c.2.1 ∧ w = c.1 ∧ View.Opp S g6.get? c m') ↔
      ∃ m d, RemovedLink v g6.get? w m z ∧ Ends g6.get? w z d ∧ Opposite S m m' ∧ m'.disc = d := by
    intro z w m'
    constructor
    · rintro ⟨⟨x, y, m⟩, hc, rfl, rfl, hopp⟩
      obtain ⟨d, h1, h2, h3⟩ := (opp_iff hw).1 hopp
      exact ⟨m, d, (hrems h2).1 hc, h1, h2, h3⟩
    · rintro ⟨m, d, h1, h2, h3, h4⟩
      exact ⟨(w, z, m), (hrems h3).2 h1, rfl, rfl, (opp_iff hw).2 ⟨d, h2, h3, h4⟩⟩
  rcases applyBidirectional_all hinv r6 with ⟨h1, ⟨x, y, m⟩, hc, m', hm', hk⟩ | ⟨hnv, v1, hcd, hcases⟩
  · left
    obtain ⟨d, h2, h3, h4⟩ := (opp_iff hw).1 hm'
    exact ⟨h1, x, m, y, d, m', (hrems h3).1 hc, h2, h3, h4, hk⟩
  · refine Or.inr ⟨fun ⟨x, m, y, d, m', h1, h2, h3, h4, h5⟩ => hnv _ ((hrems h3).2 h1) m' ((opp_iff hw).2 ⟨d, h2, h3, h4⟩) h5, ?_⟩
    have hsh : View.SameShape g6.get? v1 := hcd.1
    have hstill : ∀ {y m' i}, v1.Link y m' i ↔ StillLinked S v g6.get? y m' i := by
      intro y m' i
      simp only [View.link_iff, StillLinked]
      constructor
      · rintro ⟨k, h⟩
        obtain ⟨h1, h2⟩ := (hcd.2 _ _ _).1 h
        exact ⟨⟨k, h1⟩, fun hx => h2 ((hcl _ _ _).2 hx)⟩
      · rintro ⟨⟨k, h1⟩, h2⟩
        exact ⟨k, (hcd.2 _ _ _).2 ⟨h1, fun hx => h2 ((hcl _ _ _).1 hx)⟩⟩
    rcases hcases with ⟨g7, h1, hnc⟩ | ⟨h1, hund⟩ | ⟨h1, hcon⟩ | ⟨h1, ⟨x, y, m⟩, hc, m', hopp, hk, hno⟩
    · left
      refine ⟨g7, h1, ?_⟩
      obtain ⟨hcomp, hcov, _⟩ := completion_of hw hinv hadds hrems h1
      have hwt := (applyBidirectional_vec hinv h1).1.inv.wt
      have hdem : ∀ {y m' x}, Demanded S v g6.get? y m' x → View.Link g7.get? y m' x := by
        rintro y m' x ⟨m, d, a1, a2, a3⟩
        obtain ⟨m2, b1, b2, b3⟩ := hcov x m y d a1 a2 ⟨m', a3.1, a3.2.1⟩
        rw [a3.2.2 m2 b1 b2] at b3
        exact b3
      rintro ⟨y, m', x, i, hkind, h2, hne, h5⟩
      refine hne (direct_unique hwt hkind ?_ (hdem h2))
      rcases h5 with ⟨h5, h6⟩ | h5
      · obtain ⟨k, h5⟩ := View.link_iff.1 h5
        exact View.link_iff.2 ⟨k, (hcomp.2 _ _ _).2 (Or.inl ⟨h5, h6⟩)⟩
      · exact hdem h5
    · right; left
      obtain ⟨⟨x, y, m⟩, hc, ⟨m1, hm1⟩, hno, hlink⟩ := hund
      rw [hsh.opp] at hm1
      obtain ⟨d, h2, h3, h4⟩ := (opp_iff hw).1 hm1
      have hnone : ∀ m', Opposite S m m' → m'.disc = d → ¬ StillLinked S v g6.get? y m' x := fun m' h5 h6 h7 =>
        hlink m' ((hsh.opp _ _).2 ((opp_iff hw).2 ⟨d, h2, h5, h6⟩)) (hstill.2 h7)
      refine ⟨h1, ⟨x, m, y, d, (hadds h3).1 hc, h2, ⟨m1, h3, h4⟩, hnone⟩, x, m, y, d, (hadds h3).1 hc, h2, ?_, hnone⟩
      refine Schema.manyWays_of hw (m1 := m1) ((Schema.mem_opposites_iff hw).2 ⟨h3, h4⟩) fun m' he => ?_
      obtain ⟨h5, n, h6, rfl⟩ := h2
      exact hno m' ((hsh.onlyOpp _ _).2 ⟨h5, n, h6, he⟩)
    · right; right; left
      refine ⟨h1, ?_⟩
      obtain ⟨⟨x, y, m⟩, hc, m', i, hopp, hkind, hne, h5⟩ := hcon
      obtain ⟨d, h2, h3⟩ := onlyOpp_imp hw ((hsh.onlyOpp _ _).1 hopp)
      refine ⟨y, m', x, i, hkind, ⟨m, d, (hadds h3.1).1 hc, h2, h3⟩, hne, ?_⟩
      rcases h5 with h5 | ⟨⟨x2, y2, m2⟩, hc2, rfl, e, hopp2⟩
      · exact Or.inl (hstill.1 h5)
      · right
        simp only at e hne hopp2
        subst e
        obtain ⟨d2, h6, h7⟩ := onlyOpp_imp hw ((hsh.onlyOpp _ _).1 hopp2)
        exact ⟨m2, d2, (hadds h7.1).1 hc2, h6, h7⟩
    · right; right; right
      obtain ⟨d, h2, h3, h4, h5⟩ := onlyOpp_imp hw hopp
      refine ⟨h1, x, m, y, d, (hadds h3).1 hc, h2, ⟨m', h3, h4⟩, fun m2 h6 h7 => ?_⟩
      rw [h5 m2 h6 h7]
      exact ⟨hk, hno⟩

omit [SetImpl] in
theorem not_missing {v v6 v7 : View} (hc : Completion S v v6 v7) (hcov : Covered S v v6 v7) : ¬ VecMissing S v v6 := by
  rintro ⟨x, m, y, d, k1, k2, k3, k4⟩
  obtain ⟨m', h8, h9, h10⟩ := hcov x m y d k1 k2 k3
  obtain ⟨h11, h12⟩ := k4 m' h8 h9
  obtain ⟨s, hk⟩ := View.link_iff.1 h10
  rcases (hc.2 _ _ _).1 hk with ⟨h13, _⟩ | ⟨_, h13, _⟩
  · exact h12 (View.link_iff.2 ⟨s, h13⟩)
  · exact h13 h11

omit [SetImpl] in
theorem _root_.TTGraph.Spec.NoVec.steadyBidir (h : NoVec S) (t : Trans) (v : View) : SteadyBidir S t v := fun _ m _ m' ho => Or.inl (h m m' ho)

omit [SetImpl] in
theorem _root_.TTGraph.Spec.NoVec.noDue (h : NoVec S) (v v6 : View) : NoVecDue S v v6 :=
  ⟨fun ⟨_, m, _, _, m', _, _, ho, _, hk⟩ => h m' m ho.symm hk,
    fun ⟨_, m, _, _, _, _, ⟨m', ho, hd⟩, hm⟩ => h m' m ho.symm (hm m' ho hd).1⟩

/-- What `commit` guarantees when it returns. -/
structure CommitOut (S : Schema) (e0 : Prop) (t : Trans) (g g' : Graph) (v6 : View) : Prop where
  performed : Performed t g.get? v6
  same : SameUpToBidir S v6 g'.get?
  gain : ∀ z s y, View.Holds g'.get? z s y → View.Holds v6 z s y ∨ v6 y ≠ none
  completion : SteadyBidir S t g.get? → Completion S g.get? v6 g'.get?
  covered : SteadyBidir S t g.get? → Covered S g.get? v6 g'.get?
  noConflict : SteadyBidir S t g.get? → ¬ Spec.Conflict S g.get? v6
  noLeft : SteadyBidir S t g.get? → ¬ VecLeft S g.get? v6
  noMissing : SteadyBidir S t g.get? → ¬ VecMissing S g.get? v6
  inv : g'.Inv S (e0 ∧ t.NoToEmpty)
  ctx : g'.ctxId = g.ctxId
  disp : ∀ j, g'.nodes.disp.get? j = if j ∈ t.dec.elems then none else (t.inc.disp.get? j <|> g.nodes.disp.get? j)
  known : ∀ y, g'.back.Known y → y ∉ t.dec.elems ∧ (g.back.Known y ∨ (∃ n, t.inc.get? y = some n) ∨ View.Linked t.inc.get? y ∨
    ∃ p ∈ t.redir ++ t.redirAll, y = p.2)
  typed : g.nodes.Typed → t.inc.Typed → (∀ p ∈ t.muts ++ t.upds, Closure.KeepsVariant p.2) → g'.nodes.Typed
  types : ∀ x m y n, AddedLink g.get? v6 x m y → Spec.Steady S t g.get? x m y → g'.get? y = some n → S.checkLinkType n.disc m = true
  vecs : ∀ x s y, S.kind? s.mirror = some .vec → (View.Holds g'.get? x s y ↔ View.Holds v6 x s y)

omit [SetImpl] in
theorem checkLinkType_ok {g : Graph} {r : Lcr} : checkLinkType S g r = .ok () ↔ ∀ c ∈ r.adds, ∀ n, g.get? c.2.1 = some n → S.checkLinkType n.disc c.2.2 = true := by
  have key : ∀ l : List Change, foldE (fun _ (c : Change) =>
      match g.nodes.get? c.2.1 with
      | some n => if S.checkLinkType n.disc c.2.2 then Except.ok () else .error .linkType
      | none => .ok ()) () l = .ok () ↔ ∀ c ∈ l, ∀ n, g.get? c.2.1 = some n → S.checkLinkType n.disc c.2.2 = true := by
    intro l
    induction l with
    | nil => simp [foldE]
    | cons c l ih =>
      simp only [foldE, List.forall_mem_cons]
      cases hn : g.nodes.get? c.2.1 with
      | none =>
        have hn' : g.get? c.2.1 = none := hn
        simp only [hn', ih]; simp
      | some n =>
        have hn' : g.get? c.2.1 = some n := hn
        simp only [hn', Option.some.injEq, forall_eq']
        by_cases hc : S.checkLinkType n.disc c.2.2 = true
        · simp only [hc, if_true, ih]; simp
        · simp [hc]
  exact key r.adds.elems

omit [SetImpl] in
theorem checkLinkType_err {g : Graph} {r : Lcr} {e : Panic} (h : checkLinkType S g r = .error e) : e = .linkType ∧
    ∃ c ∈ r.adds, ∃ n, g.get? c.2.1 = some n ∧ S.checkLinkType n.disc c.2.2 = false := by
  have key : ∀ l : List Change, foldE (fun _ (c : Change) =>
      match g.nodes.get? c.2.1 with
      | some n => if S.checkLinkType n.disc c.2.2 then Except.ok () else .error .linkType
      | none => .ok ()) () l = .error e → e = .linkType ∧ ∃ c ∈ l, ∃ n, g.get? c.2.1 = some n ∧ S.checkLinkType n.disc c.2.2 = false := by
    intro l
    induction l with
    | nil => simp [foldE]
    | cons c l ih =>
      simp only [foldE]
      cases hn : g.nodes.get? c.2.1 with
      | none =>
        simp only
        intro h
        obtain ⟨h1, c', h2, h3⟩ := ih h
        exact ⟨h1, c', by simp [h2], h3⟩
      | some n =>
        simp only
        by_cases hc : S.checkLinkType n.disc c.2.2 = true
        · simp only [hc, if_true]
          intro h
          obtain ⟨h1, c', h2, h3⟩ := ih h
          exact ⟨h1, c', by simp [h2], h3⟩
        · simp only [hc, Bool.false_eq_true, if_false, Except.error.injEq]
          rintro rfl
          exact ⟨rfl, c, by simp, n, hn, by simpa using hc⟩
  exact key r.adds.elems h

theorem commitOut_of (hw : WellNamed S) {g g6 g7 : Graph} {t : Trans} {r6 : Lcr} (out : PerformOut S e0 t g g6 r6)
    (h1 : applyBidirectional S g6 r6 = .ok g7) (hlt : checkLinkType S g7 r6 = .ok ()) : CommitOut S e0 t g g7 g6.get? := by
  have he : Edited S (e0 ∧ t.NoToEmpty) g6 g7 := by
    rcases applyBidirectional_kept out.inv r6 with ⟨g', h2, h3⟩ | ⟨e, h2, _⟩
    · rw [h1, Except.ok.injEq] at h2
      subst h2
      exact h3
    · rw [h1] at h2; exact absurd h2 (by simp)
  have hk := he.kept
  have hcomp : SteadyBidir S t g.get? → Completion S g.get? g6.get? g7.get? ∧ Covered S g.get? g6.get? g7.get? ∧ ¬ VecLeft S g.get? g6.get? :=
    fun hst => completion_of hw out.inv (fun ho => out.adds (hst _ _ _ _ ho)) (fun ho => out.removes (hst _ _ _ _ ho)) h1
  exact {
    performed := out.performed
    same := he.same hw
    gain := he.gain
    completion := fun hv => (hcomp hv).1
    covered := fun hv => (hcomp hv).2.1
    noConflict := fun hst => by
      rcases complete_cases hw (v := g.get?) out.inv (fun ho => out.adds (hst _ _ _ _ ho)) (fun ho => out.removes (hst _ _ _ _ ho)) with
        ⟨k, _⟩ | ⟨_, ⟨_, _, k⟩ | ⟨k, _⟩ | ⟨k, _⟩ | ⟨k, _⟩⟩
      · rw [h1] at k; exact absurd k (by simp)
      · exact k
      all_goals (rw [h1] at k; exact absurd k (by simp))
    noLeft := fun hst => (hcomp hst).2.2
    noMissing := fun hst => not_missing (hcomp hst).1 (hcomp hst).2.1
    inv := hk.inv
    ctx := hk.ctx.trans out.ctx
    disp := fun j => by rw [hk.disp, out.disp]
    known := fun y hy => out.known y ((hk.known y).1 hy)
    typed := fun h1 h2 h3 => hk.typed (out.typed h1 h2 h3)
    types := fun x m y n ha hkind hn => checkLinkType_ok.1 hlt (x, y, m) ((out.adds hkind).2 ha) n hn
    vecs := fun x s y hk => by
      obtain ⟨_, k2, k3, _⟩ := applyBidirectional_vec out.inv h1
      rw [k3]
      constructor
      · rintro (⟨h, _⟩ | ⟨_, _, _, _, _, h, _⟩)
        · exact h
        · exact absurd hk h
      · exact fun h => Or.inl ⟨h, fun ⟨c, hc, _, _, ho⟩ => k2 c hc s.mirror ho hk⟩ }

/-- `commit` after the operations of the transaction have been performed. -/
theorem commit_after (hw : WellNamed S) (dbg : Bool) {g g6 : Graph} {t : Trans} {r6 : Lcr} (hst : SteadyBidir S t g.get?)
    (hctx : dbg = true → t.ctxId = g.ctxId) (hall : dbg = true → t.allocs.isEmpty = true) (hp : perform S g t = .ok (g6, r6))
    (out : PerformOut S e0 t g g6 r6) :
    (commit S dbg g t = .error .removeOnVec ∧ VecLeft S g.get? g6.get?) ∨ (¬ VecLeft S g.get? g6.get? ∧
    ((∃ g', commit S dbg g t = .ok g' ∧ CommitOut S e0 t g g' g6.get?) ∨
    (commit S dbg g t = .error .multiChoice ∧ Unanswered S g.get? g6.get? ∧ Spec.Undecided S g.get? g6.get?) ∨
    (commit S dbg g t = .error .addOnExisting ∧ Spec.Conflict S g.get? g6.get?) ∨
    (commit S dbg g t = .error .linkType ∧
      ∃ x m y n, g6.get? y = some n ∧ View.Link g6.get? x m y ∧ (Spec.Steady S t g.get? x m y → ¬ View.Link g.get? x m y) ∧ S.checkLinkType n.disc m = false) ∨
    (commit S dbg g t = .error .addOnVec ∧ VecMissing S g.get? g6.get?))) := by
  have hdc : doCommit S dbg g t = match applyBidirectional S g6 r6 with
          | .error e => .error e
          | .ok g7 => .ok (g7, r6) := by
    have c1 : ¬ (dbg && decide (t.ctxId ≠ g.ctxId)) = true := by
      intro h
      simp only [Bool.and_eq_true, decide_eq_true_eq] at h
      exact h.2 (hctx h.1)
    have c2 : ¬ (dbg && !t.allocs.isEmpty) = true := by
      intro h
      simp only [Bool.and_eq_true, Bool.not_eq_true'] at h
      rw [hall h.1] at h
      exact absurd h.2 (by simp)
    rw [doCommit_eq, hp, if_neg c1, if_neg c2]
    simp only
    cases applyBidirectional S g6 r6 <;> rfl
  rcases complete_cases hw (v := g.get?) out.inv (fun ho => out.adds (hst _ _ _ _ ho)) (fun ho => out.removes (hst _ _ _ _ ho)) with
    ⟨h1, h2⟩ | ⟨hnl, ⟨g7, h1, hnc⟩ | ⟨h1, h2⟩ | ⟨h1, h2⟩ | ⟨h1, h2⟩⟩
  · exact Or.inl ⟨by simp only [commit, hdc, h1], h2⟩
  · refine Or.inr ⟨hnl, ?_⟩
    have hcm : commit S dbg g t = match checkLinkType S g7 r6 with
        | .error e => .error e
        | .ok _ => .ok g7 := by
      simp only [commit, hdc, h1]
      cases checkLinkType S g7 r6 <;> rfl
    have hk := (applyBidirectional_vec out.inv h1).1
    cases hlt : checkLinkType S g7 r6 with
    | error e =>
      right; right; right; left
      obtain ⟨rfl, ⟨x, y, m⟩, hc, n, hn, hf⟩ := checkLinkType_err hlt
      refine ⟨by rw [hcm, hlt], x, m, y, ?_⟩
      obtain ⟨n6, hn6, hs⟩ := hk.shape.some hn
      have hdd : n.disc = n6.disc := by simp only [Node.shape, Prod.mk.injEq] at hs; exact hs.1
      refine ⟨n6, hn6, out.tracked.weakA _ hc, fun hs => ((out.adds hs).1 hc).2.2, ?_⟩
      rw [← hdd]; exact hf
    | ok u => exact Or.inl ⟨g7, by rw [hcm, hlt], commitOut_of hw out h1 hlt⟩
  · exact Or.inr ⟨hnl, Or.inr (Or.inl ⟨by simp only [commit, hdc, h1], h2⟩)⟩
  · exact Or.inr ⟨hnl, Or.inr (Or.inr (Or.inl ⟨by simp only [commit, hdc, h1], h2⟩))⟩
  · exact Or.inr ⟨hnl, Or.inr (Or.inr (Or.inr (Or.inr ⟨by simp only [commit, hdc, h1], h2⟩)))⟩

theorem perform_of_commit {dbg : Bool} {g g' : Graph} {t : Trans} (hc : commit S dbg g t = .ok g') :
    (dbg = true → t.ctxId = g.ctxId) ∧ (dbg = true → t.allocs.isEmpty = true) ∧ ∃ g6 r6, perform S g t = .ok (g6, r6) := by
  simp only [commit] at hc
  rw [doCommit_eq] at hc
  by_cases h1 : (dbg && decide (t.ctxId ≠ g.ctxId)) = true
  · rw [if_pos h1] at hc; exact absurd hc (by simp)
  · rw [if_neg h1] at hc
    by_cases h2 : (dbg && !t.allocs.isEmpty) = true
    · rw [if_pos h2] at hc; exact absurd hc (by simp)
    · rw [if_neg h2] at hc
      refine ⟨?_, ?_, ?_⟩
      · intro hd
        subst hd
        by_contra hne
        exact h1 (by simp [hne])
      · intro hd
        subst hd
        by_contra hne
        exact h2 (by simp [hne])
      · cases hp : perform S g t with
        | error e => rw [hp] at hc; exact absurd hc (by simp)
        | ok st => exact ⟨st.1, st.2, rfl⟩

/-- `commit` that returns, after the operations of the transaction have been performed. -/
theorem commit_out (hw : WellNamed S) {dbg : Bool} {g g' g6 : Graph} {t : Trans} {r6 : Lcr} (hp : perform S g t = .ok (g6, r6))
    (out : PerformOut S e0 t g g6 r6) (hc : commit S dbg g t = .ok g') : CommitOut S e0 t g g' g6.get? := by
  simp only [commit] at hc
  rw [doCommit_eq, hp] at hc
  split at hc
  · exact absurd hc (by simp)
  · rename_i g7 r heq
    split at heq
    · exact absurd heq (by simp)
    · split at heq
      · exact absurd heq (by simp)
      · simp only at heq
        cases h3 : applyBidirectional S g6 r6 with
        | error e => rw [h3] at heq; exact absurd heq (by simp)
        | ok g8 =>
          rw [h3] at heq
          simp only [Except.ok.injEq, Prod.mk.injEq] at heq
          obtain ⟨rfl, rfl⟩ := heq
          cases hlt : checkLinkType S g8 r6 with
          | error e => rw [hlt] at hc; exact absurd hc (by simp)
          | ok u =>
            rw [hlt] at hc
            simp only [Except.ok.injEq] at hc
            subst hc
            exact commitOut_of hw out h3 hlt

/-- The refinement theorem: if `commit` returns, its specification holds. -/
theorem commit_ok (hw : WellNamed S) {dbg : Bool} {g g' : Graph} {t : Trans} (h : g.Inv S e0) (ht : t.Good S)
    (hd : g.nodes.Disjoint t.inc) (hz : t.NoFromEmpty) (hc : commit S dbg g t = .ok g') :
    ∃ v6, CommitOut S e0 t g g' v6 := by
  obtain ⟨h1, h2, g6, r6, hp⟩ := perform_of_commit hc
  exact ⟨g6.get?, commit_out hw hp (perform_out hw.variants h ht hd hz hp) hc⟩

end
end Graph
end TTGraph
