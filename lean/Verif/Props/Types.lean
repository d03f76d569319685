import Verif.Demo.Traced
import Verif.Demo.Decls
import Verif.Lemmas.Groups
import Verif.Lemmas.Symmetric
import Verif.Props.Bidir
import Verif.Lemmas.Steady

/-!
# Declarations with groups, and link types: C26, C27, C28
-/

set_option autoImplicit false

namespace TTGraph
open Spec
variable {S S' : Schema} {dbg : Bool} {R : World → Call → Prop}

/-! ## C26 -/

/-- `get_bidiretional_link_mirrors_of` gives the fields that some line of `bidirectional!`, read with groups standing for all their members,
connects with the field. -/
theorem C26_table (hw : WellNamed S) (m m' : Mirror) : m' ∈ S.mirrorsOf m ↔ Opposite S m m' := Schema.mem_mirrorsOf hw

/-- It is symmetric. -/
theorem C26_symm (hw : WellNamed S) (m m' : Mirror) : m' ∈ S.mirrorsOf m ↔ m ∈ S.mirrorsOf m' := by
  rw [C26_table hw, C26_table hw]
  exact ⟨Opposite.symm, Opposite.symm⟩

/-- It is the same for a declaration with groups and for the same declaration with all groups written out. -/
theorem C26_opposites (hw : WellNamed S) (he : Expansion S S') (m m' : Mirror) : m' ∈ S'.mirrorsOf m ↔ m' ∈ S.mirrorsOf m := by
  rw [C26_table hw, C26_table (he.named hw), he.opposite hw]

/-- `check_link_type` is the same for a declaration with groups and for the same declaration with all groups written out. -/
theorem C26_types_partial (hw : WellNamed S) (ha : AnnotatedOnce S) (he : Expansion S S') (ha' : AnnotatedOnce S') {d : Ident} (hd : d ∈ S.discs)
    (m : Mirror) : S'.checkLinkType d m = S.checkLinkType d m := by
  have hw' := he.named hw
  rw [Bool.eq_iff_iff]
  constructor
  · intro h1
    exact Schema.checkLinkType_of_accept hw ((he.allAccept hw).1 (Schema.accept_of_checkLinkType hw' ha' (by rw [he.discs]; exact hd) h1))
  · intro h1
    exact Schema.checkLinkType_of_accept hw' ((he.allAccept hw).2 (Schema.accept_of_checkLinkType hw ha hd h1))

/-- A commit does the same under a declaration with groups and under the same declaration with all groups written out: it returns the same
graph (up to the order of sets) or panics in the same way.

Full statement of C26: the same without the conditions that no pair of fields is connected twice and no field is annotated twice.  That is
false, see below. -/
theorem C26_commit_partial [SetImpl] (hw : WellNamed S) (hd : DeclaredOnce S) (ha : AnnotatedOnce S) (he : Expansion S S')
    (ha' : AnnotatedOnce S') {g : Graph} {t : Trans} (h : Meets S dbg R g t) :
    (∃ g1 g1', g.commit S dbg t = .ok g1 ∧ g.commit S' dbg t = .ok g1' ∧ View.Same g1.get? g1'.get?) ∨
      ∃ e, g.commit S dbg t = .error e ∧ g.commit S' dbg t = .error e :=
  have hr := h.ready hw
  Graph.commit_expansion hw hd ha he ha' (h.inv hw) hr.good (h.disjoint hw).1 hr.noFrom

/-! ## C28 -/

/-- Targets that all annotations of a field allow are accepted. -/
theorem C28_accepted (hw : WellNamed S) {m : Mirror} {d : Ident} (h : AllAccept S m d) : S.checkLinkType d m = true :=
  Schema.checkLinkType_of_accept hw h

/-- A target is accepted iff all annotations of the field allow it.

Full statement of C28: the same without `AnnotatedOnce`.  That is false, see below. -/
theorem C28_iff_partial (hw : WellNamed S) (ha : AnnotatedOnce S) (m : Mirror) {d : Ident} (hd : d ∈ S.discs) :
    S.checkLinkType d m = true ↔ AllAccept S m d :=
  ⟨Schema.accept_of_checkLinkType hw ha hd, C28_accepted hw⟩

/-- For all declarations: a target is accepted iff it is permitted, where for each name of the field only the first one of its annotations counts,
in the lexicographic order of the targets as written. -/
theorem C28_decided (hw : WellNamed S) (m : Mirror) (d : Ident) : S.checkLinkType d m = true ↔ Permitted S m d :=
  Schema.checkLinkType_iff hw

/-- If no name is annotated twice, this means that all annotations count. -/
theorem C28_permitted (hw : WellNamed S) (ha : AnnotatedOnce S) (m : Mirror) {d : Ident} (hd : d ∈ S.discs) : Permitted S m d ↔ AllAccept S m d := by
  rw [← C28_decided hw, C28_iff_partial hw ha m hd]

variable [SetImpl]

/-- For all declarations: if `commit` returns, every link that its operations have added is permitted, if it is not held by a `Vec`
that holds its target twice in between. -/
theorem C28_enforced (hw : WellNamed S) {g g' : Graph} {t : Trans} (h : Meets S dbg R g t) (hc : g.commit S dbg t = .ok g') :
    ∃ v6, Performed t g.get? v6 ∧
      ∀ x m y n, AddedLink g.get? v6 x m y → Steady S t g.get? x m y → g'.get? y = some n → Permitted S m n.disc := by
  obtain ⟨v6, out⟩ := h.commit hw hc
  exact ⟨v6, out.performed, fun x m y n h1 h2 h3 => (C28_decided hw m n.disc).1 (out.types x m y n h1 h2 h3)⟩

/-- A transaction that adds a link which some annotation forbids is not committed.

Full statement of C28: the same without `AnnotatedOnce`, and for `Vec` fields.  Both are false, see below. -/
theorem C28_rejected_partial (hw : WellNamed S) (ha : AnnotatedOnce S) {g : Graph} {t : Trans} (h : Meets S dbg R g t)
    (hbad : ∀ v6, Performed t g.get? v6 → ∃ x m y n a, AddedLink g.get? v6 x m y ∧ Steady S t g.get? x m y ∧ v6 y = some n ∧
      a ∈ S.annos ∧ Names S a.var a.link m ∧ ¬ Accepts S a n.disc) (g' : Graph) : g.commit S dbg t ≠ .ok g' := by
  intro hc
  obtain ⟨v6, out⟩ := h.commit hw hc
  obtain ⟨x, m, y, n, a, h1, h2, h3, h4, h5, h6⟩ := hbad v6 out.performed
  have hs := out.same.1 y
  rw [h3] at hs
  cases hn' : g'.get? y with
  | none => rw [hn'] at hs; exact absurd hs (by simp)
  | some n' =>
    rw [hn'] at hs
    simp only [Option.map_some, Option.some.injEq] at hs
    have e1 : n'.disc = n.disc := congrArg Prod.fst hs
    have hd : n'.disc ∈ S.discs := by
      obtain ⟨sd, hsd, _⟩ := out.inv.wt y n' hn'
      exact Schema.mem_discs.2 ⟨sd, (Schema.struct?_iff hw).1 hsd⟩
    have := Schema.accept_of_checkLinkType hw ha hd (out.types x m y n' h1 h2 hn') a h4 h5
    rw [e1] at this
    exact h6 this

/-! ## C27 -/

/-- If `commit` returns, the links that the operations of the transaction have added satisfy their annotations, if they are not held by
`Vec`s that hold their target twice in between.

Full statement of C27: the same for all links that are new in the result, including those that bidirectional completion has added, and for
`Vec` fields.  Both are false, see below. -/
theorem C27_added_partial (hw : WellNamed S) (ha : AnnotatedOnce S) {g g' : Graph} {t : Trans} (h : Meets S dbg R g t)
    (hc : g.commit S dbg t = .ok g') :
    ∃ v6, Performed t g.get? v6 ∧
      ∀ x m y n, AddedLink g.get? v6 x m y → Steady S t g.get? x m y → g'.get? y = some n → AllAccept S m n.disc := by
  obtain ⟨v6, out⟩ := h.commit hw hc
  refine ⟨v6, out.performed, fun x m y n h1 h2 h3 => ?_⟩
  obtain ⟨sd, hsd, _⟩ := out.inv.wt y n h3
  exact Schema.accept_of_checkLinkType hw ha (Schema.mem_discs.2 ⟨sd, (Schema.struct?_iff hw).1 hsd⟩) (out.types x m y n h1 h2 h3)

omit [SetImpl] in
/-- The links of a graph after completion are well typed if those before the commit were and those added by its operations are. -/
theorem wellTyped_completion {v v6 v7 : View} (hfit : AnnosFit S) (hc : Completion S v v6 v7) (hv : WellTyped S v) (hI : Internal v)
    (hvar : ∀ x n n6, v x = some n → v6 x = some n6 → n6.disc = n.disc)
    (h0 : v7 emptyIdx = none) (hadd : ∀ x m y n, AddedLink v v6 x m y → v7 y = some n → AllAccept S m n.disc) : WellTyped S v7 := by
  intro x m y n7 hl hn7
  have hy0 : y ≠ emptyIdx := by rintro rfl; rw [h0] at hn7; exact absurd hn7 (by simp)
  obtain ⟨k, hk⟩ := View.link_iff.1 hl
  obtain ⟨n6, hn6, hd6⟩ := Ends.of_shape hc.1 hn7
  rcases (hc.2 _ _ _).1 hk with ⟨h1, _⟩ | ⟨_, _, m0, d, h1, h2, h3⟩
  · have hl6 : v6.Link x m y := View.link_iff.2 ⟨k, h1⟩
    by_cases hold : v.Link x m y
    · obtain ⟨k0, hk0⟩ := View.link_iff.1 hold
      cases hy : v y with
      | none => exact absurd hy ((hI _ _ _ hk0).resolve_left hy0)
      | some n =>
        have := hv x m y n hold hy
        rw [hd6, hvar y n n6 hy hn6]
        exact this
    · exact hadd x m y n7 ⟨hy0, hl6, hold⟩ hn7
  · have h4 := hfit m0 m h3.1
    obtain ⟨n, hn, hd⟩ := h1.2.1.disc
    rw [hn6, Option.some.injEq] at hn
    subst hn
    rw [hd6, hd]
    exact h4

theorem wellTyped_closed (hw : WellNamed S) (hv : ∀ w c, R w c → SteadyBidirCalls S w c) (ha : AnnotatedOnce S) (hfit : AnnosFit S)
    (hvec : ∀ w c, R w c → SteadyCalls S w c) (hK : ∀ w c, R w c → KeepVariants w c) (hL : ∀ w c, R w c → NoLoads w c) (hR : ∀ w c, R w c → SoundCalls w c) :
    Closed S dbg R (fun g => WellTyped S g.get?) (fun _ => True) where
  newGraph u x m y n hl := by
    obtain ⟨n, hn, _⟩ := hl.disc
    simp [Graph.new, Graph.get?] at hn
  newTrans _ := trivial
  op := fun _ _ _ _ _ _ _ => trivial
  merge := fun _ _ _ _ _ _ _ _ => trivial
  commit := by
    intro w k h g g' t _ hm hr ⟨c1, hg⟩ ⟨c2, ht⟩ hs _ hc
    obtain ⟨v6, out⟩ := hm.commit hw hc
    have hsb : SteadyBidir S t g.get? := by
      rcases hr with hr | ⟨cs, hr⟩
      · exact hv _ _ hr _ _ _ _ hg ht
      · exact hv _ _ hr _ _ _ _ hg ht
    refine wellTyped_completion hfit (out.completion hsb) hs (C12_internal_partial hw hR hm.reachable) (commit_variants hw hK hm out) out.inv.noEmpty ?_
    intro x m y n hadd hn
    have hst : SteadyAnnos S t g.get? := by
      rcases hr with hr | ⟨cs, hr⟩
      · exact hvec _ _ hr _ _ _ _ hg ht
      · exact hvec _ _ hr _ _ _ _ hg ht
    rcases hst x m y with hk | hk
    · obtain ⟨sd, hsd, _⟩ := out.inv.wt y n hn
      exact Schema.accept_of_checkLinkType hw ha (Schema.mem_discs.2 ⟨sd, (Schema.struct?_iff hw).1 hsd⟩) (out.types x m y n hadd hk hn)
    · exact hk _
  caught := fun _ _ hr _ _ _ _ _ => absurd (hR _ _ hr) id
  switch := fun _ _ h _ _ _ => absurd (hL _ _ h) id
  deserialize := fun _ h _ _ => absurd (hL _ _ h) id

/-- All links are well typed in the graphs of programs whose closures keep variants, that have no dangling links and load no graphs, if the
annotations fit the `bidirectional!` lines and annotated `Vec` fields never hold a node twice.

Full statement of C27: the same without these two conditions on the annotations. -/
theorem C27_reachable_partial (hw : WellNamed S) (hv : ∀ w c, R w c → SteadyBidirCalls S w c) (ha : AnnotatedOnce S) (hfit : AnnosFit S)
    (hvec : ∀ w c, R w c → SteadyCalls S w c) (hK : ∀ w c, R w c → KeepVariants w c) (hL : ∀ w c, R w c → NoLoads w c) (hR : ∀ w c, R w c → SoundCalls w c) {g : Graph}
    (h : Reachable S dbg R g) : WellTyped S g.get? :=
  (wellTyped_closed hw hv ha hfit hvec hK hL hR).reachable h

end TTGraph

namespace TTGraph
namespace Demo
open Spec

/-- The link fields that a name stands for on a variant. -/
def members (S : Schema) (d l : Ident) : List Ident :=
  match S.struct? d with
  | some sd => (sd.links.filter fun f => decide (f.name = l) || decide (l ∈ f.groupAttrs.flatten)).map FieldDecl.name
  | none => []

/-- The variants that a name stands for. -/
def variantsOf (S : Schema) (v : Ident) : List Ident := (S.expandVar v).filter (fun d => decide (d ∈ S.discs))

/-- A declaration with all groups written out. -/
def expand (S : Schema) : Schema :=
  { S with
    bidirs := S.bidirs.flatMap fun l => (variantsOf S l.var1).flatMap fun v1 => (members S v1 l.link1).flatMap fun f1 =>
      (variantsOf S l.var2).flatMap fun v2 => (members S v2 l.link2).map fun f2 => ⟨v1, f1, v2, f2⟩
    annos := S.annos.flatMap fun a => (variantsOf S a.var).flatMap fun v => (members S v a.link).map fun f =>
      ⟨v, f, a.var2.flatMap (variantsOf S)⟩ }

theorem mem_variantsOf {S : Schema} (hw : WellNamed S) {v d : Ident} : d ∈ variantsOf S v ↔ VarNames S v d := by
  rw [← Schema.mem_expandVar hw]; simp [variantsOf]

theorem mem_members {S : Schema} (hw : WellNamed S) {d l f : Ident} : f ∈ members S d l ↔ Member S d l f := by
  simp only [members, Member]
  cases hs : S.struct? d with
  | none =>
    simp only [List.not_mem_nil, false_iff]
    rintro ⟨sd, _, h, _⟩
    rw [(Schema.struct?_iff hw).2 h] at hs
    exact absurd hs (by simp)
  | some sd =>
    simp only [List.mem_map, List.mem_filter, StructDecl.links, Bool.or_eq_true, decide_eq_true_eq, List.mem_flatten]
    constructor
    · rintro ⟨fd, ⟨⟨h1, h2⟩, h3⟩, rfl⟩
      exact ⟨sd, fd, (Schema.struct?_iff hw).1 hs, h1, h2, rfl, h3⟩
    · rintro ⟨sd', fd, h1, h2, h3, rfl, h4⟩
      have := (Schema.struct?_iff hw).2 h1
      rw [hs, Option.some.injEq] at this
      subst this
      exact ⟨fd, ⟨⟨h2, h3⟩, h4⟩, rfl⟩

/-- C26: every declaration can be written out. -/
theorem expand_expansion {S : Schema} (hw : WellNamed S) : Expansion S (expand S) where
  variants := rfl
  groups := rfl
  bidirs b := by
    simp only [expand, List.mem_flatMap, List.mem_map, mem_variantsOf hw, mem_members hw]
    constructor
    · rintro ⟨l, hl, v1, h1, f1, h2, v2, h3, f2, h4, rfl⟩
      exact ⟨l, hl, h1, h2, h3, h4⟩
    · rintro ⟨l, hl, h1, h2, h3, h4⟩
      exact ⟨l, hl, _, h1, _, h2, _, h3, _, h4, rfl⟩
  annos a' ha' := by
    simp only [expand, List.mem_flatMap, List.mem_map, mem_variantsOf hw, mem_members hw] at ha'
    obtain ⟨a, ha, v, h1, f, h2, rfl⟩ := ha'
    refine ⟨a, ha, h1, h2, fun d => ?_⟩
    simp only [List.mem_flatMap, mem_variantsOf hw, Accepts]
  allAnnos a ha v f h1 h2 := by
    refine ⟨⟨v, f, a.var2.flatMap (variantsOf S)⟩, ?_, rfl, rfl, fun d => ?_⟩
    · simp only [expand, List.mem_flatMap, List.mem_map, mem_variantsOf hw, mem_members hw]
      exact ⟨a, ha, v, h1, f, h2, rfl⟩
    · simp only [List.mem_flatMap, mem_variantsOf hw, Accepts]

/-- `A { f: NodeIndex, s: Set }` (1: 10, 11), both in the link group 30, `B { h: Set }` (2: 20), `C { h: Set }` (3: 20), both in the group 90;
`A.f <-> 90.h` and `A.30 : {90}`. -/
def grouped : Schema :=
  { variants := [(1, ⟨[lnk 10 .direct [[30]], lnk 11 .set [[30]]], []⟩), (2, ⟨[lnk 20 .set], []⟩), (3, ⟨[lnk 20 .set], []⟩)]
    groups := [(90, [2, 3])], bidirs := [⟨1, 10, 90, 20⟩], annos := [⟨1, 30, [90]⟩] }

theorem grouped_named : WellNamed grouped := wellNamed_sound (by decide)
theorem grouped_noVec : NoVec grouped := noVec_sound grouped_named (by decide)
theorem grouped_once : DeclaredOnce grouped := declaredOnce_sound grouped_named (by decide +kernel)
theorem grouped_annos : AnnotatedOnce grouped := annotatedOnce_sound grouped_named (by decide)

/-- Nodes of the variants B and C. -/
def gB (h : List NodeIndex) : Node := ⟨2, [.set (setOf h)], []⟩
def gC (h : List NodeIndex) : Node := ⟨3, [.set (setOf h)], []⟩

/-- Nodes 1 and 2 of A, 3 of B, 4 of C. -/
def grouped4 : List Step :=
  [.call (.newContext 0 77), .call (.newGraph 0 0), .call (.newTrans 0 0), .call (.op 0 (.insert (pA 3 [4]))), .call (.op 0 (.insert (pA 4 [3]))),
   .call (.op 0 (.insert (gB []))), .call (.op 0 (.insert (gC [])))]

/-- C26: what `grouped` is written out, and a commit under both. -/
example : (expand grouped).bidirs = [⟨1, 10, 2, 20⟩, ⟨1, 10, 3, 20⟩] ∧ (expand grouped).annos = [⟨1, 10, [2, 3]⟩, ⟨1, 11, [2, 3]⟩] ∧
    Expansion grouped (expand grouped) ∧ AnnotatedOnce (expand grouped) ∧
    let w := run grouped true World.init grouped4
    Meets grouped true AnyCall (graphAt w 0) (transAt w 0) ∧
    ∃ g1 g2, (graphAt w 0).commit grouped true (transAt w 0) = .ok g1 ∧ (graphAt w 0).commit (expand grouped) true (transAt w 0) = .ok g2 ∧
      g1.get? 4 = some (gC [2]) ∧ g2.get? 4 = some (gC [2]) :=
  ⟨by decide, by decide, expand_expansion grouped_named, annotatedOnce_sound ((expand_expansion grouped_named).named grouped_named) (by decide),
    meets_of (reaches grouped4 (by decide +kernel)) 0 0 (by decide +kernel), _, _, got_ok (d := Graph.new 0) (by decide +kernel),
    got_ok (d := Graph.new 0) (by decide +kernel), by decide +kernel, by decide +kernel⟩

/-- C26 fails if a pair of fields is connected twice: `doubled` has the lines `A.f <-> B.h` and `A.f <-> B.30` where `h` is the only field
of the link group 30.  A commit panics.  Written out, the two lines are the same one, and the commit succeeds. -/
theorem C26_fails : Expansion doubled (expand doubled) ∧ (∀ b, b ∈ (expand doubled).bidirs ↔ b = ⟨1, 10, 2, 20⟩) ∧
    ∃ g t, Meets doubled true AnyCall g t ∧ g.commit doubled true t = .error .multiChoice ∧ ∃ g', g.commit (expand doubled) true t = .ok g' := by
  refine ⟨expand_expansion doubled_named, fun b => ?_, _, _, meets_of (reaches
    [.call (.newContext 0 77), .call (.newGraph 0 0), .call (.newTrans 0 0), .call (.op 0 (.insert (pA 2 []))), .call (.op 0 (.insert (pB [] 0)))]
    (by decide +kernel)) 0 0 (by decide +kernel), rfl, _, got_ok (d := Graph.new 0) (by decide +kernel)⟩
  rw [show (expand doubled).bidirs = [⟨1, 10, 2, 20⟩, ⟨1, 10, 2, 20⟩] from by decide]
  simp

/-- `A { f: NodeIndex }` (1: 10), `f` in the link group 30, and variants B and C without links, with `A.f : {C}` and `A.30 : {B, C}`. -/
def narrow : Schema :=
  { variants := [(1, ⟨[lnk 10 .direct [[30]]], []⟩), (2, ⟨[], []⟩), (3, ⟨[], []⟩)], annos := [⟨1, 10, [3]⟩, ⟨1, 30, [2, 3]⟩] }

theorem narrow_named : WellNamed narrow := wellNamed_sound (by decide)

/-- A node of variant A with a link to one of variant B. -/
def narrow2 : List Step :=
  [.call (.newContext 0 77), .call (.newGraph 0 0), .call (.newTrans 0 0), .call (.op 0 (.insert ⟨1, [.direct 2], []⟩)),
   .call (.op 0 (.insert ⟨2, [], []⟩))]

/-- C26 fails if a field is annotated twice: `A.f : {C}` and `A.30 : {B, C}` are both enforced, and a link to a node of variant B is rejected.
Written out, `A.f : {C}` and `A.f : {B, C}`, only the second is enforced, and the link is accepted. -/
theorem C26_types_fails : Expansion narrow (expand narrow) ∧ (expand narrow).annos = [⟨1, 10, [3]⟩, ⟨1, 10, [2, 3]⟩] ∧
    ∃ g t, Meets narrow true AnyCall g t ∧ g.commit narrow true t = .error .linkType ∧ ∃ g', g.commit (expand narrow) true t = .ok g' :=
  ⟨expand_expansion narrow_named, by decide, _, _, meets_of (reaches narrow2 (by decide +kernel)) 0 0 (by decide +kernel), rfl, _,
    got_ok (d := Graph.new 0) (by decide +kernel)⟩

/-- C28: both annotations are enforced, and a link that one of them forbids is rejected. -/
example : AnnotatedOnce narrow ∧ narrow.checkLinkType 2 ⟨1, 0⟩ = false ∧ narrow.checkLinkType 3 ⟨1, 0⟩ = true ∧
    let w := run narrow true World.init narrow2
    Meets narrow true AnyCall (graphAt w 0) (transAt w 0) :=
  ⟨annotatedOnce_sound narrow_named (by decide), by decide, by decide, meets_of (reaches narrow2 (by decide +kernel)) 0 0 (by decide +kernel)⟩

/-- C28: written out, `A.f : {C}` and `A.f : {B, C}`, the second annotation decides, since B comes before C. -/
example : let S := expand narrow
    WellNamed S ∧ Decisive S 1 10 [2, 3] ∧ Permitted S ⟨1, 0⟩ 2 ∧ ¬ Permitted S ⟨1, 0⟩ 1 ∧
    let w := run S true World.init narrow2
    Meets S true AnyCall (graphAt w 0) (transAt w 0) ∧ ∃ g', (graphAt w 0).commit S true (transAt w 0) = .ok g' := by
  intro S
  have hw : WellNamed S := (expand_expansion narrow_named).named narrow_named
  exact ⟨hw, (Schema.decisive_iff hw (by decide)).2 (by decide), (C28_decided hw _ _).1 (by decide), fun h => absurd ((C28_decided hw _ _).2 h) (by decide),
    meets_of (reaches narrow2 (by decide +kernel)) 0 0 (by decide +kernel), _, got_ok (d := Graph.new 0) (by decide +kernel)⟩

theorem not_wellTyped {S : Schema} {v : View} {x y : NodeIndex} {n n' : Node} {s : Source} (hx : v x = some n) (hs : (y, s) ∈ n.iterSources)
    (hy : v y = some n') {a : TypeAnno} (ha : a ∈ S.annos) (hn : Names S a.var a.link s.mirror) (hacc : ¬ Accepts S a n'.disc) : ¬ WellTyped S v := by
  intro h
  exact hacc (h x s.mirror y n' (View.Link.of_holds ⟨n, hx, Node.mem_iterSources.1 hs⟩) hy a ha hn)

/-- C28 fails if a field is annotated twice under the same name: with `A.f : {C}` and `A.f : {B, C}`, a commit accepts a link to a node of
variant B. -/
theorem C28_fails : WellNamed (expand narrow) ∧ ∃ g, Reachable (expand narrow) true AnyCall g ∧ g.get? 1 = some ⟨1, [.direct 2], []⟩ ∧
    g.get? 2 = some ⟨2, [], []⟩ ∧ ¬ WellTyped (expand narrow) g.get? := by
  have hw : WellNamed (expand narrow) := (expand_expansion narrow_named).named narrow_named
  refine ⟨hw, _, reachable_of (reaches (narrow2 ++ [.call (.commit 0 0)]) (by decide +kernel)) 0 (by decide +kernel), by decide +kernel,
    by decide +kernel, not_wellTyped (x := 1) (y := 2) (n := ⟨1, [.direct 2], []⟩) (n' := ⟨2, [], []⟩) (s := ⟨1, 0, 0⟩) (a := ⟨1, 10, [3]⟩)
    (by decide +kernel) (by decide) (by decide +kernel) (by decide) ?_ ?_⟩
  · exact ⟨Or.inl ⟨rfl, by decide⟩, ⟨[lnk 10 .direct [[30]]], []⟩, by decide, lnk 10 .direct [[30]], rfl, Or.inl rfl⟩
  · rintro ⟨v, hv, h⟩
    have e : v = 3 := by simpa using hv
    subst e
    rcases h with ⟨h, _⟩ | ⟨ds, h, _⟩
    · exact absurd h (by decide)
    · exact absurd h (by simp [expand, narrow])

/-- `pair` with the annotation `B.h : {B}`, although `B.h` is opposite to `A.f`. -/
def unfit : Schema := { pair with annos := [⟨2, 20, [2]⟩] }

theorem unfit_named : WellNamed unfit := wellNamed_sound (by decide)

/-- C27 fails: a link that bidirectional completion adds does not satisfy its annotation. -/
theorem C27_completed_fails : AnnotatedOnce unfit ∧ ∃ g, Reachable unfit true AnyCall g ∧ g.get? 2 = some (pB [1] 0) ∧ g.get? 1 = some (pA 2 []) ∧
    ¬ WellTyped unfit g.get? := by
  refine ⟨annotatedOnce_sound unfit_named (by decide), _, reachable_of (reaches
    [.call (.newContext 0 77), .call (.newGraph 0 0), .call (.newTrans 0 0), .call (.op 0 (.insert (pA 2 []))), .call (.op 0 (.insert (pB [] 0))),
     .call (.commit 0 0)] (by decide +kernel)) 0 (by decide +kernel), by decide +kernel, by decide +kernel,
     not_wellTyped (x := 2) (y := 1) (n := pB [1] 0) (n' := pA 2 []) (s := ⟨2, 0, 0⟩) (a := ⟨2, 20, [2]⟩)
    (by decide +kernel) (by decide) (by decide +kernel) (by decide) ?_ ?_⟩
  · exact ⟨Or.inl ⟨rfl, by decide⟩, ⟨[lnk 20 .set, lnk 21 .direct], []⟩, by decide, lnk 20 .set, rfl, Or.inl rfl⟩
  · rintro ⟨v, hv, h⟩
    have e : v = 2 := by simpa using hv
    subst e
    rcases h with ⟨h, _⟩ | ⟨ds, h, _⟩
    · exact absurd h (by decide)
    · exact absurd h (by simp [unfit, pair])

/-- `plain` with the annotation `A.v : {B}` on the `Vec` field. -/
def vecAnno : Schema := { plain with annos := [⟨1, 12, [2]⟩] }

theorem vecAnno_named : WellNamed vecAnno := wellNamed_sound (by decide)

/-- C27 fails for a `Vec` that holds an index twice in between: the first mutation makes it `[2, 2]`, the second `[2]`.  The recorder has
then dropped the link, and it is not checked. -/
theorem C27_vec_fails : AnnotatedOnce vecAnno ∧ ∃ g, Reachable vecAnno true AnyCall g ∧ g.get? 1 = some (nA 0 [] [2] 0) ∧
    g.get? 2 = some (nA 0 [] [] 0) ∧ ¬ WellTyped vecAnno g.get? := by
  refine ⟨annotatedOnce_sound vecAnno_named (by decide), _, reachable_of (reaches
    [.call (.newContext 0 77), .call (.newGraph 0 0), .call (.newTrans 0 0), .call (.op 0 (.insert (nA 0 [] [] 0))), .call (.op 0 (.insert (nA 0 [] [] 0))),
     .call (.commit 0 0), .call (.newTrans 1 0), .mutate 1 1 (nA 0 [] [2, 2] 0), .mutate 1 1 (nA 0 [] [2] 0), .call (.commit 0 1)]
     (by decide +kernel)) 0 (by decide +kernel), by decide +kernel, by decide +kernel,
     not_wellTyped (x := 1) (y := 2) (n := nA 0 [] [2] 0) (n' := nA 0 [] [] 0) (s := ⟨1, 2, 0⟩) (a := ⟨1, 12, [2]⟩)
    (by decide +kernel) (by decide) (by decide +kernel) (by decide) ?_ ?_⟩
  · exact ⟨Or.inl ⟨rfl, by decide⟩, ⟨[lnk 10 .direct, lnk 11 .set, lnk 12 .vec, dat 13 100], []⟩, by decide, lnk 12 .vec, rfl, Or.inl rfl⟩
  · rintro ⟨v, hv, h⟩
    have e : v = 2 := by simpa using hv
    subst e
    rcases h with ⟨h, _⟩ | ⟨ds, h, _⟩
    · exact absurd h (by decide)
    · simp only [vecAnno, plain, List.mem_singleton, Prod.mk.injEq] at h
      exact absurd h.1 (by decide)

/-- The same link is rejected if it is added at once. -/
example : let w := run vecAnno true World.init (
      [.call (.newContext 0 77), .call (.newGraph 0 0), .call (.newTrans 0 0), .call (.op 0 (.insert (nA 0 [] [] 0))), .call (.op 0 (.insert (nA 0 [] [] 0))),
     .call (.commit 0 0), .call (.newTrans 1 0), .mutate 1 1 (nA 0 [] [2] 0)])
    (graphAt w 0).commit vecAnno true (transAt w 1) = .error .linkType := rfl

/-- The fields of the node hold no index twice. -/
def onceNode (n : Node) : Bool := decide ((n.iterSources.map fun p => (p.2.mirror, p.1)).Nodup)

theorem onceNode_sound {n : Node} (h : onceNode n = true) {m : Mirror} {y : NodeIndex} (k k' : Nat) (h1 : n.Holds ⟨m.disc, m.pos, k⟩ y)
    (h2 : n.Holds ⟨m.disc, m.pos, k'⟩ y) : k = k' := by
  have := List.inj_on_of_nodup_map (of_decide_eq_true h) (Node.mem_iterSources.2 h1) (Node.mem_iterSources.2 h2) rfl
  simpa using this

/-- The nodes of the arena have this property. -/
def onceArena (S : Schema) (a : Arena) : Bool := (a.entries S).all fun e => onceNode e.2

theorem onceArena_sound {S : Schema} {a : Arena} (ha : a.Inv S) (h : onceArena S a = true) (x : NodeIndex) (m : Mirror) (y : NodeIndex) : View.Once a.get? x m y := by
  rw [once_node]
  intro n hn k k'
  simp only [onceArena, List.all_eq_true] at h
  exact onceNode_sound (h (x, n) ((Arena.mem_entries ha).2 hn)) k k'

/-- Nodes 1 and 2 of variant B, node 3 of variant A with `v = [1]`, committed; transaction 1 is open. -/
def vec3 : List Step :=
  [.call (.newContext 0 77), .call (.newGraph 0 0), .call (.newTrans 0 0), .call (.op 0 (.insert (nB 0))), .call (.op 0 (.insert (nB 0))),
   .call (.op 0 (.insert (nA 0 [] [1] 0))), .call (.commit 0 0), .call (.newTrans 1 0)]

theorem vecAnno_noVec : NoVec vecAnno := noVec_sound vecAnno_named (by decide)

/-- Such a transaction is steady if it only sets fields to values without repetitions. -/
theorem vec3_steady {n : Node} (hw : Meets vecAnno true AnyCall (graphAt (run vecAnno true World.init (vec3 ++ [.mutate 1 3 n])) 0)
      (transAt (run vecAnno true World.init (vec3 ++ [.mutate 1 3 n])) 1)) (hn : onceNode n = true) (x : NodeIndex) (m : Mirror) (y : NodeIndex)
    (hg : onceArena vecAnno (graphAt (run vecAnno true World.init (vec3 ++ [.mutate 1 3 n])) 0).nodes = true)
    (hi : onceArena vecAnno (transAt (run vecAnno true World.init (vec3 ++ [.mutate 1 3 n])) 1).inc = true) :
    Steady vecAnno (transAt (run vecAnno true World.init (vec3 ++ [.mutate 1 3 n])) 1)
      (graphAt (run vecAnno true World.init (vec3 ++ [.mutate 1 3 n])) 0).get? x m y := by
  refine steady_of rfl rfl (onceArena_sound (hw.inv vecAnno_named).arena hg x m y)
    (onceArena_sound (hw.ready vecAnno_named).good.inv hi x m y) fun f hf a a' ha k k' => ?_
  have hf' : (x, f) ∈ [((3 : NodeIndex), const n)] := hf
  simp only [List.mem_singleton, Prod.mk.injEq] at hf'
  rw [hf'.2, const, Except.ok.injEq] at ha
  subst ha
  exact onceNode_sound hn k k'

/-- The hypotheses of `C27_added_partial` and `C28_enforced` for an annotated `Vec` field: it goes from `[1]` to `[2, 1]`. -/
example : let w := run vecAnno true World.init (vec3 ++ [.mutate 1 3 (nA 0 [] [2, 1] 0)])
    AnnotatedOnce vecAnno ∧ Meets vecAnno true AnyCall (graphAt w 0) (transAt w 1) ∧ vecAnno.kind? ⟨1, 2⟩ = some .vec ∧
      (∀ x m y, Steady vecAnno (transAt w 1) (graphAt w 0).get? x m y) ∧
      ∃ g', (graphAt w 0).commit vecAnno true (transAt w 1) = .ok g' ∧ g'.get? 3 = some (nA 0 [] [2, 1] 0) := by
  have hm := meets_of (reaches (S := vecAnno) (dbg := true) (vec3 ++ [.mutate 1 3 (nA 0 [] [2, 1] 0)]) (by decide +kernel)) 0 1 (by decide +kernel)
  exact ⟨annotatedOnce_sound vecAnno_named (by decide), hm, rfl,
    fun x m y => vec3_steady hm (by decide +kernel) x m y (by decide +kernel) (by decide +kernel), _, got_ok (d := Graph.new 0) (by decide +kernel), by decide +kernel⟩

/-- Sound calls that keep variants and load nothing. -/
def SoundKeepNoLoads (w : World) (c : Call) : Prop := SoundKeep w c ∧ NoLoads w c

/-- `NoLoads` by evaluation. -/
def noLoadsStep (_ : World) : Step → Bool
  | .call (.switchContext _ _) => false
  | .call (.deserialize _ _ _) => false
  | _ => true

theorem noLoadsStep_ok (w : World) (s : Step) (h : noLoadsStep w s = true) : NoLoads w s.call' := by
  cases s with
  | call c => cases c <;> trivial
  | mutate _ _ _ => trivial
  | update _ _ _ => trivial
  | edit _ _ _ => trivial
  | swap _ _ _ => trivial

theorem reaches_soundKeepNoLoads {S : Schema} {dbg : Bool} (hw : WellNamed S) (l : List Step)
    (hok : runOk S dbg (fun w s => soundStep S w s && keepStep w s && noLoadsStep w s) [] World.init l = true) :
    Reaches S dbg SoundKeepNoLoads (run S dbg World.init l) := by
  refine reaches_where (us := []) (fun w s h hs => ?_) l .init (fun _ _ h => absurd h (by simp [World.init])) hok
  simp only [Bool.and_eq_true] at hs
  exact ⟨⟨soundStep_ok hw w s h hs.1.1, keepStep_ok w s hs.1.2⟩, noLoadsStep_ok w s hs.2⟩

/-- C27: the hypotheses are met by `typed` and a graph with links of all its kinds. -/
example : WellNamed typed ∧ NoVec typed ∧ AnnotatedOnce typed ∧ AnnosFit typed ∧ (∀ w c, SteadyCalls typed w c) ∧
    ∃ g, Reachable typed true SoundKeepNoLoads g ∧ g.get? 1 = some (pA 4 [2, 4]) ∧ g.get? 2 = some (pB [] 1) ∧ g.get? 4 = some (pB [1] 1) :=
  ⟨typed_named, typed_noVec, typed_annos, annosFit_sound typed_named typed_annos (by decide), (noVecAnnos_sound typed_named (by decide)).steadyCalls, _,
    reachable_of (reaches_soundKeepNoLoads typed_named (pair5 ++ [.call (.commit 0 1)]) (by decide +kernel)) 0 (by decide +kernel),
    by decide +kernel, by decide +kernel, by decide +kernel⟩

/-- Sound calls that keep variants, load nothing and fill no `Vec` with repetitions. -/
def SoundKeepSteady (S : Schema) (w : World) (c : Call) : Prop := SoundKeepNoLoads w c ∧ SteadyCalls S w c

/-- `SteadyCalls` by evaluation, for transactions that only insert and remove nodes. -/
def steadyStep (S : Schema) (w : World) : Step → Bool
  | .call (.commit h k) => let t := transAt w k
    t.redir.isEmpty && t.redirAll.isEmpty && t.muts.isEmpty && t.upds.isEmpty && onceArena S (graphAt w h).nodes && onceArena S t.inc
  | .call (.commitChecked _ _ _) => false
  | _ => true

theorem steadyStep_ok [SetImpl] {S : Schema} {dbg : Bool} {R : World → Call → Prop} (hw : WellNamed S) (w : World) (s : Step)
    (h : Reaches S dbg R w) (hs : steadyStep S w s = true) : SteadyCalls S w s.call' := by
  cases s with
  | mutate k i n => trivial
  | update k i n => trivial
  | edit k i n => trivial
  | swap k i n => trivial
  | call c =>
    cases c with
    | commit gh k =>
      intro c c' g t hg ht x m y
      have e1 : graphAt w gh = g := by simp [graphAt, hg]
      have e2 : transAt w k = t := by simp [transAt, ht]
      simp only [steadyStep, e1, e2, Bool.and_eq_true, List.isEmpty_iff] at hs
      obtain ⟨_, _, _, hr⟩ := (h.inv hw).trans k c' t ht
      obtain ⟨_, _, _, hi⟩ := (h.inv hw).graph gh c g hg
      obtain ⟨⟨⟨⟨⟨h1, h2⟩, h3⟩, h4⟩, h5⟩, h6⟩ := hs
      exact Or.inl (steady_of h1 h2 (onceArena_sound hi.arena h5 x m y) (onceArena_sound hr.good.inv h6 x m y)
        fun f hf => absurd hf (by simp [h3, h4]))
    | commitChecked _ _ _ => exact absurd hs (by simp [steadyStep])
    | _ => trivial

/-- Two nodes of variant B and one of variant A that links to both in its annotated `Vec` field; then one of the former is replaced. -/
def vec4 : List Step :=
  [.call (.newContext 0 77), .call (.newGraph 0 0), .call (.newTrans 0 0), .call (.op 0 (.insert (nB 0))), .call (.op 0 (.insert (nB 0))),
   .call (.op 0 (.insert (nA 0 [] [2, 1] 0))), .call (.commit 0 0), .call (.newTrans 1 0), .call (.op 1 (.insert (nA 0 [] [2] 0))),
   .call (.op 1 (.remove 1)), .call (.commit 0 1)]

/-- C27: the hypotheses are met by a declaration with an annotated `Vec` field. -/
example : WellNamed vecAnno ∧ NoVec vecAnno ∧ AnnotatedOnce vecAnno ∧ AnnosFit vecAnno ∧ ¬ NoVecAnnos vecAnno ∧
    ∃ g, Reachable vecAnno true (SoundKeepSteady vecAnno) g ∧ g.get? 3 = some (nA 0 [] [2, 0] 0) ∧ g.get? 4 = some (nA 0 [] [2] 0) := by
  have hann : AnnotatedOnce vecAnno := annotatedOnce_sound vecAnno_named (by decide)
  refine ⟨vecAnno_named, vecAnno_noVec, hann, annosFit_sound vecAnno_named hann (by decide), fun h => ?_, _,
    reachable_of (w := run vecAnno true World.init vec4) ?_ 0 (by decide +kernel), by decide +kernel, by decide +kernel⟩
  · obtain ⟨v, hv, hd⟩ := h ⟨1, 2⟩ 1 rfl ⟨1, 12, [2]⟩ (by decide)
      ⟨Or.inl ⟨rfl, by decide⟩, ⟨[lnk 10 .direct, lnk 11 .set, lnk 12 .vec, dat 13 100], []⟩, by decide, lnk 12 .vec, rfl, Or.inl rfl⟩
    have e : v = 2 := by simpa using hv
    subst e
    rcases hd with ⟨hd, _⟩ | ⟨ds, hd, _⟩
    · exact absurd hd (by decide)
    · simp only [vecAnno, plain, List.mem_singleton, Prod.mk.injEq] at hd
      exact absurd hd.1 (by decide)
  · refine reaches_where (us := []) (r := fun w s => soundStep vecAnno w s && keepStep w s && noLoadsStep w s && steadyStep vecAnno w s)
      (fun w s h hs => ?_) vec4 .init (fun _ _ h => absurd h (by simp [World.init])) (by decide +kernel)
    simp only [Bool.and_eq_true] at hs
    exact ⟨⟨⟨soundStep_ok vecAnno_named w s h hs.1.1.1, keepStep_ok w s hs.1.1.2⟩, noLoadsStep_ok w s hs.1.2⟩,
      steadyStep_ok vecAnno_named w s h hs.2⟩

/-- C27, C28: a commit that is rejected. -/
example : let w := run typed true World.init (pair4 ++ [.edit 1 1 (pA 3 [])])
    Meets typed true SoundKeepNoLoads (graphAt w 0) (transAt w 1) ∧ (graphAt w 0).commit typed true (transAt w 1) = .error .linkType :=
  ⟨meets_of (reaches_soundKeepNoLoads typed_named (pair4 ++ [.edit 1 1 (pA 3 [])]) (by decide +kernel)) 0 1 (by decide +kernel), rfl⟩

end Demo
end TTGraph
