import Verif.Lemmas.Steady
import Verif.Props.Types
import Verif.Props.Valid

/-!
# C73: `Vec` fields in `bidirectional!` lines

README.md:240 says that they are not supported; the macros accept them.
-/

set_option autoImplicit false

namespace TTGraph
open Spec
variable [SetImpl] {S : Schema} {dbg : Bool} {R : World → Call → Prop}

/-- Completion changes no `Vec`: they are as the operations of the transaction have left them. -/
theorem C73_untouched (hw : WellNamed S) {g g' : Graph} {t : Trans} (h : Meets S dbg R g t) (hc : g.commit S dbg t = .ok g') :
    ∃ v6, Performed t g.get? v6 ∧ SameButLinks v6 g'.get? ∧
      ∀ x s y, S.kind? s.mirror = some .vec → (View.Holds g'.get? x s y ↔ v6.Holds x s y) := by
  obtain ⟨v6, out⟩ := h.commit hw hc
  exact ⟨v6, out.performed, out.same.1, out.vecs⟩

/-- A commit that returns, if no `Vec` of a `bidirectional!` line holds a node twice on the way: in the fields that are no `Vec`s, exactly the
opposites of removed links are gone and exactly the only opposites of added links are there in addition.  Every added link that needs an opposite has one.

Full statement: the same without the condition.  That is false, see below. -/
theorem C73_commit_partial (hw : WellNamed S) {g g' : Graph} {t : Trans} (h : Meets S dbg R g t) (hst : SteadyBidir S t g.get?)
    (hc : g.commit S dbg t = .ok g') :
    ∃ v6, Performed t g.get? v6 ∧ Completion S g.get? v6 g'.get? ∧
      ∀ x m y n, AddedLink g.get? v6 x m y → v6 x ≠ none → v6 y = some n → (∃ m', Opposite S m m' ∧ m'.disc = n.disc) →
        ∃ m', Opposite S m m' ∧ m'.disc = n.disc ∧ View.Link g'.get? y m' x := by
  obtain ⟨v6, out⟩ := h.commit hw hc
  exact ⟨v6, out.performed, out.completion hst, fun x m y n h3 h4 h5 h6 => out.covered hst x m y n.disc h3 ⟨h4, n, h5, rfl⟩ h6⟩

/-- A commit that would have to change a `Vec` to complete the links does not return: it removes a link whose opposite is in a `Vec`, or it adds
a link whose opposites can only be in `Vec`s and are not there. -/
theorem C73_refused_partial (hw : WellNamed S) {g : Graph} {t : Trans} (h : Meets S dbg R g t) (hst : SteadyBidir S t g.get?)
    (hv : ∀ v6, Performed t g.get? v6 → VecLeft S g.get? v6 ∨ VecMissing S g.get? v6) : ∃ e, g.commit S dbg t = .error e := by
  cases hc : g.commit S dbg t with
  | error e => exact ⟨e, rfl⟩
  | ok g' =>
    obtain ⟨v6, out⟩ := h.commit hw hc
    exact absurd (hv v6 out.performed) (not_or.2 ⟨out.noLeft hst, out.noMissing hst⟩)

/-- All other valid transactions are committed: `v6` is what the operations make of the graph.  There, no direct field needs two values, no link with
several possible opposites is without one, the links to be checked have targets that their annotations permit, and no `Vec` would have to change. -/
theorem C73_returns_partial (hw : WellNamed S) {g : Graph} {t : Trans} (h : Meets S dbg R g t) (hst : SteadyBidir S t g.get?)
    (hfill : dbg = true → ∀ i, ¬ t.pending.unfilled i) (hvalid : Valid S g.get? t.pending)
    (hend : ∀ v6, Performed t g.get? v6 → ¬ Spec.Conflict S g.get? v6 ∧ ¬ Undecided S g.get? v6 ∧
      (∀ x m y n, Checked S t g.get? v6 x m y → v6 y = some n → Permitted S m n.disc) ∧ ¬ VecLeft S g.get? v6 ∧ ¬ VecMissing S g.get? v6) :
    ∃ g', g.commit S dbg t = .ok g' := by
  refine C13_commit_succeeds hw hst h hfill hvalid fun v6 hp => ?_
  obtain ⟨h1, h2, h3, h4, h5⟩ := hend v6 hp
  exact ⟨h1, h2, ⟨h4, h5⟩, h3⟩

/-- The conditions are necessary: they hold whenever `commit` returns (for transactions that redirect each node at most once, with closures that do not
look at the order of sets). -/
theorem C73_needed_partial (hw : WellNamed S) {g g' : Graph} {t : Trans} (h : Meets S dbg R g t) (hst : SteadyBidir S t g.get?)
    (hr : (t.pending.redir.map Prod.fst).Nodup) (hra : (t.pending.redirAll.map Prod.fst).Nodup)
    (hcl : ∀ p ∈ t.pending.muts ++ t.pending.upds, p.2.Respects) (hc : g.commit S dbg t = .ok g') :
    ∀ v6, Performed t g.get? v6 → ¬ Spec.Conflict S g.get? v6 ∧ ¬ VecLeft S g.get? v6 ∧ ¬ VecMissing S g.get? v6 := by
  intro v6 hp
  obtain ⟨h1, h2, _⟩ := (C13_needed hw hst h hr hra hcl hc).2.2.2.2.2 v6 hp
  exact ⟨h1, h2⟩

/-- The panics of valid transactions that concern `Vec`s: "remove on vec" exactly if the transaction removes a link whose opposite is in a `Vec`, and
"add on vec" only if it adds one whose opposite can only be in a `Vec` and is not there. -/
theorem C73_panics_partial (hw : WellNamed S) {g : Graph} {t : Trans} (h : Meets S dbg R g t) (hst : SteadyBidir S t g.get?)
    (hfill : dbg = true → ∀ i, ¬ t.pending.unfilled i) (hvalid : Valid S g.get? t.pending) :
    ∃ v6, Performed t g.get? v6 ∧ (g.commit S dbg t = .error .removeOnVec ↔ VecLeft S g.get? v6) ∧
      (g.commit S dbg t = .error .addOnVec → VecMissing S g.get? v6) := by
  obtain ⟨_, hctx, _⟩ := h.disjoint hw
  obtain ⟨g6, r6, hp, out⟩ := hvalid.perform hw h
  have hall := Trans.allocs_empty hfill
  refine ⟨g6.get?, out.performed, ?_⟩
  rcases Graph.commit_after hw dbg hst (fun _ => hctx) hall hp out with
    ⟨hc, hl⟩ | ⟨hl, ⟨g', hc, _⟩ | ⟨hc, _⟩ | ⟨hc, _⟩ | ⟨hc, _⟩ | ⟨hc, hm⟩⟩
  · rw [hc]; exact ⟨⟨fun _ => hl, fun _ => rfl⟩, fun e => absurd e (by simp)⟩
  all_goals
    rw [hc]
    refine ⟨⟨fun e => absurd e (by simp), fun e => absurd e hl⟩, ?_⟩
    first | exact fun _ => hm | exact fun e => absurd e (by simp)

/-- Bidirectional links are symmetric for fields of all kinds, if closures keep variants, transactions are sound, and no `Vec` of a `bidirectional!`
line holds a node twice on the way: where `m` and `m'` are declared opposite, `a` holds `b` in `m` iff `b` holds `a` in `m'`. -/
theorem C73_symmetric_partial (hw : WellNamed S) (hst : ∀ w c, R w c → SteadyBidirCalls S w c) (hone : OneOpposite S)
    (hK : ∀ w c, R w c → KeepVariants w c) (hR : ∀ w c, R w c → SoundCalls w c) {g : Graph} (h : Reachable S dbg R g) {a b : NodeIndex} {na nb : Node}
    {m m' : Mirror} (ha : g.get? a = some na) (hb : g.get? b = some nb) (hm : Opposite S m m') (hma : m.disc = na.disc) (hmb : m'.disc = nb.disc) :
    View.Link g.get? a m b ↔ View.Link g.get? b m' a :=
  C22_sound hw hst hone hK hR h ha hb hm hma hmb

end TTGraph

namespace TTGraph
namespace Demo
open Spec

/-- `C { p: NodeIndex }` (1: 10), `P { v: Vec }` (2: 20) with `C.p <-> P.v`: children that know their parent, which has an ordered list of them. -/
def owner : Schema := { variants := [(1, ⟨[lnk 10 .direct], []⟩), (2, ⟨[lnk 20 .vec], []⟩)], bidirs := [⟨1, 10, 2, 20⟩] }

/-- A child. -/
def cC (p : NodeIndex) : Node := ⟨1, [.direct p], []⟩

/-- A parent. -/
def cP (v : List NodeIndex) : Node := ⟨2, [.vec v], []⟩

theorem owner_named : WellNamed owner := wellNamed_sound (by decide)
theorem owner_one : OneOpposite owner := oneOpposite_sound owner_named (by decide)
theorem owner_once : DeclaredOnce owner := declaredOnce_sound owner_named (by decide +kernel)

/-- It has a bidirectional `Vec`. -/
theorem owner_vec : ¬ NoVec owner := fun h =>
  h ⟨2, 0⟩ ⟨1, 0⟩ ((Schema.mem_mirrorsOf owner_named).1 (by decide)) rfl

/-- 1 and 2 are children of 3, in the order 2, 1.  Only the parent is given its links. -/
def own4 : List Step :=
  [.call (.newContext 0 77), .call (.newGraph 0 0), .call (.newTrans 0 0), .call (.op 0 (.insert (cC 0))), .call (.op 0 (.insert (cC 0))),
   .call (.op 0 (.insert (cP [2, 1]))), .call (.commit 0 0), .call (.newTrans 1 0)]

/-- A transaction that sets one node is valid. -/
theorem valid_const {S : Schema} {g : Graph} {t : Trans} {i : NodeIndex} {n : Node} (hmu : t.pending.muts ++ t.pending.upds = [(i, const n)])
    (hi : g.get? i ≠ none) (hr : t.pending.redir = []) (hra : t.pending.redirAll = []) (hrem : ∀ i, ¬ t.pending.removed i) (hn : S.WT n)
    (hy : ∀ y ∈ n.iterSources.map Prod.fst, g.get? y ≠ none) : Valid S g.get? t.pending := by
  have hl : ¬ Loop [] := by
    rintro ⟨a, b, hab, _⟩
    exact absurd hab (by simp)
  refine ⟨fun j f hf => ?_, fun j hj => absurd hj (hrem j), fun j f hf => ?_, fun a b ho => ?_, fun a b ho => ?_, hr ▸ hl, hra ▸ hl⟩
  · rw [hmu, List.mem_singleton, Prod.mk.injEq] at hf
    exact Or.inl (hf.1 ▸ hi)
  · rw [hmu, List.mem_singleton, Prod.mk.injEq] at hf
    rw [hf.2]
    exact fun m _ _ => ⟨n, rfl, hn, fun s y h => Or.inl (hy y (List.mem_map.2 ⟨_, Node.mem_iterSources.2 h, rfl⟩))⟩
  · rw [hr] at ho; exact absurd ho (by simp)
  · rw [hra] at ho; exact absurd ho (by simp)

/-- All targets are permitted without annotations. -/
theorem owner_permitted (m : Mirror) (d : Ident) : Permitted owner m d := by
  rintro sd log vs _ _ ⟨⟨a, ha, _⟩, _⟩
  exact absurd ha (by simp [owner])

/-- A transaction that sets one node is steady, if there are no repetitions. -/
theorem steady_const {S : Schema} {g : Graph} {t : Trans} {i : NodeIndex} {n : Node} (h : Meets S true AnyCall g t) (hw : WellNamed S)
    (hmu : t.pending.muts ++ t.pending.upds = [(i, const n)]) (hr : t.pending.redir = []) (hra : t.pending.redirAll = [])
    (hg : onceArena S g.nodes = true) (ht : onceArena S t.inc = true) (hn : onceNode n = true) : SteadyBidir S t g.get? := by
  intro x m y _ _
  refine steady_of hr hra (onceArena_sound (h.inv hw).arena hg x m y) (onceArena_sound (h.ready hw).good.inv ht x m y) fun f hf a a' ha k k' => ?_
  rw [show t.muts ++ t.upds = _ from hmu, List.mem_singleton, Prod.mk.injEq] at hf
  rw [hf.2, const, Except.ok.injEq] at ha
  subst ha
  exact onceNode_sound hn k k'

/-- The parent drops 2 and keeps 1. -/
def own5 : List Step := own4 ++ [.mutate 1 3 (cP [1])]

theorem own5_meets : let w := run owner true World.init own5
    Meets owner true AnyCall (graphAt w 0) (transAt w 1) := meets_of (reaches own5 (by decide +kernel)) 0 1 (by decide +kernel)

/-- C73: it is steady, valid and committed; the conditions of `C73_returns_partial`, `C73_commit_partial`, `C73_needed_partial` and `C73_panics_partial`
hold.  Before, both children know their parent; afterwards, 1 still does and 2 does not. -/
example : let w := run owner true World.init own5
    let g := graphAt w 0
    let t := transAt w 1
    SteadyBidir owner t g.get? ∧ (true = true → ∀ i, ¬ t.pending.unfilled i) ∧ Valid owner g.get? t.pending ∧
    (∀ v6, Performed t g.get? v6 → ¬ Spec.Conflict owner g.get? v6 ∧ ¬ Undecided owner g.get? v6 ∧
      (∀ x m y n, Checked owner t g.get? v6 x m y → v6 y = some n → Permitted owner m n.disc) ∧ ¬ VecLeft owner g.get? v6 ∧ ¬ VecMissing owner g.get? v6) ∧
    g.get? 1 = some (cC 3) ∧ g.get? 2 = some (cC 3) ∧
    ∃ g', g.commit owner true t = .ok g' ∧ g'.get? 1 = some (cC 3) ∧ g'.get? 2 = some (cC 0) ∧ g'.get? 3 = some (cP [1]) := by
  intro w g t
  have hm : Meets owner true AnyCall g t := own5_meets
  have hmu : t.pending.muts ++ t.pending.upds = [(3, const (cP [1]))] := rfl
  have hst : SteadyBidir owner t g.get? := steady_const hm owner_named hmu (by decide +kernel) (by decide +kernel) (by decide +kernel) (by decide +kernel)
    (by decide)
  have hc : g.commit owner true t = .ok (got g (g.commit owner true t)) := got_ok (by decide +kernel)
  have hn := C73_needed_partial owner_named hm hst (by decide +kernel) (by decide +kernel)
    (fun p hp => by
      rw [hmu, List.mem_singleton] at hp
      rw [hp]
      exact fun _ _ _ => Or.inr ⟨_, _, rfl, rfl, Node.Same.refl _⟩) hc
  refine ⟨hst, fun _ i hi => ?_, valid_const hmu (by decide +kernel) (by decide +kernel) (by decide +kernel) (fun i hi => ?_) (wt_sound (by decide)) ?_,
    fun v6 hp => ?_, by decide +kernel, by decide +kernel, _, hc, by decide +kernel, by decide +kernel, by decide +kernel⟩
  · exact absurd hi (OrderSet.isEmpty_iff.1 (show t.allocs.isEmpty = true from by decide +kernel) i)
  · exact absurd hi (OrderSet.isEmpty_iff.1 (show t.dec.isEmpty = true from by decide +kernel) i)
  · rw [show (cP [1]).iterSources.map Prod.fst = [1] from by decide]
    simp only [List.mem_singleton, forall_eq]
    decide +kernel
  · obtain ⟨h1, h2, h3⟩ := hn v6 hp
    exact ⟨h1, not_undecided owner_named owner_one owner_once _ _, fun x m y n _ _ => owner_permitted _ _, h2, h3⟩

/-- C73: a child cannot leave its parent by itself.  The hypotheses of `C73_refused_partial` and `C73_panics_partial` hold. -/
example : let w := run owner true World.init (own4 ++ [.mutate 1 2 (cC 0)])
    let g := graphAt w 0
    let t := transAt w 1
    Meets owner true AnyCall g t ∧ SteadyBidir owner t g.get? ∧ (true = true → ∀ i, ¬ t.pending.unfilled i) ∧ Valid owner g.get? t.pending ∧
    (∀ v6, Performed t g.get? v6 → VecLeft owner g.get? v6) ∧ g.commit owner true t = .error .removeOnVec := by
  intro w g t
  have hm : Meets owner true AnyCall g t := meets_of (reaches (own4 ++ [.mutate 1 2 (cC 0)]) (by decide +kernel)) 0 1 (by decide +kernel)
  have hmu : t.pending.muts ++ t.pending.upds = [(2, const (cC 0))] := rfl
  have hst : SteadyBidir owner t g.get? := steady_const hm owner_named hmu (by decide +kernel) (by decide +kernel) (by decide +kernel) (by decide +kernel)
    (by decide)
  have hu : true = true → ∀ i, ¬ t.pending.unfilled i := fun _ i hi =>
    absurd hi (OrderSet.isEmpty_iff.1 (show t.allocs.isEmpty = true from by decide +kernel) i)
  have hv : Valid owner g.get? t.pending := valid_const hmu (by decide +kernel) (by decide +kernel) (by decide +kernel)
    (fun i hi => absurd hi (OrderSet.isEmpty_iff.1 (show t.dec.isEmpty = true from by decide +kernel) i)) (wt_sound (by decide))
    (by rw [show (cC 0).iterSources.map Prod.fst = [] from by decide]; exact fun _ h => absurd h (by simp))
  have hc : g.commit owner true t = .error .removeOnVec := panic_of (by decide +kernel)
  refine ⟨hm, hst, hu, hv, fun v6 hp => ?_, hc⟩
  obtain ⟨v, hp', hl, _⟩ := C73_panics_partial owner_named hm hst hu hv
  obtain ⟨x, m, y, d, m', k1, k2, k3⟩ := hl.1 hc
  have hs := performed_same rfl (by decide +kernel) (by decide +kernel) (fun p hp => by
    rw [show t.muts ++ t.upds = _ from hmu, List.mem_singleton] at hp
    rw [hp]
    exact fun _ _ _ => Or.inr ⟨_, _, rfl, rfl, Node.Same.refl _⟩) (.refl _) hp hp'
  exact ⟨x, m, y, d, m', ((View.Same.refl _).removedLink hs x m y).1 k1, (hs.ends x y d).1 k2, k3⟩

/-- C73: a child cannot join a parent by itself.  The hypotheses of `C73_refused_partial` and `C73_panics_partial` hold. -/
example : let w := run owner true World.init (own4 ++ [.call (.op 1 (.insert (cC 3)))])
    let g := graphAt w 0
    let t := transAt w 1
    Meets owner true AnyCall g t ∧ SteadyBidir owner t g.get? ∧ (true = true → ∀ i, ¬ t.pending.unfilled i) ∧ Valid owner g.get? t.pending ∧
    (∀ v6, Performed t g.get? v6 → VecMissing owner g.get? v6) ∧ g.commit owner true t = .error .addOnVec := by
  intro w g t
  have hm : Meets owner true AnyCall g t := meets_of (reaches (own4 ++ [.call (.op 1 (.insert (cC 3)))]) (by decide +kernel)) 0 1 (by decide +kernel)
  have hmu : t.pending.muts ++ t.pending.upds = [] := by
    have h1 : t.muts = [] := List.isEmpty_iff.1 (by decide +kernel)
    have h2 : t.upds = [] := List.isEmpty_iff.1 (by decide +kernel)
    exact List.append_eq_nil_iff.2 ⟨h1, h2⟩
  have hr : t.pending.redir = [] := by decide +kernel
  have hra : t.pending.redirAll = [] := by decide +kernel
  have hst : SteadyBidir owner t g.get? := fun x m y _ _ =>
    steady_of hr hra (onceArena_sound (hm.inv owner_named).arena (by decide +kernel) x m y)
      (onceArena_sound (hm.ready owner_named).good.inv (by decide +kernel) x m y) fun f hf => absurd (hmu ▸ hf) (by simp)
  have hu : true = true → ∀ i, ¬ t.pending.unfilled i := fun _ i hi =>
    absurd hi (OrderSet.isEmpty_iff.1 (show t.allocs.isEmpty = true from by decide +kernel) i)
  have hl : ¬ Loop [] := by
    rintro ⟨a, b, hab, _⟩
    exact absurd hab (by simp)
  have hv : Valid owner g.get? t.pending := ⟨fun j f hf => absurd (hmu ▸ hf) (by simp),
    fun i hi => absurd hi (OrderSet.isEmpty_iff.1 (show t.dec.isEmpty = true from by decide +kernel) i), fun j f hf => absurd (hmu ▸ hf) (by simp),
    fun a b ho => absurd (hr ▸ ho) (by simp), fun a b ho => absurd (hra ▸ ho) (by simp), hr ▸ hl, hra ▸ hl⟩
  have hc : g.commit owner true t = .error .addOnVec := panic_of (by decide +kernel)
  refine ⟨hm, hst, hu, hv, fun v6 hp => ?_, hc⟩
  obtain ⟨v, hp', _, hl⟩ := C73_panics_partial owner_named hm hst hu hv
  obtain ⟨x, m, y, d, k1, k2, k3, k4⟩ := hl hc
  have hs := performed_same rfl (by decide +kernel) (by decide +kernel) (fun p hp => absurd (hmu ▸ hp) (by simp))
    (.refl _) hp hp'
  exact ⟨x, m, y, d, ((View.Same.refl _).addedLink hs x m y).1 k1, (hs.ends x y d).1 k2, k3, fun m' k5 k6 =>
    ⟨(k4 m' k5 k6).1, fun k7 => (k4 m' k5 k6).2 ((hs.link y m' x).2 k7)⟩⟩

/-- Sound calls that keep variants and fill no bidirectional `Vec` with repetitions. -/
def SoundKeepSteadyBidir (S : Schema) (w : World) (c : Call) : Prop := SoundKeep w c ∧ SteadyBidirCalls S w c

theorem steadyStep_bidir [SetImpl] {S : Schema} {dbg : Bool} {R : World → Call → Prop} (hw : WellNamed S) (w : World) (s : Step)
    (h : Reaches S dbg R w) (hs : steadyStep S w s = true) : SteadyBidirCalls S w s.call' := by
  cases s with
  | mutate k i n => trivial
  | update k i n => trivial
  | edit k i n => trivial
  | swap k i n => trivial
  | call c =>
    cases c with
    | commit gh k =>
      intro c c' g t hg ht x m y _ _
      have e1 : graphAt w gh = g := by simp [graphAt, hg]
      have e2 : transAt w k = t := by simp [transAt, ht]
      simp only [steadyStep, e1, e2, Bool.and_eq_true, List.isEmpty_iff] at hs
      obtain ⟨_, _, _, hr⟩ := (h.inv hw).trans k c' t ht
      obtain ⟨_, _, _, hi⟩ := (h.inv hw).graph gh c g hg
      obtain ⟨⟨⟨⟨⟨h1, h2⟩, h3⟩, h4⟩, h5⟩, h6⟩ := hs
      exact steady_of h1 h2 (onceArena_sound hi.arena h5 x m y) (onceArena_sound hr.good.inv h6 x m y)
        fun f hf => absurd hf (by simp [h3, h4])
    | commitChecked _ _ _ => exact absurd hs (by simp [steadyStep])
    | _ => trivial

/-- Then 1 is removed, and a new node 4 becomes the only child of a new parent 5. -/
def own6 : List Step := own4 ++ [.call (.op 1 (.remove 1)), .call (.op 1 (.insert (cC 0))), .call (.op 1 (.insert (cP [4]))), .call (.commit 0 1)]

/-- C73: the hypotheses of `C73_symmetric_partial` are met by a graph whose links are held on both sides. -/
example : ¬ NoVec owner ∧ OneOpposite owner ∧ Opposite owner ⟨1, 0⟩ ⟨2, 0⟩ ∧
    ∃ g, Reachable owner true (SoundKeepSteadyBidir owner) g ∧ g.get? 1 = none ∧ g.get? 2 = some (cC 3) ∧ g.get? 3 = some (cP [2, 0]) ∧
      g.get? 4 = some (cC 5) ∧ g.get? 5 = some (cP [4]) := by
  refine ⟨owner_vec, owner_one, (Schema.mem_mirrorsOf owner_named).1 (by decide), _, reachable_of (w := run owner true World.init own6) ?_ 0 (by decide +kernel),
    by decide +kernel, by decide +kernel, by decide +kernel, by decide +kernel, by decide +kernel⟩
  refine reaches_where (us := []) (r := fun w s => soundStep owner w s && keepStep w s && steadyStep owner w s)
    (fun w s h hs => ?_) own6 .init (fun _ _ h => absurd h (by simp [World.init])) (by decide +kernel)
  simp only [Bool.and_eq_true] at hs
  exact ⟨⟨soundStep_ok owner_named w s h hs.1.1, keepStep_ok w s hs.1.2⟩, steadyStep_bidir owner_named w s h hs.2⟩

/-- The parent drops 1.  In the next transaction, it first gets 1 twice, then once. -/
def own7 : List Step :=
  own4 ++ [.edit 1 3 (cP [2]), .call (.commit 0 1), .call (.newTrans 2 0), .edit 2 3 (cP [1, 1]), .swap 2 3 (cP [1]), .call (.commit 0 2)]

/-- C73 fails if a `Vec` holds a node twice on the way: 3 has the child 1, which does not know it. -/
theorem C73_twice_fails : ¬ ∀ g, Reachable owner true SoundKeep g → ∀ a b na nb m m', g.get? a = some na → g.get? b = some nb → Opposite owner m m' →
    m.disc = na.disc → m'.disc = nb.disc → (View.Link g.get? a m b ↔ View.Link g.get? b m' a) := by
  intro h
  have e := h (graphAt (run owner true World.init own7) 0) (reachable_of (reaches_soundKeep owner_named own7 (by decide +kernel)) 0 (by decide +kernel))
    3 1 (cP [1]) (cC 0) ⟨2, 0⟩ ⟨1, 0⟩ (by decide +kernel) (by decide +kernel) ((Schema.mem_mirrorsOf owner_named).1 (by decide)) rfl rfl
  have h1 := e.1 (View.Link.of_holds (v := (graphAt (run owner true World.init own7) 0).get?) (x := 3) (t := ⟨2, 0, 0⟩) (y := 1) ⟨cP [1], by decide +kernel, 
    Node.mem_iterSources.1 (show ((1 : NodeIndex), (⟨2, 0, 0⟩ : Source)) ∈ (cP [1]).iterSources from by decide)⟩)
  obtain ⟨k, n, hn, hk⟩ := View.link_iff.1 h1
  rw [show (graphAt (run owner true World.init own7) 0).get? 1 = some (cC 0) from by decide +kernel, Option.some.injEq] at hn
  subst hn
  have := Node.mem_iterSources.2 hk
  rw [show (cC 0).iterSources = [] from by decide] at this
  exact absurd this (by simp)

end Demo
end TTGraph
