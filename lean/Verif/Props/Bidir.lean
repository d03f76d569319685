import Verif.Lemmas.Insert
import Verif.Demo.Traced
import Verif.Demo.Decls
import Verif.Lemmas.Performable
import Verif.Lemmas.Symmetric
import Verif.Lemmas.Steady
import Verif.Spec.Vec
import Verif.Props.Integrity
import Verif.Props.Iter

/-!
# Bidirectional links: C22, C23, C24, C25
-/

set_option autoImplicit false

namespace TTGraph
open Spec
variable [SetImpl] {S : Schema} {dbg : Bool} {R : World → Call → Prop}

/-! ## C22 -/

/-- Commits keep the variants of nodes, if closures do. -/
theorem commit_variants (hw : WellNamed S) (hK : ∀ w c, R w c → KeepVariants w c) {g g' : Graph} {t : Trans}
    (h : Meets S dbg R g t) {e0 : Prop} {v6 : View} (out : Graph.CommitOut S e0 t g g' v6) (x : NodeIndex) (n n6 : Node) (hn : g.get? x = some n)
    (hn6 : v6 x = some n6) : n6.disc = n.disc := by
  obtain ⟨hg, ht⟩ := (typed_closed hw hK).meets h
  have hg' : g'.nodes.Typed := out.typed hg ht.1 ht.2
  have hs := out.same.1 x
  rw [hn6] at hs
  cases hn' : g'.get? x with
  | none => rw [hn'] at hs; exact absurd hs (by simp)
  | some n' =>
    rw [hn'] at hs
    simp only [Option.map_some, Option.some.injEq] at hs
    have e1 : n'.disc = n6.disc := congrArg Prod.fst hs
    obtain ⟨d, h1, h2⟩ := Arena.get?_eq_some.1 hn
    obtain ⟨d', h3, h4⟩ := Arena.get?_eq_some.1 hn'
    have h5 : t.inc.disp.get? x = none := by
      by_contra hne
      have := (h.disjoint hw).1 x hne
      rw [h1] at this
      exact absurd this (by simp)
    rw [out.disp, h5] at h3
    split at h3
    · exact absurd h3 (by simp)
    · rw [none_alt, h1, Option.some.injEq] at h3
      subst h3
      rw [← e1, hg' d x n' h4, hg d x n h2]

theorem symmetric_closed (hw : WellNamed S) (hst : ∀ w c, R w c → SteadyBidirCalls S w c) (hone : OneOpposite S) (hK : ∀ w c, R w c → KeepVariants w c)
    (hN : ∀ w c, R w c → NoCatch w c) (hI : ∀ g, Reachable S dbg R g → Internal g.get?) : Closed S dbg R (fun g => Symmetric S g.get?) (fun _ => True) where
  newGraph u x m y n m' hl := by
    obtain ⟨n, hn, _⟩ := hl.disc
    simp [Graph.new, Graph.get?] at hn
  newTrans _ := trivial
  op := fun _ _ _ _ _ _ _ => trivial
  merge := fun _ _ _ _ _ _ _ _ => trivial
  commit := by
    intro w k h g g' t _ hm hr hg ht hs _ hc
    obtain ⟨v6, out⟩ := hm.commit hw hc
    have hsb : SteadyBidir S t g.get? := by
      obtain ⟨c, hg⟩ := hg
      obtain ⟨c', ht⟩ := ht
      rcases hr with hr | ⟨_, hr⟩
      · exact hst _ _ hr c c' g t hg ht
      · exact hst _ _ hr c c' g t hg ht
    refine completion_sym hone (out.completion hsb) (out.covered hsb) hs (hI g hm.reachable) (commit_variants hw hK hm out) ?_
    have h0 := out.inv.noEmpty
    have := out.same.1 emptyIdx
    rw [h0] at this
    cases h6 : v6 emptyIdx with
    | none => rfl
    | some n => rw [h6] at this; exact absurd this (by simp)
  caught := fun _ _ hr _ _ _ _ _ => absurd (hN _ _ hr) id
  switch := by
    intro w h c g g' u cnt cnt' _ hr _ _ _ he
    obtain ⟨a0, idMap, a, h1, h2, h3, h4, h5, h6, h7, _⟩ := switch_ok hw (hr.inv hw) he
    refine completion_sym hone h6.completion h6.covered ?_ ?_ ?_ ((LoadOut.none_iff h6 _).1 h6.inv.noEmpty)
    · exact fun x m y n m' hl => absurd hl.disc (by simp)
    · exact fun x s y ⟨n, hn, _⟩ => absurd hn (by simp)
    · exact fun x n n6 hn => absurd hn (by simp)
  deserialize := by
    intro w h c input cnt g _ _ hin hd
    obtain ⟨_, _, a, h1, h2, h6⟩ := deserialize_ok hw hin hd
    refine completion_sym hone h6.completion h6.covered ?_ ?_ ?_ ((LoadOut.none_iff h6 _).1 h6.inv.noEmpty)
    · exact fun x m y n m' hl => absurd hl.disc (by simp)
    · exact fun x s y ⟨n, hn, _⟩ => absurd hn (by simp)
    · exact fun x n n6 hn => absurd hn (by simp)

/-- If closures keep the variants of nodes, no graph of the program has dangling links and no panicking commit is caught, then bidirectional links are symmetric: where the
fields `m` and `m'` are declared opposite, `a` holds `b` in `m` iff `b` holds `a` in `m'`. -/
theorem C22_symmetric (hw : WellNamed S) (hst : ∀ w c, R w c → SteadyBidirCalls S w c) (hone : OneOpposite S) (hK : ∀ w c, R w c → KeepVariants w c)
    (hN : ∀ w c, R w c → NoCatch w c) (hI : ∀ g, Reachable S dbg R g → Internal g.get?) {g : Graph} (h : Reachable S dbg R g) {a b : NodeIndex} {na nb : Node} {m m' : Mirror}
    (ha : g.get? a = some na) (hb : g.get? b = some nb) (hm : Opposite S m m') (hma : m.disc = na.disc) (hmb : m'.disc = nb.disc) :
    View.Link g.get? a m b ↔ View.Link g.get? b m' a := by
  have hs := (symmetric_closed hw hst hone hK hN hI).reachable h
  exact ⟨fun hl => hs a m b nb m' hl hb hm hmb, fun hl => hs b m' a na m hl ha hm.symm hma⟩

/-- In particular if all transactions are sound (they insert and redirect only to nodes of the graph and new nodes). -/
theorem C22_sound (hw : WellNamed S) (hst : ∀ w c, R w c → SteadyBidirCalls S w c) (hone : OneOpposite S) (hK : ∀ w c, R w c → KeepVariants w c)
    (hR : ∀ w c, R w c → SoundCalls w c) {g : Graph} (h : Reachable S dbg R g) {a b : NodeIndex} {na nb : Node} {m m' : Mirror}
    (ha : g.get? a = some na) (hb : g.get? b = some nb) (hm : Opposite S m m') (hma : m.disc = na.disc) (hmb : m'.disc = nb.disc) :
    View.Link g.get? a m b ↔ View.Link g.get? b m' a :=
  C22_symmetric hw hst hone hK (fun w c h => (hR w c h).noCatch) (fun _ hg => C12_internal_partial hw hR hg) h ha hb hm hma hmb

/-! ## C23 -/

/-- Let `v6` be the graph after the transaction's own operations.  In the result, a node `z` holds `w` in the field `m'` iff it did in `v6` and
the transaction did not remove a link from `w` to `z` that `m'` is an opposite of, or the transaction added a link from `w` to `z` that `m'`
is the only opposite of.  Fields without opposites, data, variants and the lengths of `Vec`s are as in `v6`. -/
theorem C23_exact (hw : WellNamed S) {g g' : Graph} {t : Trans} (hst : SteadyBidir S t g.get?) (h : Meets S dbg R g t) (hc : g.commit S dbg t = .ok g') :
    ∃ v6, Performed t g.get? v6 ∧
      (∀ z m' w, View.Link g'.get? z m' w ↔
        (v6.Link z m' w ∧ ¬ ∃ m, RemovedLink g.get? v6 w m z ∧ Ends v6 w z m'.disc ∧ Opposite S m m') ∨
        ∃ m, AddedLink g.get? v6 w m z ∧ Ends v6 w z m'.disc ∧ OnlyOpposite S m m'.disc m') ∧
      (∀ z s w, (∀ m, ¬ Opposite S m s.mirror) → (View.Holds g'.get? z s w ↔ v6.Holds z s w)) ∧ SameButLinks v6 g'.get? := by
  obtain ⟨v6, out⟩ := h.commit hw hc
  refine ⟨v6, out.performed, fun z m' w => ?_, fun z s w hm => ?_, out.same.1⟩
  · constructor
    · intro hl
      obtain ⟨k, hl⟩ := View.link_iff.1 hl
      rcases ((out.completion hst).2 _ _ _).1 hl with ⟨h1, h2⟩ | ⟨_, _, m, d, h3, h4, h5⟩
      · exact Or.inl ⟨View.link_iff.2 ⟨k, h1⟩, fun ⟨m, h3, h4, h5⟩ => h2 ⟨m, m'.disc, h3, h4, h5, rfl⟩⟩
      · obtain ⟨h6, h7, h8⟩ := h5
        have e : d = m'.disc := h7.symm
        subst e
        exact Or.inr ⟨m, h3, h4, h6, h7, h8⟩
    · rintro (⟨h1, h2⟩ | ⟨m, h1, h2, h3⟩)
      · obtain ⟨k, h1⟩ := View.link_iff.1 h1
        refine View.link_iff.2 ⟨k, ((out.completion hst).2 _ _ _).2 (Or.inl ⟨h1, ?_⟩)⟩
        rintro ⟨m, d, h3, h4, h5, h6⟩
        have e : d = m'.disc := h6.symm
        subst e
        exact h2 ⟨m, h3, h4, h5⟩
      · obtain ⟨m2, h4, h5, h6⟩ := out.covered hst w m z m'.disc h1 h2 ⟨m', h3.1, rfl⟩
        rw [h3.2.2 m2 h4 h5] at h6
        exact h6
  · exact (out.same).2 z s w hm

/-- With one opposite per field and variant: the opposites of removed links are gone and the opposites of added links are there. -/
theorem C23_opposites (hw : WellNamed S) (hone : OneOpposite S) {g g' : Graph} {t : Trans} (hst : SteadyBidir S t g.get?) (h : Meets S dbg R g t)
    (hc : g.commit S dbg t = .ok g') :
    ∃ v6, Performed t g.get? v6 ∧ ∀ w m z n m', v6 w ≠ none → v6 z = some n → Opposite S m m' → m'.disc = n.disc →
      (AddedLink g.get? v6 w m z → View.Link g'.get? z m' w) ∧
      (RemovedLink g.get? v6 w m z → (∀ m0, Opposite S m0 m' → ¬ AddedLink g.get? v6 w m0 z) → ¬ View.Link g'.get? z m' w) := by
  obtain ⟨v6, out⟩ := h.commit hw hc
  refine ⟨v6, out.performed, fun w m z n m' h1 h2 h3 h4 => ⟨fun ha => ?_, fun hr hno hl => ?_⟩⟩
  · exact (completion_link hone (out.completion hst) (out.covered hst) _ _ _).2 (Or.inr ⟨m, h3, ha, h1, n, h2, h4.symm⟩)
  · rcases (completion_link hone (out.completion hst) (out.covered hst) _ _ _).1 hl with ⟨_, h5⟩ | ⟨m0, h5, h6, _⟩
    · exact h5 ⟨m, h3, hr, h1, n, h2, h4.symm⟩
    · exact hno m0 h5 h6

/-! ## C24 -/

/-- The commit of a valid transaction panics in bidirectional completion iff some direct field would have to hold two different nodes, unless it
panics because a `Vec` would have to be changed.

Full statement of C24: the same without `DeclaredOnce`.  That is false, see below. -/
theorem C24_iff_partial (hw : WellNamed S) (hone : OneOpposite S) (ho : DeclaredOnce S) {g : Graph} {t : Trans} (hst : SteadyBidir S t g.get?) (h : Meets S dbg R g t)
    (hfill : dbg = true → ∀ i, ¬ t.pending.unfilled i) (hvalid : Valid S g.get? t.pending) :
    ∃ v6, Performed t g.get? v6 ∧ (NoVecDue S g.get? v6 → (g.commit S dbg t = .error .addOnExisting ↔ Spec.Conflict S g.get? v6)) ∧
      g.commit S dbg t ≠ .error .multiChoice := by
  obtain ⟨_, hctx, _⟩ := h.disjoint hw
  obtain ⟨g6, r6, hp, out⟩ := hvalid.perform hw h
  have hall := Trans.allocs_empty hfill
  refine ⟨g6.get?, out.performed, fun hdue => ⟨fun he => ?_, fun hc => Graph.commit_conflict hw hone ho hst hdue.1 hdue.2 (fun _ => hctx) hall hp out hc⟩, fun he => ?_⟩
  · rcases Graph.commit_after hw dbg hst (fun _ => hctx) hall hp out with ⟨hc, _⟩ | ⟨_, ⟨g', hc, _⟩ | ⟨hc, _⟩ | ⟨_, hc⟩ | ⟨hc, _⟩ | ⟨hc, _⟩⟩
    case inr.inr.inr.inl => exact hc
    all_goals (rw [he] at hc; exact absurd hc (by simp))
  · rcases Graph.commit_after hw dbg hst (fun _ => hctx) hall hp out with ⟨hc, _⟩ | ⟨_, ⟨g', hc, _⟩ | ⟨_, _, hc⟩ | ⟨hc, _⟩ | ⟨hc, _⟩ | ⟨hc, _⟩⟩
    case inr.inr.inl => exact not_undecided hw hone ho _ _ hc
    all_goals (rw [he] at hc; exact absurd hc (by simp))

/-- If a commit returns, then no direct field would have to hold two different nodes. -/
theorem C24_returns_partial (hw : WellNamed S) {g g' : Graph} {t : Trans} (hst : SteadyBidir S t g.get?) (h : Meets S dbg R g t)
    (hc : g.commit S dbg t = .ok g') : ∃ v6, Performed t g.get? v6 ∧ ¬ Spec.Conflict S g.get? v6 := by
  obtain ⟨v6, out⟩ := h.commit hw hc
  exact ⟨v6, out.performed, out.noConflict hst⟩

/-- If no closure panics and completion fails (of whatever transaction, under whatever declaration), then some direct field would have to hold two
different nodes, or an added link has no opposite, although several are possible or one is declared several times. -/
theorem C24_reasons (hw : WellNamed S) {g : Graph} {t : Trans}
    (hst : SteadyBidir S t g.get?) (h : Meets S dbg R g t) (hcl : ∀ i f, (i, f) ∈ t.pending.muts ++ t.pending.upds → ∀ n e, f n ≠ .error e) {e : Panic}
    (hc : g.commit S dbg t = .error e) (he : e = .addOnExisting ∨ e = .multiChoice) :
    ∃ v6, Performed t g.get? v6 ∧ ((e = .addOnExisting ∧ Spec.Conflict S g.get? v6) ∨ (e = .multiChoice ∧ Spec.Undecided S g.get? v6)) := by
  have hr := h.ready hw
  have hdis := (h.disjoint hw).1
  have hinv := h.inv hw
  rcases Graph.commit_error hw hst hinv hr.good hdis hr.noFrom hc with ⟨rfl, _⟩ | ⟨rfl, _⟩ | hp | ⟨g6, r6, hp, out, a | a | a | a | a⟩
  · exact absurd he (by simp)
  · exact absurd he (by simp)
  · rcases Graph.perform_error hw.variants hinv hr.good hdis hr.noFrom hp with ⟨rfl, _⟩ | rfl | ⟨rfl, _⟩ | ⟨rfl, _⟩ | ⟨p, hm, n, hf⟩
    · exact absurd he (by simp)
    · exact absurd he (by simp)
    · exact absurd he (by simp)
    · exact absurd he (by simp)
    · exact absurd hf (hcl p.1 p.2 hm n e)
  · exact ⟨_, out.performed, Or.inr ⟨a.1, a.2.2⟩⟩
  · exact ⟨_, out.performed, Or.inl a⟩
  all_goals (rw [a.1] at he; exact absurd he (by simp))

/-- If no closure panics and completion fails (of whatever transaction), then some direct field would have to hold two different nodes. -/
theorem C24_panics_partial (hw : WellNamed S) (hone : OneOpposite S) (ho : DeclaredOnce S) {g : Graph} {t : Trans}
    (hst : SteadyBidir S t g.get?) (h : Meets S dbg R g t) (hcl : ∀ i f, (i, f) ∈ t.pending.muts ++ t.pending.upds → ∀ n e, f n ≠ .error e) {e : Panic}
    (hc : g.commit S dbg t = .error e) (he : e = .addOnExisting ∨ e = .multiChoice) :
    e = .addOnExisting ∧ ∃ v6, Performed t g.get? v6 ∧ Spec.Conflict S g.get? v6 := by
  obtain ⟨v6, hp, ⟨h1, h2⟩ | ⟨_, h2⟩⟩ := C24_reasons hw hst h hcl hc he
  · exact ⟨h1, v6, hp, h2⟩
  · exact absurd h2 (not_undecided hw hone ho _ _)

/-! ## C25 -/

/-- Every link that the transaction added, and that is declared to have an opposite on the variant of its target, has one after the commit.

Full statement of C25: moreover, links that had an opposite before still have one.  That is false, see below. -/
theorem C25_added_partial (hw : WellNamed S) {g g' : Graph} {t : Trans} (hst : SteadyBidir S t g.get?) (h : Meets S dbg R g t) (hc : g.commit S dbg t = .ok g') :
    ∃ v6, Performed t g.get? v6 ∧ ∀ x m y n, AddedLink g.get? v6 x m y → v6 x ≠ none → v6 y = some n → (∃ m', Opposite S m m' ∧ m'.disc = n.disc) →
      ∃ m', Opposite S m m' ∧ m'.disc = n.disc ∧ View.Link g'.get? y m' x := by
  obtain ⟨v6, out⟩ := h.commit hw hc
  exact ⟨v6, out.performed, fun x m y n h1 h2 h3 h4 => out.covered hst x m y n.disc h1 ⟨h2, n, h3, rfl⟩ h4⟩

/-- If the transaction removes no links, then every link still has an opposite. -/
theorem C25_kept_partial (hw : WellNamed S) (hK : ∀ w c, R w c → KeepVariants w c) {g g' : Graph} {t : Trans} (hst : SteadyBidir S t g.get?) (h : Meets S dbg R g t)
    (hI : Internal g.get?) (ha : Answered S g.get?) (hrem : ∀ v6, Performed t g.get? v6 → ∀ x m y, ¬ RemovedLink g.get? v6 x m y)
    (hc : g.commit S dbg t = .ok g') : Answered S g'.get? := by
  obtain ⟨v6, out⟩ := h.commit hw hc
  refine covered_answered (out.completion hst) (out.covered hst) ha hI (commit_variants hw hK h out) ?_ (hrem v6 out.performed)
  have h0 := out.inv.noEmpty
  have := out.same.1 emptyIdx
  rw [h0] at this
  cases h6 : v6 emptyIdx with
  | none => rfl
  | some n => rw [h6] at this; exact absurd this (by simp)

/-- In the graphs that `switch_context` and `deserialize_graph` return, every link has an opposite. -/
theorem C25_loaded (hw : WellNamed S) :
    (∀ g g' u cnt cnt', Reachable S dbg R g → g.switchContext S u cnt = .ok (g', cnt') → Answered S g'.get?) ∧
    ∀ input cnt g', (∀ e ∈ input.nodes, e.1 ≠ emptyIdx ∧ S.WT e.2) → Graph.deserializeGraph S input = .ok (cnt, g') → Answered S g'.get? := by
  have key : ∀ {c : Nat} {a : Arena} {g' : Graph}, Graph.LoadOut S c a g' → Answered S g'.get? := by
    intro c a g' h6
    refine covered_answered h6.completion h6.covered ?_ ?_ ?_ ((LoadOut.none_iff h6 _).1 h6.inv.noEmpty) ?_
    · exact fun x m y n hl => absurd hl.disc (by simp)
    · exact fun x s y ⟨n, hn, _⟩ => absurd hn (by simp)
    · exact fun x n n6 hn => absurd hn (by simp)
    · exact fun x m y ⟨_, hl, _⟩ => absurd hl.disc (by simp)
  constructor
  · intro g g' u cnt cnt' hr he
    obtain ⟨a0, idMap, a, h1, h2, h3, h4, h5, h6, h7, _⟩ := switch_ok hw (hr.inv hw) he
    exact key h6
  · intro input cnt g' hin hd
    obtain ⟨_, _, a, h1, h2, h6⟩ := deserialize_ok hw hin hd
    exact key h6

end TTGraph

namespace TTGraph
namespace Demo
open Spec

/-- The first part of `pair5`: 1 and 3 of variant A, 2 and 4 of variant B. -/
def pair4 : List Step :=
  [.call (.newContext 0 77), .call (.newGraph 0 0), .call (.newTrans 0 0), .call (.op 0 (.insert (pA 2 [4]))), .call (.op 0 (.insert (pB [] 0))),
   .call (.op 0 (.insert (pA 0 []))), .call (.op 0 (.insert (pB [3] 0))), .call (.commit 0 0), .call (.newTrans 1 0)]

/-- Then 1 is linked with 4 instead of 2, and the link of 4 to 3 is redirected to 1. -/
def pair5 : List Step := pair4 ++ [.edit 1 1 (pA 4 [2, 4]), .call (.op 1 (.redirectLinks 3 1))]

/-- Sound calls that keep variants. -/
def SoundKeep (w : World) (c : Call) : Prop := SoundCalls w c ∧ KeepVariants w c

theorem reaches_soundKeep {S : Schema} {dbg : Bool} (hw : WellNamed S) (l : List Step)
    (hok : runOk S dbg (fun w s => soundStep S w s && keepStep w s) [] World.init l = true) : Reaches S dbg SoundKeep (run S dbg World.init l) := by
  refine reaches_where (us := []) (fun w s h hs => ?_) l .init (fun _ _ h => absurd h (by simp [World.init])) hok
  rw [Bool.and_eq_true] at hs
  exact ⟨soundStep_ok hw w s h hs.1, keepStep_ok w s hs.2⟩

theorem pair5_meets : let w := run pair true World.init pair5
    Meets pair true SoundKeep (graphAt w 0) (transAt w 1) :=
  meets_of (reaches_soundKeep pair_named pair5 (by decide +kernel)) 0 1 (by decide +kernel)

/-- C22: links that were completed. -/
example : ∃ g, Reachable pair true SoundKeep g ∧ g.get? 1 = some (pA 2 [4]) ∧ g.get? 2 = some (pB [1] 0) ∧ Opposite pair ⟨1, 0⟩ ⟨2, 0⟩ ∧
    g.get? 4 = some (pB [3] 1) ∧ g.get? 3 = some (pA 4 []) :=
  ⟨_, pair5_meets.reachable, by decide +kernel, by decide +kernel, (Schema.mem_mirrorsOf pair_named).1 (by decide), by decide +kernel, by decide +kernel⟩

/-- C23, C25: a commit that adds and removes opposites. -/
example : let w := run pair true World.init pair5
    Meets pair true SoundKeep (graphAt w 0) (transAt w 1) ∧ ∃ g', (graphAt w 0).commit pair true (transAt w 1) = .ok g' ∧
      g'.get? 1 = some (pA 4 [2, 4]) ∧ g'.get? 2 = some (pB [] 1) ∧ g'.get? 3 = some (pA 0 []) ∧ g'.get? 4 = some (pB [1] 1) :=
  ⟨pair5_meets, _, got_ok (d := Graph.new 0) (by decide +kernel), by decide +kernel⟩

/-- C02: the hypotheses of `C02_kept` for the node 2, whose field `h` is declared bidirectional.  The transaction inserts a node with a link to the
node 4, which gets a link back. -/
example : let w := run pair true World.init (pair4 ++ [.call (.op 1 (.insert (pA 4 [])))])
    Meets pair true SoundKeep (graphAt w 0) (transAt w 1) ∧ (∃ g', (graphAt w 0).commit pair true (transAt w 1) = .ok g' ∧ g'.get? 2 = some (pB [1] 0)) ∧
    (graphAt w 0).get? 2 = some (pB [1] 0) ∧ Opposite pair ⟨1, 0⟩ ⟨2, 0⟩ ∧ (transAt w 1).muts.length = 0 ∧ (transAt w 1).upds.length = 0 ∧
    (transAt w 1).dec.elems = [] ∧ (transAt w 1).redir = [] ∧ (transAt w 1).redirAll = [] ∧
    ∀ v6, Performed (transAt w 1) (graphAt w 0).get? v6 → ∀ x m m', Opposite pair m m' → m'.disc = (pB [1] 0).disc →
      (View.Link (graphAt w 0).get? x m 2 ↔ View.Link v6 x m 2) := by
  intro w
  have hm : Meets pair true SoundKeep (graphAt w 0) (transAt w 1) :=
    meets_of (reaches_soundKeep pair_named (pair4 ++ [.call (.op 1 (.insert (pA 4 [])))]) (by decide +kernel)) 0 1 (by decide +kernel)
  refine ⟨hm, ⟨_, got_ok (d := Graph.new 0) (by decide +kernel), by decide +kernel⟩, by decide +kernel, (Schema.mem_mirrorsOf pair_named).1 (by decide),
    by decide +kernel, by decide +kernel, by decide +kernel, by decide +kernel, by decide +kernel, ?_⟩
  intro v6 h6 x m m' _ _
  have hs := performed_insert h6 (by decide +kernel) (List.eq_nil_of_length_eq_zero (by decide +kernel)) (List.eq_nil_of_length_eq_zero (by decide +kernel))
    (by decide +kernel) (by decide +kernel)
  rw [hs.link x m 2]
  have hk : ∀ i n, (transAt w 1).inc.get? i = some n → i = 5 ∧ n = pA 4 [] := by
    intro i n hn
    have := (Arena.mem_entries (hm.ready pair_named).good.inv).2 hn
    rw [show (transAt w 1).inc.entries pair = [(5, pA 4 [])] from by decide +kernel] at this
    simpa using this
  constructor
  · rintro ⟨n, hn, hl⟩
    refine ⟨n, ?_, hl⟩
    simp only [union]
    split
    · rename_i n' hn'
      exact absurd hn (by rw [(hk x n' hn').1, show (graphAt w 0).get? 5 = none from by decide +kernel]; simp)
    · exact hn
  · rintro ⟨n, hn, slot, hl⟩
    simp only [union] at hn
    split at hn
    · rename_i n' hn'
      simp only [Option.some.injEq] at hn
      subst hn
      have := Node.mem_iterSources.2 hl
      rw [(hk x n' hn').2, show (pA 4 []).iterSources = [(4, ⟨1, 0, 0⟩)] from by decide +kernel] at this
      simp at this
    · exact ⟨n, hn, slot, hl⟩

/-- An index is allocated in one transaction and linked to in another one, which is committed first. -/
def early5 : List Step :=
  [.call (.newContext 0 77), .call (.newGraph 0 0), .call (.newTrans 0 0), .call (.op 0 .allocUntyped), .call (.newTrans 1 0),
   .call (.op 1 (.insert (pA 1 []))), .call (.commit 0 1), .call (.op 0 (.fillBackUntyped 1 (pB [] 0))), .call (.commit 0 0)]

/-- C22 needs that links do not dangle: here the target of a link is inserted after the link, and the link gets no opposite. -/
theorem C22_dangling_fails : ∃ g, Reachable pair true KeepVariants g ∧ g.get? 2 = some (pA 1 []) ∧ g.get? 1 = some (pB [] 0) :=
  ⟨_, reachable_of (reaches_run (us := []) keepStep_ok early5 .init (fun _ _ h => absurd h (by simp [World.init])) (by decide +kernel)) 0
    (by decide +kernel), by decide +kernel⟩

/-- A node with a link to it changes its variant. -/
def change5 : List Step :=
  [.call (.newContext 0 77), .call (.newGraph 0 0), .call (.newTrans 0 0), .call (.op 0 (.insert (pA 2 []))), .call (.op 0 (.insert (pA 0 []))),
   .call (.commit 0 0), .call (.newTrans 1 0), .update 1 2 (pB [] 0), .call (.commit 0 1)]

/-- C22 needs that closures keep the variant: here the target of a link becomes a node that must link back, and does not. -/
theorem C22_variant_fails : ∃ g, Reachable pair true SoundCalls g ∧ g.get? 1 = some (pA 2 []) ∧ g.get? 2 = some (pB [] 0) :=
  ⟨_, reachable_of (reaches_sound (us := []) pair_named change5 .init (fun _ _ h => absurd h (by simp [World.init])) (by decide +kernel)) 0
    (by decide +kernel), by decide +kernel⟩

/-- Two nodes of variant A claim the same node of variant B in their sets, to which one direct field is opposite. -/
def clash5 : List Step := pair4 ++ [.call (.op 1 (.insert (pA 0 [2]))), .call (.op 1 (.insert (pA 0 [2])))]

/-- C24: the transaction is valid and its commit panics. -/
example : let w := run pair true World.init clash5
    let g := graphAt w 0
    let t := transAt w 1
    Meets pair true AnyCall g t ∧ (true = true → ∀ i, ¬ t.pending.unfilled i) ∧ Valid pair g.get? t.pending ∧
    g.commit pair true t = .error .addOnExisting := by
  intro w g t
  have hm : Meets pair true AnyCall g t := meets_of (reaches clash5 (by decide +kernel)) 0 1 (by decide +kernel)
  have e1 : t.pending.muts = [] := rfl
  have e2 : t.pending.upds = [] := rfl
  have e3 : t.pending.redir = [] := rfl
  have e4 : t.pending.redirAll = [] := rfl
  have e5 : ∀ i, ¬ t.pending.removed i := fun i hi => by
    have : i ∈ t.dec.elems := hi
    rw [show t.dec.elems = [] from rfl] at this
    exact absurd this (by simp)
  refine ⟨hm, fun _ i hi => ?_, ⟨?_, fun i hi => absurd hi (e5 i), ?_, ?_, ?_, ?_, ?_⟩, rfl⟩
  · have : i ∈ t.allocs.elems := hi
    rw [show t.allocs.elems = [] from rfl] at this
    exact absurd this (by simp)
  · rw [e1, e2]; exact fun i f hf => absurd hf (by simp)
  · rw [e1, e2]; exact fun i f hf => absurd hf (by simp)
  · rw [e3]; exact fun i f hf => absurd hf (by simp)
  · rw [e4]; exact fun i f hf => absurd hf (by simp)
  · rw [e3]; rintro ⟨a, b, hab, _⟩; exact absurd hab (by simp)
  · rw [e4]; rintro ⟨a, b, hab, _⟩; exact absurd hab (by simp)

/-- `pair` with a link group 30 that holds only `B.h`, and the line `A.f <-> B.30` in addition to `A.f <-> B.h`. -/
def doubled : Schema :=
  { variants := [(1, ⟨[lnk 10 .direct, lnk 11 .set], []⟩), (2, ⟨[⟨20, .link .set, [[30]]⟩, lnk 21 .direct], []⟩)],
    bidirs := [⟨1, 10, 2, 20⟩, ⟨1, 10, 2, 30⟩] }

theorem doubled_named : WellNamed doubled := wellNamed_sound (by decide)
theorem doubled_noVec : NoVec doubled := noVec_sound doubled_named (by decide)
theorem doubled_one : OneOpposite doubled := oneOpposite_sound doubled_named (by decide)

/-- C24 fails: the field `A.f` has one opposite on B, no direct field is involved, and the commit panics. -/
theorem C24_fails : OneOpposite doubled ∧ ∃ g t, Meets doubled true AnyCall g t ∧ g.commit doubled true t = .error .multiChoice ∧
    (g.iter doubled).length = 0 ∧ (t.inc.entries doubled) = [(1, pA 2 []), (2, pB [] 0)] :=
  ⟨doubled_one, _, _, meets_of (reaches
    [.call (.newContext 0 77), .call (.newGraph 0 0), .call (.newTrans 0 0), .call (.op 0 (.insert (pA 2 []))), .call (.op 0 (.insert (pB [] 0)))]
    (by decide +kernel)) 0 0 (by decide +kernel), rfl, by decide +kernel⟩

/-- `A { x: NodeIndex }` (1: 10), `B { y: Set, z: Set }` (2: 20, 21), both in the link group 30, with `A.x <-> B.30`. -/
def several : Schema :=
  { variants := [(1, ⟨[lnk 10 .direct], []⟩), (2, ⟨[⟨20, .link .set, [[30]]⟩, ⟨21, .link .set, [[30]]⟩], []⟩)],
    bidirs := [⟨1, 10, 2, 30⟩] }

/-- Nodes of `several`. -/
def sA (x : NodeIndex) : Node := ⟨1, [.direct x], []⟩
def sB (y z : List NodeIndex) : Node := ⟨2, [.set (setOf y), .set (setOf z)], []⟩

theorem several_named : WellNamed several := wellNamed_sound (by decide)
theorem several_noVec : NoVec several := noVec_sound several_named (by decide)

/-- 1 and 2 are linked with each other, 1 in both fields of 2. -/
def several5 : List Step :=
  [.call (.newContext 0 77), .call (.newGraph 0 0), .call (.newTrans 0 0), .call (.op 0 (.insert (sA 2))), .call (.op 0 (.insert (sB [1] [1]))),
   .call (.commit 0 0), .call (.newTrans 1 0)]

/-- C25: the commit returns and every link has an opposite. -/
example : ∃ g, Reachable several true SoundKeep g ∧ g.get? 1 = some (sA 2) ∧ g.get? 2 = some (sB [1] [1]) ∧ Opposite several ⟨1, 0⟩ ⟨2, 0⟩ ∧
    Opposite several ⟨1, 0⟩ ⟨2, 1⟩ :=
  ⟨_, reachable_of (reaches_soundKeep several_named several5 (by decide +kernel)) 0 (by decide +kernel), by decide +kernel,
    by decide +kernel, (Schema.mem_mirrorsOf several_named).1 (by decide), (Schema.mem_mirrorsOf several_named).1 (by decide)⟩

/-- C25 fails: the transaction takes 1 out of one of the two fields of 2.  Then 2 still links to 1 in the other field, and 1 does not link
to 2 any more. -/
theorem C25_fails : ∃ g, Reachable several true SoundKeep g ∧ g.get? 1 = some (sA 0) ∧ g.get? 2 = some (sB [] [1]) ∧ ¬ Answered several g.get? := by
  refine ⟨_, reachable_of (reaches_soundKeep several_named (several5 ++ [.edit 1 2 (sB [] [1]), .call (.commit 0 1)]) (by decide +kernel)) 0
    (by decide +kernel), by decide +kernel, by decide +kernel, fun ha => ?_⟩
  obtain ⟨m', h1, h2, h3⟩ := ha 2 ⟨2, 1⟩ 1 (sA 0)
    (View.link_iff.2 ⟨0, sB [] [1], by decide +kernel, rfl, .set (setOf [1]), rfl, rfl, by decide⟩) (by decide +kernel)
    ⟨⟨1, 0⟩, ((Schema.mem_mirrorsOf several_named).1 (by decide)), rfl⟩
  obtain ⟨k, n, hn, hh⟩ := View.link_iff.1 h3
  obtain rfl : n = sA 0 := by
    have e := hn
    rw [show Graph.get? _ 1 = some (sA 0) from by decide +kernel, Option.some.injEq] at e
    exact e.symm
  have := Node.mem_iterSources.2 hh
  rw [show (sA 0).iterSources = [] from by decide +kernel] at this
  exact absurd this (by simp)

end Demo
end TTGraph
