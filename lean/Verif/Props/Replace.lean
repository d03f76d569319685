import Verif.Lemmas.Replace
import Verif.Props.Bidir
import Verif.Props.Valid
import Verif.Spec.Replace

/-!
# Putting a node in the place of another: C72
-/

set_option autoImplicit false

namespace TTGraph
open Spec
variable [SetImpl] {S : Schema} {dbg : Bool} {R : World → Call → Prop}

/-- A transaction that redirects all links of `a` to `b`, removes `a` and inserts some nodes (`b` may be one of them) puts `b` in the place
of `a`: afterwards there is no node `a`, every other node is still there with its data, and where it had a link to `a` it has one to `b` — up to
the fields that `bidirectional!` lines mention.  In particular nothing is left without a target. -/
theorem C72_replace (hw : WellNamed S) {g g' : Graph} {t : Trans} (h : Meets S dbg R g t) (hc : g.commit S dbg t = .ok g') {a b : NodeIndex}
    (hr : Replacing t.pending a b) (hab : b ≠ a) (hb : b ≠ emptyIdx) {v0 : View} (h0 : Inserted t.pending.new g.get? v0) :
    ∃ v6, Replaced a b v0 v6 ∧ SameUpToBidir S v6 g'.get? := by
  obtain ⟨v6, out⟩ := h.commit hw hc
  exact ⟨v6, performed_replaced out.performed hr hab hb h0, out.same⟩

/-- With nothing inserted, this says everything about the fields of `bidirectional!` lines too: all nodes but `b` are as in `C72_replace`, and
`b` gets, besides what it had, the links that answer those it has taken over. -/
theorem C72_opposites (hw : WellNamed S) {g g' : Graph} {t : Trans} (hst : SteadyBidir S t g.get?) (h : Meets S dbg R g t) (hc : g.commit S dbg t = .ok g')
    {a b : NodeIndex} (hr : Replacing t.pending a b) (hnew : ∀ i, t.pending.new i = none) (hab : b ≠ a) (hb : b ≠ emptyIdx) :
    g'.get? a = none ∧ ∀ x, x ≠ a → (g'.get? x).map Node.shape = (g.get? x).map Node.shape ∧
      ∀ s y, View.Holds g'.get? x s y ↔ (y ≠ a ∧ View.Holds g.get? x s y) ∨ (y = b ∧ View.Holds g.get? x s a) ∨
        (x = b ∧ s.slot = 0 ∧ S.kind? s.mirror ≠ some .vec ∧ Inherits S g.get? a b s.mirror y) := by
  obtain ⟨v6, out⟩ := h.commit hw hc
  have h0 : Inserted t.pending.new g.get? g.get? := ⟨fun _ _ => rfl, fun x n hn => absurd (hnew x ▸ hn) (by simp)⟩
  obtain ⟨q1, q2⟩ := performed_replaced out.performed hr hab hb h0
  obtain ⟨c1, c2⟩ := out.completion hst
  have hlink : ∀ x m y, x ≠ a → (v6.Link x m y ↔ (y ≠ a ∧ View.Link g.get? x m y) ∨ (y = b ∧ View.Link g.get? x m a)) := by
    intro x m y hx
    have key : ∀ y, View.Link g.get? x m y ↔ ∃ k, View.Holds g.get? x ⟨m.disc, m.pos, k⟩ y := fun y =>
      ⟨fun ⟨n, hn, k, hk⟩ => ⟨k, n, hn, hk⟩, fun ⟨k, n, hn, hk⟩ => ⟨n, hn, k, hk⟩⟩
    have key6 : v6.Link x m y ↔ ∃ k, v6.Holds x ⟨m.disc, m.pos, k⟩ y :=
      ⟨fun ⟨n, hn, k, hk⟩ => ⟨k, n, hn, hk⟩, fun ⟨k, n, hn, hk⟩ => ⟨n, hn, k, hk⟩⟩
    rw [key, key, key6]
    constructor
    · rintro ⟨k, hk⟩
      rcases ((q2 x hx).2 _ _).1 hk with ⟨h1, h2⟩ | ⟨h1, h2⟩
      · exact Or.inl ⟨h1, k, h2⟩
      · exact Or.inr ⟨h1, k, h2⟩
    · rintro (⟨h1, k, h2⟩ | ⟨h1, k, h2⟩)
      · exact ⟨k, ((q2 x hx).2 _ _).2 (Or.inl ⟨h1, h2⟩)⟩
      · exact ⟨k, ((q2 x hx).2 _ _).2 (Or.inr ⟨h1, h2⟩)⟩
  refine ⟨?_, fun x hx => ⟨(c1 x).trans (q2 x hx).1, fun s y => ?_⟩⟩
  · have := c1 a
    rw [q1] at this
    simpa using this
  rw [c2 x s y]
  have norem : ¬ ∃ m d, RemovedLink g.get? v6 y m x ∧ Ends v6 y x d ∧ Opposite S m s.mirror ∧ s.disc = d := by
    rintro ⟨m, d, ⟨_, h1, h2⟩, ⟨h3, _⟩, _⟩
    have hy : y ≠ a := fun e => h3 (e ▸ q1)
    exact h2 ((hlink y m x hy).2 (Or.inl ⟨hx, h1⟩))
  constructor
  · rintro (⟨h1, _⟩ | ⟨h1, hkv, m, d, ⟨h2, h3, h4⟩, ⟨h5, n, h6, h7⟩, h8⟩)
    · rcases ((q2 x hx).2 s y).1 h1 with h1 | h1
      · exact Or.inl h1
      · exact Or.inr (Or.inl h1)
    · have hy : y ≠ a := fun e => h5 (e ▸ q1)
      rcases (hlink y m x hy).1 h3 with ⟨_, h9⟩ | ⟨h9, h10⟩
      · exact absurd h9 h4
      · refine Or.inr (Or.inr ⟨h9, h1, hkv, hy, m, ?_⟩)
        have := (q2 x hx).1
        rw [h6] at this
        cases hg : g.get? x with
        | none => rw [hg] at this; exact absurd this (by simp)
        | some n0 =>
          rw [hg] at this
          simp only [Option.map_some, Option.some.injEq] at this
          refine ⟨n0, h10, h9 ▸ h4, h9 ▸ hg, ?_⟩
          rw [show n0.disc = n.disc from congrArg Prod.fst this.symm, h7]
          exact h8
  · rintro (h1 | h1 | ⟨rfl, h1, hkv, hy, m, n, h2, h3, h4, h5⟩)
    · exact Or.inl ⟨((q2 x hx).2 s y).2 (Or.inl h1), norem⟩
    · exact Or.inl ⟨((q2 x hx).2 s y).2 (Or.inr h1), norem⟩
    · refine Or.inr ⟨h1, hkv, m, n.disc, ⟨hb, (hlink y m x hy).2 (Or.inr ⟨rfl, h2⟩), h3⟩, ⟨?_, ?_⟩, h5⟩
      · obtain ⟨ny, hny, _⟩ := h2
        have := (q2 y hy).1
        rw [hny] at this
        intro e
        rw [e] at this
        exact absurd this (by simp)
      · have := (q2 x hx).1
        rw [h4] at this
        cases hg : v6 x with
        | none => rw [hg] at this; exact absurd this (by simp)
        | some n6 =>
          rw [hg] at this
          simp only [Option.map_some, Option.some.injEq] at this
          exact ⟨n6, rfl, congrArg Prod.fst this⟩

/-- And such a commit returns, if `a` is a node, the annotations permit `b` wherever `a` was linked, and no direct field of `b` that has to
answer a link of `a`'s holds another node or has to answer a second link, and every `Vec` of `b`'s that has to answer one already does. -/
theorem C72_returns (hw : WellNamed S) (hd : DeclaredOnce S) (ho : OneOpposite S) {g : Graph} {t : Trans} (hst : SteadyBidir S t g.get?)
    (h : Meets S dbg R g t) {a b : NodeIndex} (hr : Replacing t.pending a b) (hnew : ∀ i, t.pending.new i = none) (hfill : ∀ i, ¬ t.pending.unfilled i)
    (hab : b ≠ a) (hb : b ≠ emptyIdx) (hva : SteadyAnnos S t g.get?) (ha : g.get? a ≠ none)
    (htypes : ∀ x m n, View.Link g.get? x m a → g.get? b = some n → Permitted S m n.disc)
    (hroom : ∀ m' w, S.kind? m' = some .direct → Inherits S g.get? a b m' w →
      (∀ i, View.Link g.get? b m' i → i = w) ∧ ∀ w', Inherits S g.get? a b m' w' → w' = w)
    (hvecs : ∀ m' w, S.kind? m' = some .vec → Inherits S g.get? a b m' w → View.Link g.get? b m' w) :
    ∃ g', g.commit S dbg t = .ok g' := by
  have h0 : Inserted t.pending.new g.get? g.get? := ⟨fun _ _ => rfl, fun x n hn => absurd (hnew x ▸ hn) (by simp)⟩
  refine C13_commit_succeeds hw hst h (fun _ => hfill) ?_ (fun v6 hp => ?_)
  · refine ⟨?_, fun i hi => Or.inl ((hr.removed i).1 hi ▸ ha), ?_, ?_, ?_, ?_, ?_⟩
    · rw [hr.muts, hr.upds]; intro i f hf; exact absurd hf (by simp)
    · rw [hr.muts, hr.upds]; intro i f hf; exact absurd hf (by simp)
    · rw [hr.redir]; intro i f hf; exact absurd hf (by simp)
    · rw [hr.redirAll]
      intro i f hf
      simp only [List.mem_singleton, Prod.mk.injEq] at hf
      exact Or.inl (hf.1 ▸ ha)
    · rw [hr.redir]; rintro ⟨i, j, hf, _⟩; exact absurd hf (by simp)
    · rw [hr.redirAll]
      rintro ⟨i, j, hf, hl⟩
      simp only [List.mem_singleton, Prod.mk.injEq] at hf
      obtain ⟨rfl, rfl⟩ := hf
      cases hl with
      | here => exact hab rfl
      | step h2 _ =>
        simp only [List.mem_singleton, Prod.mk.injEq] at h2
        exact hab h2.1
  · obtain ⟨q1, q2⟩ := performed_replaced hp hr hab hb h0
    have hlink : ∀ x m y, v6.Link x m y → x ≠ a ∧ ((y ≠ a ∧ View.Link g.get? x m y) ∨ (y = b ∧ View.Link g.get? x m a)) := by
      rintro x m y ⟨n, hn, k, hk⟩
      have hx : x ≠ a := fun e => by rw [e, q1] at hn; exact absurd hn (by simp)
      refine ⟨hx, ?_⟩
      rcases ((q2 x hx).2 ⟨m.disc, m.pos, k⟩ y).1 ⟨n, hn, hk⟩ with ⟨h1, n', h2, h3⟩ | ⟨h1, n', h2, h3⟩
      · exact Or.inl ⟨h1, n', h2, k, h3⟩
      · exact Or.inr ⟨h1, n', h2, k, h3⟩
    have hdisc : ∀ x n, v6 x = some n → ∃ n0, g.get? x = some n0 ∧ n.disc = n0.disc := by
      intro x n hn
      have hx : x ≠ a := fun e => by rw [e, q1] at hn; exact absurd hn (by simp)
      have := (q2 x hx).1
      rw [hn] at this
      cases hg : g.get? x with
      | none => rw [hg] at this; exact absurd this (by simp)
      | some n0 =>
        rw [hg] at this
        simp only [Option.map_some, Option.some.injEq] at this
        exact ⟨n0, rfl, congrArg Prod.fst this⟩
    have hdem : ∀ y m' x, Demanded S g.get? v6 y m' x → y = b ∧ Inherits S g.get? a b m' x := by
      rintro y m' x ⟨m, d, ⟨_, h1, h2⟩, ⟨_, n, h3, h4⟩, h5⟩
      obtain ⟨h6, h7 | ⟨h7, h8⟩⟩ := hlink x m y h1
      · exact absurd h7.2 h2
      · obtain ⟨n0, k1, k2⟩ := hdisc y n h3
        subst h7
        exact ⟨rfl, h6, m, n0, h8, h2, k1, by rw [← k2, h4]; exact h5⟩
    have hkept : ∀ x m y, x ≠ a → y ≠ a → View.Link g.get? x m y → v6.Link x m y := by
      rintro x m y hx hy ⟨n, hn, k, hk⟩
      obtain ⟨n', h1, h2⟩ := ((q2 x hx).2 ⟨m.disc, m.pos, k⟩ y).2 (Or.inl ⟨hy, n, hn, hk⟩)
      exact ⟨n', h1, k, h2⟩
    have hnot : ∀ x y d, Ends v6 x y d → x ≠ a ∧ y ≠ a := by
      rintro x y d ⟨h1, n, h2, _⟩
      refine ⟨fun e => h1 (e ▸ q1), fun e => ?_⟩
      rw [e, q1] at h2
      exact absurd h2 (by simp)
    refine ⟨?_, not_undecided hw ho hd _ _, ⟨?_, ?_⟩, fun x m y n hch hn => ?_⟩
    · rintro ⟨y, m', x, i, hk, h1, h2, h3⟩
      obtain ⟨hy, hi⟩ := hdem y m' x h1
      obtain ⟨r1, r2⟩ := hroom m' x hk hi
      rcases h3 with ⟨h3, _⟩ | h3
      · rw [hy] at h3
        rcases (hlink b m' i h3).2 with ⟨_, h4⟩ | ⟨_, h4⟩
        · exact h2 (r1 i h4)
        · exact hi.1 (r1 a h4).symm
      · exact h2 (r2 i (hdem y m' i h3).2)
    · rintro ⟨x, m, y, d, m', ⟨_, h1, h2⟩, he, _⟩
      obtain ⟨hx, hy⟩ := hnot x y d he
      exact h2 (hkept x m y hx hy h1)
    · rintro ⟨x, m, y, d, h1, he, ⟨m', ho1, hd1⟩, hall⟩
      obtain ⟨hk, hno⟩ := hall m' ho1 hd1
      obtain ⟨hx, hy⟩ := hnot x y d he
      obtain ⟨rfl, hi⟩ := hdem y m' x ⟨m, d, h1, he, ho1, hd1, fun m2 h2 h3 => ho _ _ _ h2 ho1 (h3.trans hd1.symm)⟩
      exact hno (hkept y m' x hab hx (hvecs m' x hk hi))
    · rcases hva x m y with hst | hacc
      · obtain ⟨h1, h2⟩ := hch
        rcases (hlink x m y h1).2 with h3 | ⟨h3, h4⟩
        · exact absurd h3.2 (h2 hst)
        · obtain ⟨n0, k1, k2⟩ := hdisc y n hn
          subst h3
          rw [k2]
          exact htypes x m n0 h4 k1
      · exact Schema.permitted_of_accept hw (hacc n.disc)

end TTGraph

namespace TTGraph
namespace Demo
open Spec

/-- C72: 4 takes the place of 2, to which 1 has a link; 4 gets a link to 1. -/
example : let w := run pair true World.init (pair4 ++ [.call (.op 1 (.redirectAllLinks 2 4)), .call (.op 1 (.remove 2))])
    let g := graphAt w 0
    let t := transAt w 1
    Meets pair true SoundKeep g t ∧ Replacing t.pending 2 4 ∧ (∀ i, t.pending.new i = none) ∧ (∀ i, ¬ t.pending.unfilled i) ∧
    SteadyAnnos pair t g.get? ∧ g.get? 2 ≠ none ∧ (∀ x m n, View.Link g.get? x m 2 → g.get? 4 = some n → Permitted pair m n.disc) ∧
    (∀ m' w, pair.kind? m' = some .direct → Inherits pair g.get? 2 4 m' w →
      (∀ i, View.Link g.get? 4 m' i → i = w) ∧ ∀ w', Inherits pair g.get? 2 4 m' w' → w' = w) ∧
    g.get? 1 = some (pA 2 [4]) ∧ g.get? 4 = some (pB [3] 1) ∧
    ∃ g', g.commit pair true t = .ok g' ∧ g'.get? 1 = some (pA 4 [4]) ∧ g'.get? 2 = none ∧ g'.get? 4 = some (pB [3, 1] 1) := by
  intro w g t
  have hm : Meets pair true SoundKeep g t := meets_of (reaches_soundKeep pair_named
    (pair4 ++ [.call (.op 1 (.redirectAllLinks 2 4)), .call (.op 1 (.remove 2))]) (by decide +kernel)) 0 1 (by decide +kernel)
  have hinc : ∀ i, t.pending.new i = none := by
    intro i
    cases hn : t.pending.new i with
    | none => rfl
    | some n =>
      have := (Arena.mem_entries (i := i) (hm.ready pair_named).good.inv).2 hn
      rw [show t.inc.entries pair = [] from by decide +kernel] at this
      exact absurd this (by simp)
  have hk : ∀ x m, View.Link g.get? x m 2 → m = ⟨1, 0⟩ := by
    rintro x m ⟨n, hn, slot, hl⟩
    have h1 : ∀ e ∈ g.nodes.entries pair, ∀ q ∈ e.2.iterSources, q.1 = 2 → q.2.mirror = ⟨1, 0⟩ := by decide +kernel
    exact h1 _ ((Arena.mem_entries (hm.inv pair_named).arena).2 hn) _ (Node.mem_iterSources.2 hl) rfl
  have hacc : ∀ m d, AllAccept pair m d := fun m d a ha => absurd ha (by simp [pair])
  refine ⟨hm, ⟨rfl, fun i => ?_, rfl, rfl, rfl⟩, hinc, fun i hi => ?_, fun x m y => Or.inr (hacc m), by decide +kernel,
    fun x m n _ _ => Schema.permitted_of_accept pair_named (hacc _ _), fun m' w hd ⟨_, m, n, h1, _, _, h2, _⟩ => ?_, by decide +kernel, by decide +kernel, _,
    got_ok (d := Graph.new 0) (by decide +kernel), by decide +kernel⟩
  · show i ∈ t.dec.elems ↔ i = 2
    rw [show t.dec.elems = [2] from by decide +kernel]
    exact List.mem_singleton
  · have hi' : i ∈ t.allocs.elems := hi
    rw [show t.allocs.elems = [] from by decide +kernel] at hi'
    exact absurd hi' (by simp)
  · rw [hk w m h1] at h2
    have := (Schema.mem_mirrorsOf pair_named).2 h2
    rw [show pair.mirrorsOf ⟨1, 0⟩ = [⟨2, 0⟩] from by decide +kernel, List.mem_singleton] at this
    rw [this] at hd
    exact absurd hd (by decide +kernel)

/-- C72: a new node, 5, takes the place of 1. -/
example : let w := run pair true World.init (pair4 ++ [.call (.op 1 (.insert (pA 0 []))), .call (.op 1 (.redirectAllLinks 1 5)), .call (.op 1 (.remove 1))])
    let g := graphAt w 0
    let t := transAt w 1
    Meets pair true SoundKeep g t ∧ Replacing t.pending 1 5 ∧ t.pending.new 5 = some (pA 0 []) ∧ (∃ v0, Inserted t.pending.new g.get? v0) ∧
    ∃ g', g.commit pair true t = .ok g' ∧ g'.get? 1 = none ∧ g'.get? 2 = some (pB [5] 0) ∧ g'.get? 4 = some (pB [3] 5) ∧
      g'.get? 5 = some (pA 2 [4]) := by
  intro w g t
  have hm : Meets pair true SoundKeep g t := meets_of (reaches_soundKeep pair_named (pair4 ++ [.call (.op 1 (.insert (pA 0 []))),
    .call (.op 1 (.redirectAllLinks 1 5)), .call (.op 1 (.remove 1))]) (by decide +kernel)) 0 1 (by decide +kernel)
  refine ⟨hm, ⟨rfl, fun i => ?_, rfl, rfl, rfl⟩, by decide +kernel, ⟨fun x => (t.pending.new x).or (g.get? x), fun x hx => ?_, fun x n hn => ?_⟩, _,
    got_ok (d := Graph.new 0) (by decide +kernel), by decide +kernel⟩
  · show i ∈ t.dec.elems ↔ i = 1
    rw [show t.dec.elems = [1] from by decide +kernel]
    exact List.mem_singleton
  · show (t.pending.new x).or (g.get? x) = g.get? x
    rw [hx]; rfl
  · show g.get? x = none ∧ (t.pending.new x).or (g.get? x) = some n
    have := (Arena.mem_entries (i := x) (hm.ready pair_named).good.inv).2 hn
    rw [show t.inc.entries pair = [(5, pA 0 [])] from by decide +kernel, List.mem_singleton, Prod.mk.injEq] at this
    exact ⟨this.1 ▸ (by decide +kernel : g.get? 5 = none), by rw [hn]; rfl⟩

end Demo
end TTGraph
