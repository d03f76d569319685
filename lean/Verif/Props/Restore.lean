import Verif.Spec.Restore
import Verif.Lemmas.Insert
import Verif.Props.Valid
import Verif.Props.Bidir
import Verif.Props.Types
import Verif.Props.Undo
import Verif.Props.Switch
import Verif.Lemmas.Steady

/-!
# Going back to an earlier state: C79
-/

set_option autoImplicit false

namespace TTGraph
open Spec
variable {S : Schema}

/-- Closures that overwrite nodes with their value in `v`. -/
theorem applied_overwrite {v : View} {l : List (NodeIndex × Closure)} {v1 v2 : View} (h : Applied l v1 v2)
    (hl : ∀ i f, (i, f) ∈ l → ∃ n, v i = some n ∧ ∀ a, a.disc = n.disc → f a = .ok n)
    (hv : ∀ x n n', v x = some n → v1 x = some n' → n'.disc = n.disc) (x : NodeIndex) :
    ((∃ f, (x, f) ∈ l) → v2 x = v x) ∧ ((∀ f, (x, f) ∉ l) → v2 x = v1 x) := by
  induction h with
  | nil h => exact ⟨fun ⟨f, hf⟩ => absurd hf (by simp), fun _ => h x⟩
  | @cons i f l v1 v1' v2 n n' hi hf hset _ ih =>
    obtain ⟨m, hm, hall⟩ := hl i f List.mem_cons_self
    have hn' : n' = m := by
      have := (hall n (hv i m n hm hi)).symm.trans hf
      injection this with this
      exact this.symm
    subst hn'
    obtain ⟨h1, h2⟩ := ih (fun j f' hj => hl j f' (List.mem_cons_of_mem _ hj)) fun z a a' ha ha' => by
      rw [hset z] at ha'
      split at ha'
      · next e =>
        subst e
        rw [hm] at ha
        rw [← Option.some.inj ha, Option.some.inj ha']
      · exact hv z a a' ha ha'
    constructor
    · rintro ⟨f', hf'⟩
      by_cases hx : ∃ f'', (x, f'') ∈ l
      · exact h1 hx
      · have hx' : ∀ f'', (x, f'') ∉ l := fun f'' hh => hx ⟨f'', hh⟩
        rcases List.mem_cons.1 hf' with e | e
        · obtain ⟨rfl, _⟩ := Prod.mk.inj e
          rw [h2 hx', hset x, if_pos rfl, hm]
        · exact absurd e (hx' f')
    · intro hx
      have hne : ¬ i = x := by
        rintro rfl
        exact hx f List.mem_cons_self
      rw [h2 fun f'' hh => hx f'' (List.mem_cons_of_mem _ hh), hset x, if_neg hne]

/-- The operations lead to `v`. -/
theorem performed_restore {t : Trans} {v v' v6 : View} (hp : Performed t v' v6) (hr : Restores t.pending v v') (hI : Internal v) :
    View.Same v v6 := by
  obtain ⟨v1, v2, v3, v4, v5, a1, a2, a3, a4, a5, a6⟩ := hp
  rw [show t.redir = [] from hr.redir] at a1
  rw [show t.redirAll = [] from hr.redirAll] at a5
  have e2 : v2 = v1 := funext fun x => a2.1 x (hr.new x)
  subst e2
  have s1 := redirected_nil a1
  have s5 := redirected_nil a5
  have hdec : ∀ i, i ∈ t.dec.elems ↔ v' i ≠ none ∧ v i = none := hr.removed
  have d1 : ∀ x n n', v x = some n → v2 x = some n' → n'.disc = n.disc := by
    intro x n n' hn hn'
    obtain ⟨n0, h0, e0⟩ := hr.variants x n hn
    obtain ⟨n1, h1, e1⟩ := s1.some h0
    rw [h1] at hn'
    rw [← Option.some.inj hn', e1.1, e0]
  have o3 := applied_overwrite a3 (fun i f hf => hr.overwrite i f (List.mem_append.2 (Or.inl hf))) d1
  have d3 : ∀ x n n', v x = some n → v3 x = some n' → n'.disc = n.disc := by
    intro x n n' hn hn'
    by_cases hm : ∃ f, (x, f) ∈ t.muts
    · rw [(o3 x).1 hm, hn] at hn'
      rw [Option.some.inj hn']
    · rw [(o3 x).2 fun f hf => hm ⟨f, hf⟩] at hn'
      exact d1 x n n' hn hn'
  have o4 := applied_overwrite a4 (fun i f hf => hr.overwrite i f (List.mem_append.2 (Or.inr hf))) d3
  have hold : ∀ x n, v x = some n → ∃ n', v4 x = some n' ∧ n.Same n' := by
    intro x n hn
    by_cases hu : ∃ f, (x, f) ∈ t.upds
    · exact ⟨n, ((o4 x).1 hu).trans hn, Node.Same.refl n⟩
    · rw [(o4 x).2 fun f hf => hu ⟨f, hf⟩]
      by_cases hm : ∃ f, (x, f) ∈ t.muts
      · exact ⟨n, ((o3 x).1 hm).trans hn, Node.Same.refl n⟩
      · rw [(o3 x).2 fun f hf => hm ⟨f, hf⟩]
        obtain ⟨n', hn', _⟩ := hr.variants x n hn
        rcases hr.differ x n n' hn hn' with hs | ⟨f, hf⟩
        · obtain ⟨n1, h1, h2⟩ := s1.some hn'
          exact ⟨n1, h1, hs.trans h2⟩
        · rcases List.mem_append.1 hf with hf | hf
          · exact absurd ⟨f, hf⟩ hm
          · exact absurd ⟨f, hf⟩ hu
  refine View.same_of (fun x hx => ?_) (fun x n hn => ?_)
  · by_cases hv : v' x = none
    · refine (removed_none a6 x).2 (Or.inl ((s5.none_iff x).2 ?_))
      have hno : ∀ f, (x, f) ∉ t.muts ++ t.upds := fun f hf => by
        obtain ⟨n, hn, _⟩ := hr.overwrite x f hf
        rw [hx] at hn
        exact absurd hn (by simp)
      rw [(o4 x).2 fun f hf => hno f (List.mem_append.2 (Or.inr hf)), (o3 x).2 fun f hf => hno f (List.mem_append.2 (Or.inl hf))]
      exact (s1.none_iff x).2 hv
    · exact (removed_none a6 x).2 (Or.inr ((hdec x).2 ⟨hv, hx⟩))
  · obtain ⟨n4, h4, e4⟩ := hold x n hn
    obtain ⟨n5, h5, e5⟩ := s5.some h4
    have hx : x ∉ t.dec.elems := fun h => by
      rw [((hdec x).1 h).2] at hn
      exact absurd hn (by simp)
    obtain ⟨n6, h6, e6⟩ := removed_node a6 h5 hx
    refine ⟨n6, h6, (e4.trans e5).trans ?_⟩
    have hs45 := e4.trans e5
    refine Node.same_iff.2 ⟨e6.shape, fun s y => ?_⟩
    rw [Node.Renamed.holds e6]
    have key : ∀ u, n5.Holds s u → (if u ∈ t.dec.elems then emptyIdx else u) = u := by
      intro u hu
      by_cases hd : u ∈ t.dec.elems
      · have hh : v.Holds x s u := ⟨n, hn, ((Node.same_iff.1 hs45).2 s u).1 hu⟩
        rcases hI x s u hh with e | e
        · rw [if_pos hd, e]
        · exact absurd ((hdec u).1 hd).2 e
      · rw [if_neg hd]
    constructor
    · rintro ⟨u, hu, e, _⟩
      rw [key u hu] at e
      exact e ▸ hu
    · intro hy
      refine ⟨y, hy, key y hy, ?_⟩
      by_cases e : y = emptyIdx
      · exact Or.inr e
      · exact Or.inl e

/-- A link of a view without the opposite `m'` cannot be one of a symmetric view. -/
theorem restore_opposite {v v6 : View} (hs : View.Same v v6) (hsym : Symmetric S v) {x : NodeIndex} {m : Mirror} {y : NodeIndex} {d : Ident} {m' : Mirror}
    (hl : v6.Link x m y) (he : Ends v6 x y d) (ho : Opposite S m m') (hd : m'.disc = d) : v6.Link y m' x := by
  obtain ⟨_, n, hn, hnd⟩ := (hs.ends x y d).1 he
  exact (hs.link y m' x).2 (hsym x m y n m' ((hs.link x m y).1 hl) hn ho (hd.trans hnd.symm))

/-- Bidirectional completion has nothing to do. -/
theorem restore_completion {p : Pending} {v v' v6 v7 : View} (hr : Restores p v v') (hs : View.Same v v6) (hsym : Symmetric S v)
    (hwt : ∀ x n, v x = some n → S.WT n) (hc : Completion S v' v6 v7) : View.Same v v7 := by
  refine hs.trans (View.same_iff.2 ⟨hc.1, fun z t w => ?_⟩)
  rw [hc.2]
  constructor
  · rintro (⟨h1, _⟩ | ⟨h0, hk, m, d, ha, he, ho, hd, _⟩)
    · exact h1
    · have hl := restore_opposite hs hsym ha.2.1 he ho hd
      obtain ⟨n, hn, k, hh⟩ := (hs.link z t.mirror w).1 hl
      have hk0 : k = 0 := View.slot_zero (s := ⟨t.disc, t.pos, k⟩) hwt ⟨n, hn, hh⟩ hk
      subst hk0
      refine ((View.same_iff.1 hs).2 z t w).2 ⟨n, hn, ?_⟩
      rw [show t = ⟨t.mirror.disc, t.mirror.pos, 0⟩ from by rw [← h0]; rfl]
      exact hh
  · intro h1
    refine Or.inl ⟨h1, ?_⟩
    rintro ⟨m, d, hrem, he, ho, hd⟩
    have hl : v6.Link z t.mirror w := View.link_iff.2 ⟨t.slot, h1⟩
    obtain ⟨nw, hnw⟩ := Option.ne_none_iff_exists'.1 he.1
    obtain ⟨n, hn, hsame⟩ := hs.symm.some hnw
    obtain ⟨n', hn', hdisc⟩ := hr.variants w n hn
    have hm : m.disc = n'.disc := by
      obtain ⟨n'', h2, k, h3⟩ := hrem.2.1
      obtain rfl : n' = n'' := Option.some.inj (hn'.symm.trans h2)
      exact h3.1
    refine hrem.2.2 (restore_opposite hs hsym hl ⟨?_, nw, hnw, rfl⟩ ho.symm ?_)
    · obtain ⟨_, nz, hnz, _⟩ := he
      rw [hnz]; simp
    · rw [hm, hdisc, hsame.1]

variable [SetImpl] {dbg : Bool} {R : World → Call → Prop}

/-- Let `v` be any state without dangling links in which bidirectional links are symmetric, over some of the nodes of the graph.  A transaction that
overwrites the nodes that differ and removes the nodes that `v` does not have leads exactly to `v`: bidirectional completion changes nothing. -/
theorem C79_state (hw : WellNamed S) {g' g'' : Graph} {u : Trans} {v : View} (hst : SteadyBidir S u g'.get?) (h : Meets S dbg R g' u)
    (hr : Restores u.pending v g'.get?) (hI : Internal v) (hsym : Symmetric S v) (hwt : ∀ x n, v x = some n → S.WT n)
    (hc : g'.commit S dbg u = .ok g'') : View.Same v g''.get? := by
  obtain ⟨v6, hp, hcomp⟩ := C03_order hw hst h hc
  exact restore_completion hr (performed_restore hp hr hI) hsym hwt hcomp

/-- Such a commit returns, if the links of `v` have the declared types, the closures do not panic on any node, and no `Vec` has to be
completed. -/
theorem C79_state_returns (hw : WellNamed S) (hd : DeclaredOnce S) (ho : OneOpposite S) {g' : Graph} {u : Trans} {v : View}
    (hst : SteadyBidir S u g'.get?) (h : Meets S dbg R g' u) (hr : Restores u.pending v g'.get?) (hfill : ∀ i, ¬ u.pending.unfilled i)
    (hcl : ∀ i f, (i, f) ∈ u.pending.muts ++ u.pending.upds → Harmless S (Mentioned g'.get? u.pending) f)
    (hI : Internal v) (hsym : Symmetric S v) (hwt : ∀ x n, v x = some n → S.WT n) (hty : WellTyped S v)
    (hvec : ¬ VecLeft S g'.get? v) :
    ∃ g'', g'.commit S dbg u = .ok g'' ∧ View.Same v g''.get? := by
  have hthere : ∀ x, v x ≠ none → g'.get? x ≠ none := by
    intro x hx
    obtain ⟨n, hn⟩ := Option.ne_none_iff_exists'.1 hx
    obtain ⟨n', hn', _⟩ := hr.variants x n hn
    rw [hn']; simp
  have hret : ∃ g'', g'.commit S dbg u = .ok g'' := by
    refine C13_commit_succeeds hw hst h (fun _ => hfill) ⟨?_, fun i hi => Or.inl ((hr.removed i).1 hi).1, ?_, ?_, ?_, ?_, ?_⟩ (fun v6 hp => ?_)
    · intro i f hf
      obtain ⟨n, hn, _⟩ := hr.overwrite i f hf
      exact Or.inl (hthere i (by rw [hn]; simp))
    · exact hcl
    · rw [hr.redir]; intro i f hf; exact absurd hf (by simp)
    · rw [hr.redirAll]; intro i f hf; exact absurd hf (by simp)
    · rw [hr.redir]; rintro ⟨i, j, hf, _⟩; exact absurd hf (by simp)
    · rw [hr.redirAll]; rintro ⟨i, j, hf, _⟩; exact absurd hf (by simp)
    · have hs := performed_restore hp hr hI
      have hdem : ∀ y m' x, Demanded S g'.get? v6 y m' x → v.Link y m' x := by
        rintro y m' x ⟨m, d, ha, he, hopp, hd, _⟩
        exact (hs.link y m' x).1 (restore_opposite hs hsym ha.2.1 he hopp hd)
      refine ⟨?_, not_undecided hw ho hd _ _, ⟨fun hv => hvec ((View.Same.vecLeft (.refl _) hs).1 hv), ?_⟩, fun x m y n hch hn => ?_⟩
      · rintro ⟨y, m', x, i, hk, h1, hne, h2⟩
        refine hne (Graph.direct_unique hwt hk ?_ (hdem y m' x h1))
        rcases h2 with h2 | h2
        · exact (hs.link y m' i).1 h2.1
        · exact hdem y m' i h2
      · rintro ⟨x, m, y, d, ha, he, ⟨m', h1, h2⟩, h3⟩
        exact (h3 m' h1 h2).2 (restore_opposite hs hsym ha.2.1 he h1 h2)
      · obtain ⟨n0, hn0, hsame⟩ := hs.symm.some hn
        have := hty x m y n0 ((hs.link x m y).1 hch.1) hn0
        rw [hsame.1] at this
        exact Schema.permitted_of_accept hw this
  obtain ⟨g'', hc⟩ := hret
  exact ⟨g'', hc, C79_state hw hst h hr hI hsym hwt hc⟩

/-- An earlier state of a graph can be restored.  `g` is a graph that the program has had at some time, in which closures keep variants and all
transactions are sound; `g'` is a graph in which the nodes of `g` still exist.  The transaction `u` overwrites them with their values in `g` and removes
all other nodes.  After its commit everything is as in `g`. -/
theorem C79_restore (hw : WellNamed S) (hone : OneOpposite S) (hsb : ∀ w c, R w c → SteadyBidirCalls S w c) (hK : ∀ w c, R w c → KeepVariants w c)
    (hR : ∀ w c, R w c → SoundCalls w c) {g g' g'' : Graph} {u : Trans} (hg : Reachable S dbg R g) (hst : SteadyBidir S u g'.get?)
    (h : Meets S dbg R g' u) (hr : Restores u.pending g.get? g'.get?) (hc : g'.commit S dbg u = .ok g'') : View.Same g.get? g''.get? :=
  C79_state hw hst h hr (C12_internal_partial hw hR hg)
    ((symmetric_closed hw hsb hone hK (fun w c h => (hR w c h).noCatch) (fun _ hg => C12_internal_partial hw hR hg)).reachable hg) (hg.inv hw).wt hc

end TTGraph

namespace TTGraph
namespace Demo
open Spec

/-- `pair4` (1 is linked with 2 and 4, 3 with 4); then 5 is inserted, linked with 4 (as 3 was before) and 2, and 1 loses its links; committed. -/
def later79 : List Step :=
  pair4 ++ [.edit 1 1 (pA 0 []), .edit 1 3 (pA 2 []), .call (.op 1 (.insert (pA 4 [2]))), .call (.commit 0 1), .call (.newTrans 2 0)]

/-- Then a transaction that writes the old values of 1, 2, 3 and 4 and removes 5. -/
def back79 : List Step :=
  later79 ++ [.edit 2 1 (pA 2 [4]), .swap 2 3 (pA 4 []), .edit 2 2 (pB [1] 0), .swap 2 4 (pB [3] 1), .call (.op 2 (.remove 5))]

/-- `Restores` by evaluation, for closures that write the nodes in `l`. -/
def restores (S : Schema) (g g' : Graph) (u : Trans) (l : List (NodeIndex × Node)) : Bool :=
  (g.nodes.entries S).all (fun e => match g'.get? e.1 with
    | some n' => decide (n'.disc = e.2.disc) && (decide (n' = e.2) || (l.map Prod.fst).contains e.1)
    | none => false) &&
  l.all (fun p => decide (g.get? p.1 = some p.2)) &&
  (g'.nodes.entries S).all (fun e => decide (g.get? e.1 ≠ none ∨ e.1 ∈ u.dec.elems)) &&
  u.dec.elems.all (fun i => decide (g'.get? i ≠ none ∧ g.get? i = none)) &&
  (u.inc.entries S).isEmpty && decide (u.redir = []) && decide (u.redirAll = [])

theorem restores_sound {S : Schema} {e0 e0' : Prop} {g g' : Graph} {u : Trans} (hg : g.Inv S e0) (hg' : g'.Inv S e0') (hu : u.inc.Inv S) {l : List (NodeIndex × Node)}
    {F : Node → Closure} (hF : ∀ n a, a.disc = n.disc → F n a = .ok n) (hl : u.pending.muts ++ u.pending.upds = l.map fun p => (p.1, F p.2))
    (h : restores S g g' u l = true) : Restores u.pending g.get? g'.get? := by
  simp only [restores, Bool.and_eq_true, List.all_eq_true, decide_eq_true_eq, List.isEmpty_iff] at h
  obtain ⟨⟨⟨⟨⟨⟨h1, h2⟩, h3⟩, h4⟩, h5⟩, h6⟩, h7⟩ := h
  refine ⟨fun x n hn => ?_, fun i f hf => ?_, fun x n n' hn hn' => ?_, fun i => ⟨fun hi => h4 i hi, fun ⟨hi, hi'⟩ => ?_⟩, fun i => ?_, h6, h7⟩
  · have := h1 _ ((Arena.mem_entries (i := x) hg.arena).2 hn)
    split at this
    · next n' hn' =>
      rw [Bool.and_eq_true, decide_eq_true_eq] at this
      exact ⟨n', hn', this.1⟩
    · exact absurd this (by simp)
  · rw [hl] at hf
    obtain ⟨p, hp, e⟩ := List.mem_map.1 hf
    obtain ⟨rfl, rfl⟩ := Prod.mk.inj e
    exact ⟨p.2, h2 p hp, hF p.2⟩
  · have := h1 _ ((Arena.mem_entries (i := x) hg.arena).2 hn)
    rw [show g'.get? (x, n).1 = some n' from hn'] at this
    simp only [Bool.and_eq_true, Bool.or_eq_true, decide_eq_true_eq, List.contains_eq_mem] at this
    rcases this.2 with e | e
    · exact Or.inl (e ▸ Node.Same.refl _)
    · obtain ⟨p, hp, e⟩ := List.mem_map.1 e
      exact Or.inr ⟨F p.2, by rw [hl]; exact List.mem_map.2 ⟨p, hp, by rw [e]⟩⟩
  · obtain ⟨n, hn⟩ := Option.ne_none_iff_exists'.1 hi
    exact (h3 _ ((Arena.mem_entries (i := i) hg'.arena).2 hn)).resolve_left (fun h => h hi')
  · by_contra hi
    obtain ⟨n, hn⟩ := Option.ne_none_iff_exists'.1 hi
    have := (Arena.mem_entries (i := i) hu).2 hn
    rw [h5] at this
    exact absurd this (by simp)

/-- C79: all hypotheses hold for `later79` and `back79`, where every node of the old state has been changed in between. -/
example : let g := graphAt (run pair true World.init pair4) 0
    let g' := graphAt (run pair true World.init back79) 0
    let u := transAt (run pair true World.init back79) 2
    (∀ i ∈ ([1, 2, 3, 4] : List NodeIndex), g.get? i ≠ g'.get? i) ∧ g'.get? 5 = some (pA 4 [2]) ∧
    ∃ g'', g'.commit pair true u = .ok g'' ∧ View.Same g.get? g''.get? := by
  intro g g' u
  have hm : Meets pair true SoundKeep g' u := meets_of (reaches_soundKeep pair_named back79 (by decide +kernel)) 0 2 (by decide +kernel)
  have hr : Restores u.pending g.get? g'.get? :=
    restores_sound (pair4_reachable.inv pair_named) (hm.inv pair_named) (hm.ready pair_named).good.inv
      (l := [(1, pA 2 [4]), (2, pB [1] 0), (3, pA 4 []), (4, pB [3] 1)]) (F := keep) (fun n a h => if_pos h) rfl (by decide +kernel)
  have hc := got_ok (d := Graph.new 0) (e := g'.commit pair true u) (by decide +kernel)
  exact ⟨by decide +kernel, by decide +kernel, _, hc, C79_restore pair_named pair_one (fun w c _ => pair_noVec.steadyBidirCalls w c) (fun _ _ h => h.2) (fun _ _ h => h.1)
    pair4_reachable (pair_noVec.steadyBidir _ _) hm hr hc⟩

/-- The same with closures that write the old values whatever they find. -/
def back79c : List Step :=
  later79 ++ [.mutate 2 1 (pA 2 [4]), .update 2 3 (pA 4 []), .mutate 2 2 (pB [1] 0), .update 2 4 (pB [3] 1), .call (.op 2 (.remove 5))]

/-- C79: the commit returns. -/
example : let g := graphAt (run pair true World.init pair4) 0
    let g' := graphAt (run pair true World.init back79c) 0
    let u := transAt (run pair true World.init back79c) 2
    ∃ g'', g'.commit pair true u = .ok g'' ∧ View.Same g.get? g''.get? := by
  intro g g' u
  have hm : Meets pair true AnyCall g' u := meets_of (reaches back79c (by decide +kernel)) 0 2 (by decide +kernel)
  have hmu : u.pending.muts ++ u.pending.upds = [(1, pA 2 [4]), (2, pB [1] 0), (3, pA 4 []), (4, pB [3] 1)].map fun p => (p.1, const p.2) := rfl
  have hr : Restores u.pending g.get? g'.get? :=
    restores_sound (pair4_reachable.inv pair_named) (hm.inv pair_named) (hm.ready pair_named).good.inv (F := const) (fun n a h => rfl) hmu (by decide +kernel)
  have hI := fun g (hg : Reachable pair true SoundKeep g) => C12_internal_partial pair_named (fun _ _ h => h.1) hg
  have hsym := (symmetric_closed pair_named (fun w c _ => pair_noVec.steadyBidirCalls w c) pair_one (fun _ _ h => h.2) (fun _ _ h => h.1.noCatch) hI).reachable pair4_reachable
  have hthere : ∀ x, g.get? x ≠ none → g'.get? x ≠ none := fun x hx => by
    obtain ⟨n, hn⟩ := Option.ne_none_iff_exists'.1 hx
    obtain ⟨n', hn', _⟩ := hr.variants x n hn
    rw [hn']; simp
  have hne : ∀ e ∈ g.nodes.entries pair, ∀ p ∈ e.2.iterSources, g.get? p.1 ≠ none := by decide +kernel
  refine C79_state_returns pair_named pair_once pair_one (pair_noVec.steadyBidir _ _) hm hr ?_ (fun i f hf a _ _ => ?_) (hI _ pair4_reachable) hsym
    (pair4_reachable.inv pair_named).wt (fun _ _ _ _ _ _ a ha => absurd ha (by simp [pair])) ?_
  · exact OrderSet.isEmpty_iff.1 (show u.allocs.isEmpty = true from by decide +kernel)
  · rw [hmu] at hf
    obtain ⟨p, hp, e⟩ := List.mem_map.1 hf
    obtain ⟨rfl, rfl⟩ := Prod.mk.inj e
    have h2 : ∀ p ∈ [(1, pA 2 [4]), (2, pB [1] 0), (3, pA 4 []), (4, pB [3] 1)], g.get? p.1 = some p.2 := by decide +kernel
    have hn := h2 p hp
    exact ⟨p.2, rfl, (pair4_reachable.inv pair_named).wt _ _ hn, fun s y hh =>
      Or.inl (hthere y (hne _ ((Arena.mem_entries (i := p.1) (pair4_reachable.inv pair_named).arena).2 hn) _ (Node.mem_iterSources.2 hh)))⟩
  · rintro ⟨x, m, y, d, m', _, _, ho, _, hk⟩
    exact pair_noVec m' m ho.symm hk

/-- 1 and 2 of variant A, 1 linked to 2. -/
def vary79 : List Step :=
  [.call (.newContext 0 77), .call (.newGraph 0 0), .call (.newTrans 0 0), .call (.op 0 (.insert (pA 2 []))), .call (.op 0 (.insert (pA 0 []))), .call (.commit 0 0)]

/-- Then 2 becomes a B that is linked back to 1, and then the old values of both are written again. -/
def vary79r : List Step :=
  vary79 ++ [.call (.newTrans 1 0), .update 1 2 (pB [1] 0), .call (.commit 0 1), .call (.newTrans 2 0), .mutate 2 1 (pA 2 []), .update 2 2 (pA 0 [])]

/-- C79 needs that the variants have not changed: here, the link from 1 to 2 is lost as the opposite of a link that 2 had in between. -/
theorem C79_variant_differ : let w := run pair true World.init vary79
    let w' := run pair true World.init vary79r
    let g := graphAt w 0
    let g' := graphAt w' 0
    let u := transAt w' 2
    Reachable pair true SoundKeep g ∧ Meets pair true AnyCall g' u ∧ (u.muts, u.upds) = ([(1, const (pA 2 []))], [(2, const (pA 0 []))]) ∧
    (g.get? 1, g.get? 2) = (some (pA 2 []), some (pA 0 [])) ∧
    ∃ g'', g'.commit pair true u = .ok g'' ∧ (g''.get? 1, g''.get? 2) = (some (pA 0 []), some (pA 0 [])) := by
  intro w w' g g' u
  exact ⟨reachable_of (reaches_soundKeep pair_named vary79 (by decide +kernel)) 0 (by decide +kernel),
    meets_of (reaches vary79r (by decide +kernel)) 0 2 (by decide +kernel), rfl, by decide +kernel, _, got_ok (d := Graph.new 0) (by decide +kernel), by decide +kernel⟩

end Demo
end TTGraph
