import Verif.Spec.Replay
import Verif.Lemmas.RerunReturns
import Verif.Lemmas.Check
import Verif.Spec.Report

/-!
# Tidy programs
-/

set_option autoImplicit false

namespace TTGraph
open Spec
variable [SetImpl] {S : Schema} {dbg : Bool}

omit [SetImpl] in
theorem Spec.TidyCalls.sound {w : World} {c : Call} (h : TidyCalls S w c) : SoundCalls w c := by
  cases c <;> first | exact h | exact fun c g c' t hg ht => (h c g c' t hg ht).sound | exact fun c g c' t hg ht => (h c g c' t hg ht).1.sound

omit [SetImpl] in
theorem Spec.TidyCalls.steady {w : World} {c : Call} (h : TidyCalls S w c) : SteadyBidirCalls S w c := by
  cases c <;> first | trivial | exact fun c c' g t hg ht => (h c g c' t hg ht).bidir | exact fun c c' g t hg ht => (h c g c' t hg ht).1.bidir

theorem applied_again {l l' : List (NodeIndex × Closure)} (hl : List.Forall₂ (fun a b => b.1 = a.1 ∧ SameClosure a.2 b.2) l l') {v u : View}
    (h : Applied l v u) : ∀ {v' : View}, View.Same v v' → ∃ u', Applied l' v' u' ∧ View.Same u u' := by
  induction h generalizing l' with
  | nil e =>
    intro v' hs
    cases hl
    refine ⟨v', .nil fun _ => rfl, fun x => ?_⟩
    rw [e x]
    exact hs x
  | @cons i f l v v1 u n n' hn hf hset _ ih =>
    intro v' hs
    cases hl with
    | @cons _ b _ _ hb hl =>
    obtain ⟨j, f'⟩ := b
    obtain ⟨rfl, hc⟩ := hb
    have hc : SameClosure f f' := hc
    obtain ⟨n2, hn2, hns⟩ := hs.some hn
    rcases hc n n2 hns with ⟨e, he, _⟩ | ⟨m, m2, e1, e2, e3⟩
    · rw [hf] at he; exact absurd he (by simp)
    obtain rfl : n' = m := by rw [hf] at e1; simpa using e1
    obtain ⟨u', hu, hsu⟩ := ih hl (v' := fun x => if j = x then some m2 else v' x) (fun x => by
      rw [hset x]
      by_cases e : j = x
      · simp only [if_pos e]; exact e3
      · simp only [if_neg e]; exact hs x)
    exact ⟨u', .cons hn2 e2 (fun _ => rfl) hu, hsu⟩

theorem redirected_again {reqs : List (NodeIndex × NodeIndex)} {v v' u : View} (h : View.Same v v') (hr : Redirected reqs v u) :
    Redirected reqs v' u := by
  obtain ⟨ρ, h1, h2⟩ := hr
  exact ⟨ρ, h1, h2.of_again h⟩

theorem forall₂_prefix {α β : Type} {P : α → β → Prop} {l : List α} {l' : List β} (h : List.Forall₂ P l l') {pre : List α} (hp : pre <+: l) :
    ∃ pre', pre' <+: l' ∧ List.Forall₂ P pre pre' := by
  obtain ⟨post, rfl⟩ := hp
  exact ⟨l'.take pre.length, List.take_prefix _ _, by simpa using List.forall₂_take pre.length h⟩

/-- The states in between are the same, too. -/
theorem stage_again {t t2 : Trans} {v v' u : View} (hp : SamePending t.pending t2.pending) (h : View.Same v v') (hs : Stage t v u) :
    ∃ u', Stage t2 v' u' ∧ View.Same u u' := by
  have e1 : t2.redir = t.redir := hp.redir
  have e2 : t2.redirAll = t.redirAll := hp.redirAll
  rcases hs with rfl | hs | ⟨v1, v2, h1, h2, hs⟩
  · exact ⟨v', .inl rfl, h⟩
  · exact ⟨u, .inr (.inl (by rw [e1]; exact redirected_again h hs)), .refl _⟩
  · have k1 : Redirected t2.redir v' v1 := by rw [e1]; exact redirected_again h h1
    obtain ⟨u2, k2, k3⟩ := inserted_again hp.new h2
    rcases hs with ⟨pre, h3, h4⟩ | ⟨v3, h3, hs⟩
    · obtain ⟨pre', j1, j2⟩ := forall₂_prefix hp.muts h3
      obtain ⟨u', j3, j4⟩ := applied_again j2 h4 k3
      exact ⟨u', .inr (.inr ⟨v1, u2, k1, k2, .inl ⟨pre', j1, j3⟩⟩), j4⟩
    · obtain ⟨u3, k4, k5⟩ := applied_again hp.muts h3 k3
      rcases hs with ⟨pre, h4, h5⟩ | ⟨v4, h4, h5⟩
      · obtain ⟨pre', j1, j2⟩ := forall₂_prefix hp.upds h4
        obtain ⟨u', j3, j4⟩ := applied_again j2 h5 k5
        exact ⟨u', .inr (.inr ⟨v1, u2, k1, k2, .inr ⟨u3, k4, .inl ⟨pre', j1, j3⟩⟩⟩), j4⟩
      · obtain ⟨u4, k6, k7⟩ := applied_again hp.upds h4 k5
        exact ⟨u, .inr (.inr ⟨v1, u2, k1, k2, .inr ⟨u3, k4, .inr ⟨u4, k6, by rw [e2]; exact redirected_again k7 h5⟩⟩⟩), .refl _⟩

omit [SetImpl] in
theorem steady_again {t t2 : Trans} {v v' : View} (hp : SamePending t.pending t2.pending) (h : View.Same v v') {x : NodeIndex} {m : Mirror}
    {y : NodeIndex} (hs : Steady S t v x m y) : Steady S t2 v' x m y := by
  refine hs.imp_right fun hs u hu k k' k1 k2 => ?_
  obtain ⟨u', j1, j2⟩ := stage_again hp.symm h.symm hu
  exact hs u' j1 k k' (((View.same_iff.1 j2).2 x _ y).2 k1) (((View.same_iff.1 j2).2 x _ y).2 k2)

omit [SetImpl] in
theorem Spec.Tidy.again {t t2 : Trans} {v v' : View} (hp : SamePending t.pending t2.pending) (h : View.Same v v') (hs : Tidy S v t) : Tidy S v' t2 :=
  ⟨hp.sound h hs.sound, hp.regular hs.regular, hp.noEmptyLinks hs.noEmpty, fun x m y m' ho => steady_again hp h (hs.bidir x m y m' ho),
    fun x m y => (hs.annos x m y).imp_left (steady_again hp h)⟩

omit [SetImpl] in
/-- Whether a call is tidy does not depend on the order of sets. -/
theorem Spec.TidyCalls.again {w w2 : World} {a b : Call} (hs : SameWorld S w w2) (hab : SameCall a b) (h : TidyCalls S w a) : TidyCalls S w2 b := by
  have comm : ∀ {gh k : Nat} {P : View → Trans → Prop}, (∀ {t t2 : Trans} {v v' : View}, SamePending t.pending t2.pending → View.Same v v' → P v t → P v' t2) →
      (∀ c g c' t, w.graph gh = some (c, g) → w.trans k = some (c', t) → P g.get? t) →
      ∀ c g c' t, w2.graph gh = some (c, g) → w2.trans k = some (c', t) → P g.get? t := by
    intro gh k P hP h c g2 c' t2 hg2 ht2
    rcases hs.graph gh with ⟨_, e⟩ | ⟨c0, g, g2', e1, e2, e3⟩
    · rw [e] at hg2; exact absurd hg2 (by simp)
    rcases hs.trans k with ⟨_, f⟩ | ⟨c1, t, t2', f1, f2, f3⟩
    · rw [f] at ht2; exact absurd ht2 (by simp)
    rw [e2, Option.some.injEq, Prod.mk.injEq] at hg2
    rw [f2, Option.some.injEq, Prod.mk.injEq] at ht2
    obtain ⟨rfl, rfl⟩ := hg2
    obtain ⟨rfl, rfl⟩ := ht2
    exact hP f3 e3.get (h _ _ _ _ e1 f1)
  cases a <;> cases b <;> first | exact hab.elim | trivial | skip
  · obtain ⟨rfl, rfl⟩ := hab
    exact comm (P := Tidy S) (fun hp hv h => h.again hp hv) h
  · obtain ⟨rfl, rfl⟩ := hab
    exact comm (P := fun v t => Tidy S v t ∧ ∀ x m y, Steady S t v x m y)
      (fun hp hv h => ⟨h.1.again hp hv, fun x m y => steady_again hp hv (h.2 x m y)⟩) h
  · obtain ⟨rfl, rfl, hf⟩ := hab
    rename_i f _ _ f2
    have go : ∀ {l l2 : List (NodeIndex × Node)}, List.Forall₂ SameEntry l l2 → ∀ e ∈ l, ∃ e2 ∈ l2, SameEntry e e2 := by
      intro l l2 hl
      induction hl with
      | nil => intro e h; exact absurd h (by simp)
      | cons k _ ih =>
        intro e h
        rcases List.mem_cons.1 h with rfl | h
        · exact ⟨_, by simp, k⟩
        · obtain ⟨e2, k1, k2⟩ := ih e h
          exact ⟨e2, by simp [k1], k2⟩
    intro e2 he2 s y hy
    obtain ⟨e, k1, k2⟩ := go (hf.flip.imp fun _ _ h => SameEntry.symm h) e2 he2
    obtain ⟨u, g1, g2, _⟩ := (Node.Renamed.holds (SameEntry.symm k2).2 s y).1 hy
    obtain rfl : u = y := g2
    rcases h e k1 s u g1 with h | ⟨e', h1, rfl⟩
    · exact .inl h
    · obtain ⟨e2', k3, k4⟩ := go hf e' h1
      exact .inr ⟨e2', k3, k4.1⟩

theorem Spec.Reruns.reaches {R : World → Call → Prop} {w w2 : World} (h : Reruns S dbg R w w2) : Reaches S dbg R w := by
  induction h with
  | start => exact .init
  | call _ ha _ r1 _ _ _ _ ih => exact ih.step ha r1

/-- The checks that are registered accept what they accept in the other run. -/
theorem checkChange_again {g g2 : Graph} {r r2 : Lcr} {cs cs2 : GraphCheck} (hg : View.Same g.get? g2.get?) (hcs : LikeChecks cs cs2)
    (hn : ∀ x, x ∈ (Graph.changedNodes r2).elems → x ∈ (Graph.changedNodes r).elems) (ha : ∀ c, c ∈ r2.adds.elems → c ∈ r.adds.elems)
    (h : Graph.checkChange g r cs = .ok []) : Graph.checkChange g2 r2 cs2 = .ok [] := by
  have func : ∀ {φ : Type} {P : φ → φ → Prop} {a b : Sorted φ}, SameFuncs P a b → ∀ c ∈ b.entries, ∃ c0 ∈ a.entries, P c0.2 c.2 := by
    intro φ P a b hab c hc
    have e : b.get? c.1 = some c.2 := Sorted.get?_eq_some.2 hc
    have := hab c.1
    rw [e] at this
    cases e' : a.get? c.1 with
    | none => rw [e'] at this; exact this.elim
    | some f => rw [e'] at this; exact ⟨(c.1, f), Sorted.get?_eq_some.1 e', this⟩
  have opt : ∀ y, SameNode? (g.get? y) (g2.get? y) := by
    intro y
    have := hg y
    cases e1 : g.get? y <;> cases e2 : g2.get? y <;> simp only [e1, e2] at this <;> first | exact this | trivial
  have link : ∀ {a b : Sorted LinkCheck}, SameFuncs (fun f f2 => ∀ x y n n2 o o2, Node.Same n n2 → SameNode? o o2 → f2 x y n2 o2 = f x y n o) a b →
      (∀ c ∈ a.entries, ∀ d ∈ r.adds.elems, Graph.runLinkCheck g c.2 d = .ok true) →
      ∀ c ∈ b.entries, ∀ d ∈ r2.adds.elems, Graph.runLinkCheck g2 c.2 d = .ok true := by
    intro a b hab h c hc d hd
    obtain ⟨c0, h0, hR⟩ := func hab c hc
    obtain ⟨n, k1, k2⟩ := Graph.runLinkCheck_true.1 (h c0 h0 d (ha d hd))
    obtain ⟨n2, k3, k4⟩ := hg.some k1
    exact Graph.runLinkCheck_true.2 ⟨n2, k3, (hR _ _ _ _ _ _ k4 (opt _)).trans k2⟩
  obtain ⟨h1, h2, h3⟩ := Graph.checkChange_nil.1 h
  refine Graph.checkChange_nil.2 ⟨fun c hc x hx => ?_, link hcs.add h2, link hcs.remove h3⟩
  obtain ⟨c0, h0, hR⟩ := func hcs.node c hc
  obtain ⟨n, k1, k2⟩ := Graph.runNodeCheck_true.1 (h1 c0 h0 x (hn x hx))
  obtain ⟨n2, k3, k4⟩ := hg.some k1
  exact Graph.runNodeCheck_true.2 ⟨n2, k3, (hR _ _ _ k4).trans k2⟩

omit [SetImpl] in
theorem GraphCheck.NeverPanics.quiet {cs : GraphCheck} (h : cs.NeverPanics) {v v6 v' : View} : ¬ CheckPanics cs v v6 v' := by
  rintro (⟨name, f, hf, x, n, _, _, e⟩ | ⟨name, f, hf, x, m, y, n, _, _, e⟩ | ⟨name, f, hf, x, m, y, n, _, _, e⟩)
  · exact h.1 name f hf _ _ e
  · exact h.2 name f (.inl hf) _ _ _ _ e
  · exact h.2 name f (.inr hf) _ _ _ _ e

theorem ascending_unique {l l2 : List Ident} (h : l.Pairwise (· < ·)) (h2 : l2.Pairwise (· < ·)) (e : ∀ x, x ∈ l ↔ x ∈ l2) : l = l2 := by
  refine List.Perm.eq_of_pairwise (le := (· < ·)) ?_ h h2 ((List.perm_ext_iff_of_nodup (h.imp fun k e => ?_) (h2.imp fun k e => ?_)).2 e)
  · intro a b _ _ h3 h4
    exact absurd (Nat.lt_trans h3 h4) (Nat.lt_irrefl _)
  · subst e; exact Nat.lt_irrefl _ k
  · subst e; exact Nat.lt_irrefl _ k

theorem likeChecks_symm {cs cs2 : GraphCheck} (hcs : LikeChecks cs cs2) : LikeChecks cs2 cs := by
  have fl : ∀ {φ : Type} {P Q : φ → φ → Prop} {a b : Sorted φ}, (∀ f f2, P f f2 → Q f2 f) → SameFuncs P a b → SameFuncs Q b a := by
    intro φ P Q a b hPQ hab name
    have := hab name
    cases e1 : a.get? name <;> cases e2 : b.get? name <;> simp only [e1, e2] at this ⊢
    exact hPQ _ _ this
  have op : ∀ {o o2 : Option Node}, SameNode? o2 o → SameNode? o o2 := by
    intro o o2 h
    cases o <;> cases o2 <;> first | exact h | exact Node.Same.symm h
  exact ⟨fl (fun f f2 h x n n2 hn => (h x n2 n hn.symm).symm) hcs.node,
    fl (fun f f2 h x y n n2 o o2 hn ho => (h x y n2 n o2 o hn.symm (op ho)).symm) hcs.add,
    fl (fun f f2 h x y n n2 o o2 hn ho => (h x y n2 n o2 o hn.symm (op ho)).symm) hcs.remove⟩

/-- The report of failed checks is the same in both runs. -/
theorem report_same {v v2 v6 u6 v' v2' : View} {cs cs2 : GraphCheck} {ns ns2 : List Ident} (h : View.Same v v2) (h6 : View.Same v6 u6)
    (h' : View.Same v' v2') (hcs : LikeChecks cs cs2) (hr : Report cs v v6 v' ns) (hr2 : Report cs2 v2 u6 v2' ns2) : ns = ns2 := by
  have opt : ∀ {v' v2' : View}, View.Same v' v2' → ∀ y, SameNode? (v' y) (v2' y) := by
    intro v' v2' h' y
    have := h' y
    cases e1 : v' y <;> cases e2 : v2' y <;> simp only [e1, e2] at this <;> first | exact this | trivial
  have func : ∀ {φ : Type} {P : φ → φ → Prop} {a b : Sorted φ}, SameFuncs P a b → ∀ {name f}, a.get? name = some f → ∃ f2, b.get? name = some f2 ∧ P f f2 := by
    intro φ P a b hab name f hf
    have := hab name
    rw [hf] at this
    cases e : b.get? name with
    | none => rw [e] at this; exact this.elim
    | some f2 => rw [e] at this; exact ⟨f2, rfl, this⟩
  have node : ∀ {v v2 v6 u6 v' v2' : View} {cs cs2 : GraphCheck}, View.Same v v2 → View.Same v6 u6 → View.Same v' v2' → LikeChecks cs cs2 → ∀ {name},
      (∃ f, cs.nodeChecks.get? name = some f ∧ NodeVerdict v v6 v' f .err) → ∃ f, cs2.nodeChecks.get? name = some f ∧ NodeVerdict v2 u6 v2' f .err := by
    rintro v v2 v6 u6 v' v2' cs cs2 h h6 h' hcs name ⟨f, hf, x, n, ⟨m, y, hl⟩, hx, e⟩
    obtain ⟨f2, k1, k2⟩ := func hcs.node hf
    obtain ⟨n2, k3, k4⟩ := h'.some hx
    exact ⟨f2, k1, x, n2, ⟨m, y, hl.imp (h.addedLink h6 x m y).2 (h.removedLink h6 x m y).2⟩, k3, (k2 x n n2 k4).trans e⟩
  have link : ∀ {v v2 v6 u6 v' v2' : View} {a b : Sorted LinkCheck}, View.Same v v2 → View.Same v6 u6 → View.Same v' v2' →
      SameFuncs (fun f f2 => ∀ x y n n2 o o2, Node.Same n n2 → SameNode? o o2 → f2 x y n2 o2 = f x y n o) a b → ∀ {name},
      (∃ f, a.get? name = some f ∧ LinkVerdict v v6 v' f .err) → ∃ f, b.get? name = some f ∧ LinkVerdict v2 u6 v2' f .err := by
    rintro v v2 v6 u6 v' v2' a b h h6 h' hab name ⟨f, hf, x, m, y, n, hl, hx, e⟩
    obtain ⟨f2, k1, k2⟩ := func hab hf
    obtain ⟨n2, k3, k4⟩ := h'.some hx
    exact ⟨f2, k1, x, m, y, n2, (h.addedLink h6 x m y).2 hl, k3, (k2 _ _ _ _ _ _ k4 (opt h' y)).trans e⟩
  have hcs2 := likeChecks_symm hcs
  obtain ⟨l1, l2, l3, rfl, a1, a2, a3, a4, a5, a6⟩ := hr
  obtain ⟨m1, m2, m3, rfl, b1, b2, b3, b4, b5, b6⟩ := hr2
  rw [ascending_unique a1 b1 fun x => ⟨fun k => (b4 x).2 (node h h6 h' hcs ((a4 x).1 k)), fun k => (a4 x).2 (node h.symm h6.symm h'.symm hcs2 ((b4 x).1 k))⟩,
    ascending_unique a2 b2 fun x => ⟨fun k => (b5 x).2 (link h h6 h' hcs.add ((a5 x).1 k)), fun k => (a5 x).2 (link h.symm h6.symm h'.symm hcs2.add ((b5 x).1 k))⟩,
    ascending_unique a3 b3 fun x => ⟨fun k => (b6 x).2 (link h h6 h' hcs.remove ((a6 x).1 k)), fun k => (a6 x).2 (link h.symm h6.symm h'.symm hcs2.remove ((b6 x).1 k))⟩]

end TTGraph
