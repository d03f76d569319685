import Verif.Lemmas.Rerun
import Verif.Lemmas.RerunReturns
import Verif.Props.Exact
import Verif.Props.Rename
import Verif.Props.RenameOrder

/-!
# C91: a program can be run again
-/

set_option autoImplicit false

namespace TTGraph
open Spec

/-- Two runs of the same program, whose sets are iterated in different orders and whose contexts have different random ids, have the same after
every call: the same objects, graphs with the same nodes in the same order, transactions with the same pending operations, and contexts that have
handed out the same indices. -/
theorem C91_program [SetImpl] {S : Schema} {dbg : Bool} (hw : WellNamed S) {R : World → Call → Prop} (hst : ∀ w c, R w c → SteadyBidirCalls S w c)
    {w w2 : World} (h : Reruns S dbg R w w2) : SameWorld S w w2 :=
  (h.agree hw hst).same

/-- In programs without dangling links, a commit returns in one run exactly if it returns in the other one. -/
theorem C91_commit [SetImpl] {S : Schema} {dbg : Bool} {R : World → Call → Prop} (hw : WellNamed S) (ho : OneOpposite S) (hd : DeclaredOnce S)
    (hR : ∀ w c, R w c → SoundCalls w c) {g g2 : Graph} {t t2 : Trans} (h : Meets S dbg R g t) (h2 : Meets S dbg R g2 t2)
    (hg : View.Same g.get? g2.get?) (hp : SamePending t.pending t2.pending) (hb : SteadyBidir S t g.get?) (hb2 : SteadyBidir S t2 g2.get?)
    (hva : SteadyAnnos S t g.get?) (hva2 : SteadyAnnos S t2 g2.get?) (hs : Sound g.get? t.pending) (hreg : Regular t.pending)
    (he : NoEmptyLinks t.pending) : (∃ g', g.commit S dbg t = .ok g') ↔ ∃ g2', g2.commit S dbg t2 = .ok g2' := by
  rw [C58_commit_iff hw ho hd hR h hb hva hs hreg he,
    C58_commit_iff hw ho hd hR h2 hb2 hva2 (hp.sound hg hs) (hp.regular hreg) (hp.noEmptyLinks he)]
  have go : ∀ {p q : Pending} {v v' : View}, SamePending p q → View.Same v v' →
      ((dbg = true → ∀ i, ¬ p.unfilled i) ∧ ∃ v6, CarriedOut p v v6 ∧ Completable S v v6) →
      (dbg = true → ∀ i, ¬ q.unfilled i) ∧ ∃ v6, CarriedOut q v' v6 ∧ Completable S v' v6 := by
    rintro p q v v' hp hv ⟨h1, v6, h3, h4, h5, h6⟩
    obtain ⟨u, k1, k2⟩ := carriedOut_same hp hv h3
    refine ⟨fun hdb i hi => h1 hdb i ((hp.unfilled i).1 hi), u, k1, fun hc => h4 ((hv.conflict k2).1 hc), (hv.noVecDue k2).2 h5, fun x m y n hl hn => ?_⟩
    obtain ⟨n', hn', hs⟩ := k2.symm.some hn
    have := h6 x m y n' ((hv.addedLink k2 x m y).1 hl) hn'
    rwa [show n'.disc = n.disc from hs.1] at this
  exact ⟨go hp hg, go hp.symm hg.symm⟩

/-- Every call but a commit returns in one run exactly if it returns in the other one. -/
theorem C91_returns [SetImpl] {S : Schema} {dbg : Bool} (hw : WellNamed S) (ho : OneOpposite S) (hd : DeclaredOnce S) {R : World → Call → Prop}
    (hst : ∀ w c, R w c → SteadyBidirCalls S w c) {w w2 : World} (h : Reruns S dbg R w w2) {a b : Call} (hab : SameCall a b) (ha : a.Allowed S w)
    (hb : b.Allowed S w2) (hc : ∀ g k, a ≠ .commit g k) (hk : ∀ g k ch, a ≠ .commitChecked g k ch) : Returns S dbg w a ↔ Returns S dbg w2 b := by
  refine ⟨(h.agree hw hst).returns hw ho hd (h.disp hw hst) ha hb hab hc hk,
    (h.symm.agree hw hst).returns hw ho hd (h.symm.disp hw hst) hb ha hab.symm ?_ ?_⟩
  · rintro g k rfl
    cases a <;> first | exact hab.elim | exact hc _ _ rfl
  · rintro g k ch rfl
    cases a <;> first | exact hab.elim | exact hk _ _ _ rfl

end TTGraph

namespace TTGraph.Demo
open Spec

/-- Two nodes and a commit; the graph moves to another context, where an index collides; then a node is to be removed. -/
def rerun1 : List Step :=
  [.call (.newContext 0 77), .call (.newContext 1 78), .call (.newGraph 0 0), .call (.newTrans 0 0), .call (.op 0 (.insert (nB 0))),
   .call (.op 0 (.insert (nA 1 [1, 2] [1, 1] 5))), .call (.commit 0 0), .call (.switchContext 0 1), .call (.newTrans 1 1), .call (.op 1 (.remove 1))]

/-- The same with other random ids, and with a set that is iterated in another order. -/
def rerun2 : List Step :=
  [.call (.newContext 0 88), .call (.newContext 1 89), .call (.newGraph 0 0), .call (.newTrans 0 0), .call (.op 0 (.insert (nB 0))),
   .call (.op 0 (.insert (nA 1 [2, 1] [1, 1] 5))), .call (.commit 0 0), .call (.switchContext 0 1), .call (.newTrans 1 1), .call (.op 1 (.remove 1))]

theorem nB_same : Node.Same (nB 0) (nB 0) := .refl _

theorem nA_same : Node.Same (nA 1 [1, 2] [1, 1] 5) (nA 1 [2, 1] [1, 1] 5) := by
  refine ⟨rfl, rfl, .cons (by decide +kernel : (1 : Nat) = _) (.cons (fun w => ?_) (.cons (by decide +kernel : [1, 1] = List.map _ _) .nil))⟩
  constructor
  · intro h
    have h : w ∈ [2, 1] := h
    simp only [List.mem_cons, List.not_mem_nil, or_false] at h
    rcases h with rfl | rfl
    · exact ⟨2, by decide, rfl, .inl (by decide)⟩
    · exact ⟨1, by decide, rfl, .inl (by decide)⟩
  · rintro ⟨u, hu, rfl, -⟩
    have hu : u ∈ [1, 2] := hu
    simp only [List.mem_cons, List.not_mem_nil, or_false] at hu
    rcases hu with rfl | rfl
    · show (1 : Nat) ∈ [2, 1]; decide
    · show (2 : Nat) ∈ [2, 1]; decide

/-- The call of the step returns. -/
def returnsOk [SetImpl] (S : Schema) (dbg : Bool) (w : World) (s : Step) : Bool :=
  match s.call' with
  | .newContext _ _ => true
  | .defaultContext _ => true
  | .newGraph _ c => (w.ctx c).isSome
  | .newTrans _ c => (w.ctx c).isSome
  | .op k o => match w.trans k with
    | some (c, t) => match w.ctx c with
      | some x => (o.run t x.cnt).toOption.isSome
      | none => false
    | none => false
  | .commit g k => match w.trans k, w.graph g with
    | some (_, t), some (_, gr) => (gr.commit S dbg t).toOption.isSome
    | _, _ => false
  | .commitChecked g k cs => match w.trans k, w.graph g with
    | some (_, t), some (_, gr) => (gr.commitChecked S dbg t cs).toOption.isSome
    | _, _ => false
  | .switchContext g c => match w.graph g, w.ctx c with
    | some (_, gr), some x => (gr.switchContext S x.uuid x.cnt).toOption.isSome
    | _, _ => false
  | _ => false

theorem toOption_isSome {α : Type} {r : Except Panic α} (h : r.toOption.isSome = true) : ∃ x, r = .ok x := by
  cases r with
  | error e => exact absurd h (by simp [Except.toOption])
  | ok x => exact ⟨x, rfl⟩

theorem returnsOk_sound [SetImpl] {S : Schema} {dbg : Bool} {w : World} {s : Step} (h : returnsOk S dbg w s = true) : Returns S dbg w s.call' := by
  unfold returnsOk at h
  generalize s.call' = a at h
  cases a <;> simp only [Returns] at h ⊢
  case newGraph g c => exact Option.isSome_iff_exists.1 h
  case newTrans g c => exact Option.isSome_iff_exists.1 h
  case op k o =>
    split at h
    · rename_i c t ht
      split at h
      · rename_i x hx
        obtain ⟨r, hr⟩ := toOption_isSome h
        exact ⟨c, t, x, r, ht, hx, hr⟩
      · exact absurd h (by simp)
    · exact absurd h (by simp)
  case commit g k =>
    split at h
    · rename_i c t c' gr ht hg
      obtain ⟨r, hr⟩ := toOption_isSome h
      exact ⟨c, t, c', gr, r, ht, hg, hr⟩
    · exact absurd h (by simp)
  case commitChecked g k cs =>
    split at h
    · rename_i c t c' gr ht hg
      obtain ⟨r, hr⟩ := toOption_isSome h
      exact ⟨c, t, c', gr, r, ht, hg, hr⟩
    · exact absurd h (by simp)
  case switchContext g c =>
    split at h
    · rename_i c' gr x hg hx
      obtain ⟨r, hr⟩ := toOption_isSome h
      exact ⟨c', gr, x, r, hg, hx, hr⟩
    · exact absurd h (by simp)
  all_goals exact absurd h (by simp)

theorem reruns_run [SetImpl] {S : Schema} {dbg : Bool} {l l2 : List Step} (hl : List.Forall₂ (fun s s2 => SameCall s.call' s2.call') l l2) :
    ∀ {us us2 : List Nat} {w w2 : World}, Reruns S dbg AnyCall w w2 → Ids us w → Ids us2 w2 → runOk S dbg (returnsOk S dbg) us w l = true →
      runOk S dbg (returnsOk S dbg) us2 w2 l2 = true → Reruns S dbg AnyCall (run S dbg w l) (run S dbg w2 l2) := by
  induction hl with
  | nil => exact fun h _ _ _ _ => h
  | cons hs _ ih =>
    intro us us2 w w2 h hu hu2 hok hok2
    simp only [runOk, Bool.and_eq_true] at hok hok2
    exact ih (h.call (stepOk_sound hu hok.1.1) (stepOk_sound hu2 hok2.1.1) trivial trivial hs (returnsOk_sound hok.1.2) (returnsOk_sound hok2.1.2))
      (hu.exec _) (hu2.exec _) hok.2 hok2.2

theorem rerun12 : Reruns plain true AnyCall (run plain true World.init rerun1) (run plain true World.init rerun2) := by
  refine reruns_run (us := []) (us2 := []) ?_ .start (fun _ _ h => absurd h (by simp [World.init])) (fun _ _ h => absurd h (by simp [World.init])) (by decide +kernel)
    (by decide +kernel)
  exact .cons rfl (.cons rfl (.cons ⟨rfl, rfl⟩ (.cons ⟨rfl, rfl⟩ (.cons ⟨rfl, nB_same⟩ (.cons ⟨rfl, nA_same⟩ (.cons ⟨rfl, rfl⟩ (.cons ⟨rfl, rfl⟩
    (.cons ⟨rfl, rfl⟩ (.cons ⟨rfl, rfl⟩ .nil)))))))))

/-- C91: two runs in which a set is iterated in different orders.  Both move the graph to a context in which an old index collides with a new one:
both lose the same link. -/
example : WellNamed plain ∧ (∀ w c, AnyCall w c → SteadyBidirCalls plain w c) ∧
    Reruns plain true AnyCall (run plain true World.init rerun1) (run plain true World.init rerun2) ∧
    (nA 1 [1, 2] [1, 1] 5).links ≠ (nA 1 [2, 1] [1, 1] 5).links ∧
    (graphAt (run plain true World.init rerun1) 0).get? 1 = some (nA 2 [2] [2, 2] 5) ∧
    (graphAt (run plain true World.init rerun2) 0).get? 1 = some (nA 2 [2] [2, 2] 5) :=
  ⟨plain_named, fun w c _ => plain_noVec.steadyBidirCalls w c, rerun12, by decide +kernel, by decide +kernel, by decide +kernel⟩

/-- As `valid4` (in Props/Valid), but the new node of the second transaction has a set with two links. -/
def rerun3 (u : Nat) (s : List NodeIndex) : List Step :=
  [.call (.newContext 0 u), .call (.newGraph 0 0), .call (.newTrans 0 0), .call (.op 0 (.insert (pA 2 []))), .call (.op 0 (.insert (pB [] 0))),
   .call (.op 0 (.insert (pB [] 0))), .call (.commit 0 0), .call (.newTrans 1 0), .call (.op 1 (.insert (pA 3 s))),
   .call (.op 1 (.redirectLinks 2 3)), .mutate 1 3 (pB [1] 4), .call (.op 1 (.remove 2))]

theorem pA_same : Node.Same (pA 3 [2, 3]) (pA 3 [3, 2]) := by
  refine ⟨rfl, rfl, .cons (by decide +kernel : (3 : Nat) = _) (.cons (fun w => ?_) .nil)⟩
  constructor
  · intro h
    have h : w ∈ [3, 2] := h
    simp only [List.mem_cons, List.not_mem_nil, or_false] at h
    rcases h with rfl | rfl
    · exact ⟨3, by decide, rfl, .inl (by decide)⟩
    · exact ⟨2, by decide, rfl, .inl (by decide)⟩
  · rintro ⟨u, hu, rfl, -⟩
    have hu : u ∈ [2, 3] := hu
    simp only [List.mem_cons, List.not_mem_nil, or_false] at hu
    rcases hu with rfl | rfl
    · show (2 : Nat) ∈ [3, 2]; decide
    · show (3 : Nat) ∈ [3, 2]; decide

theorem rerun34 : Reruns typed true AnyCall (run typed true World.init (rerun3 77 [2, 3])) (run typed true World.init (rerun3 88 [3, 2])) := by
  refine reruns_run (us := []) (us2 := []) ?_ .start (fun _ _ h => absurd h (by simp [World.init])) (fun _ _ h => absurd h (by simp [World.init])) (by decide +kernel)
    (by decide +kernel)
  exact .cons rfl (.cons ⟨rfl, rfl⟩ (.cons ⟨rfl, rfl⟩ (.cons ⟨rfl, .refl _⟩ (.cons ⟨rfl, .refl _⟩ (.cons ⟨rfl, .refl _⟩ (.cons ⟨rfl, rfl⟩
    (.cons ⟨rfl, rfl⟩ (.cons ⟨rfl, pA_same⟩ (.cons ⟨rfl, rfl, rfl⟩ (.cons ⟨rfl, rfl, fun _ _ _ => .inr ⟨_, _, rfl, rfl, .refl _⟩⟩
    (.cons ⟨rfl, rfl⟩ .nil)))))))))))

theorem rerun3_sound {u : Nat} {s : List NodeIndex}
    (h : runOk typed true (soundStep typed) [] World.init (rerun3 u s) = true) :
    Reaches typed true SoundCalls (run typed true World.init (rerun3 u s)) :=
  reaches_sound (us := []) typed_named (rerun3 u s) .init (fun _ _ h => absurd h (by simp [World.init])) h

/-- C91: the hypotheses of `C91_commit` hold in two runs in which a set is iterated in different orders, just before a commit.  It returns in the
first run; hence in the second one too. -/
example : let w := run typed true World.init (rerun3 77 [2, 3])
    let w2 := run typed true World.init (rerun3 88 [3, 2])
    Meets typed true SoundCalls (graphAt w 0) (transAt w 1) ∧ Meets typed true SoundCalls (graphAt w2 0) (transAt w2 1) ∧
    View.Same (graphAt w 0).get? (graphAt w2 0).get? ∧ SamePending (transAt w 1).pending (transAt w2 1).pending ∧
    Sound (graphAt w 0).get? (transAt w 1).pending ∧ Regular (transAt w 1).pending ∧ NoEmptyLinks (transAt w 1).pending ∧
    ∃ g2', (graphAt w2 0).commit typed true (transAt w2 1) = .ok g2' := by
  intro w w2
  have hm : Meets typed true SoundCalls (graphAt w 0) (transAt w 1) := meets_of (rerun3_sound (by decide +kernel)) 0 1 (by decide +kernel)
  have hm2 : Meets typed true SoundCalls (graphAt w2 0) (transAt w2 1) := meets_of (rerun3_sound (by decide +kernel)) 0 1 (by decide +kernel)
  have hs : Sound (graphAt w 0).get? (transAt w 1).pending := sound_sound (hm.ready typed_named).good.inv (by decide +kernel)
  obtain ⟨hr, he⟩ := regular_of (p := (transAt w 1).pending) (l := [(3, pB [1] 4)]) rfl (by decide +kernel) (by decide +kernel) (by decide +kernel)
  have hsame := C91_program typed_named (fun w c _ => typed_noVec.steadyBidirCalls w c) rerun34
  have hg : View.Same (graphAt w 0).get? (graphAt w2 0).get? := by
    rcases hsame.graph 0 with ⟨h, -⟩ | ⟨c, g, g2, h, h2, hs⟩
    · exact absurd (congrArg Option.isSome h) (by decide +kernel)
    · have e : graphAt w 0 = g := by show ((w.graph 0).map Prod.snd).getD _ = g; rw [h]; rfl
      have e2 : graphAt w2 0 = g2 := by show ((w2.graph 0).map Prod.snd).getD _ = g2; rw [h2]; rfl
      rw [e, e2]; exact hs.get
  have hp : SamePending (transAt w 1).pending (transAt w2 1).pending := by
    rcases hsame.trans 1 with ⟨h, -⟩ | ⟨c, g, g2, h, h2, hs⟩
    · exact absurd (congrArg Option.isSome h) (by decide +kernel)
    · have e : transAt w 1 = g := by show ((w.trans 1).map Prod.snd).getD _ = g; rw [h]; rfl
      have e2 : transAt w2 1 = g2 := by show ((w2.trans 1).map Prod.snd).getD _ = g2; rw [h2]; rfl
      rw [e, e2]; exact hs
  refine ⟨hm, hm2, hg, hp, hs, hr, he, ?_⟩
  exact (C91_commit typed_named typed_one typed_once (fun _ _ h => h) hm hm2 hg hp (typed_noVec.steadyBidir _ _) (typed_noVec.steadyBidir _ _)
    (typed_noVecAnnos.steady _ _) (typed_noVecAnnos.steady _ _) hs hr he).1 ⟨_, got_ok (d := Graph.new 0) (by decide +kernel)⟩

/-- C91: after two runs in which a set is iterated in different orders, the graph is to move to new indices.  This returns in the first run; hence
in the second one too. -/
example : let w := run typed true World.init (rerun3 77 [2, 3])
    let w2 := run typed true World.init (rerun3 88 [3, 2])
    WellNamed typed ∧ OneOpposite typed ∧ DeclaredOnce typed ∧ (∀ w c, AnyCall w c → SteadyBidirCalls typed w c) ∧ Reruns typed true AnyCall w w2 ∧
    (Call.switchContext 0 0).Allowed typed w ∧ (Call.switchContext 0 0).Allowed typed w2 ∧ Returns typed true w2 (.switchContext 0 0) := by
  intro w w2
  have ha : (Call.switchContext 0 0).Allowed typed w := trivial
  have hb : (Call.switchContext 0 0).Allowed typed w2 := trivial
  have hst : ∀ w c, AnyCall w c → SteadyBidirCalls typed w c := fun w c _ => typed_noVec.steadyBidirCalls w c
  refine ⟨typed_named, typed_one, typed_once, hst, rerun34, ha, hb, ?_⟩
  exact (C91_returns typed_named typed_one typed_once hst rerun34 (a := .switchContext 0 0) (b := .switchContext 0 0) ⟨rfl, rfl⟩ ha hb (fun _ _ => by simp) (fun _ _ _ => by simp)).1
    (returnsOk_sound (s := .call (.switchContext 0 0)) (by decide +kernel))

end TTGraph.Demo
