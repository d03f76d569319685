import Verif.Demo.Traced
import Verif.Demo.Decls
import Verif.Lemmas.Integrity
import Verif.Props.Commit

/-!
# Dangling links: C12
-/

set_option autoImplicit false

namespace TTGraph
open Spec
variable [SetImpl] {S : Schema} {dbg : Bool} {R : World → Call → Prop}

/-- If all transactions of the program were sound when they were committed (their new nodes and redirects refer to nodes that exist), then
all links of its graphs point to nodes of the graph, whatever the closures and removals did.

Full statement of C12: it is enough that the graph had only internal links before the last, sound transaction.  That is false, see below:
earlier unsound transactions matter even if their dangling links are gone. -/
theorem C12_internal_partial (hw : WellNamed S) (hR : ∀ w c, R w c → SoundCalls w c) {g : Graph} (h : Reachable S dbg R g) :
    Internal g.get? :=
  ((tight_closed hw hR).reachable h).internal (h.inv hw)

/-- The same after one more sound commit. -/
theorem C12_commit_partial (hw : WellNamed S) (hR : ∀ w c, R w c → SoundCalls w c) {g g' : Graph} {t : Trans}
    (h : Meets S dbg R g t) (hs : Sound g.get? t.pending) (hc : g.commit S dbg t = .ok g') : Internal g'.get? := by
  obtain ⟨v6, out⟩ := h.commit hw hc
  exact (((tight_closed hw hR).reachable h.reachable).commit hw h hs hc).internal out.inv

/-- In such a program, a commit that returns has applied only closures that left links to nodes of the graph and new nodes: `mutate` and
`update` closures that leave a link to anything else make it panic. -/
theorem C12_closures_partial (hw : WellNamed S) (hR : ∀ w c, R w c → SoundCalls w c) {g g' : Graph} {t : Trans}
    (h : Meets S dbg R g t) (hs : Sound g.get? t.pending) (hc : g.commit S dbg t = .ok g') :
    ∃ v1 v2 v3 v4, Redirected t.redir g.get? v1 ∧ Inserted t.pending.new v1 v2 ∧ AppliedIn (Exists g.get? t.pending) t.pending.muts v2 v3 ∧
      AppliedIn (Exists g.get? t.pending) t.pending.upds v3 v4 := by
  have hr := h.ready hw
  obtain ⟨_, _, g6, r6, hp⟩ := Graph.perform_of_commit hc
  refine Graph.perform_in hw.variants (h.inv hw) hr.good (h.disjoint hw).1 hr.noFrom (Exists g.get? t.pending) (fun y hy => ?_) hp
  rcases hy with hy | ⟨n, hy⟩ | hy | ⟨p, hp, rfl⟩
  · rcases (tight_closed hw hR).reachable h.reachable y hy with e | e
    · exact Or.inl e
    · exact Or.inr (Or.inl e)
  · exact Or.inr (Or.inr (by simp [Trans.pending, hy]))
  · exact hs.1 y hy
  · exact hs.2 p.1 p.2 (List.mem_append_left _ hp)

/-- A closure that leaves a link to an index that is neither in the graph nor new makes the commit panic. -/
theorem C12_panics_partial (hw : WellNamed S) (hR : ∀ w c, R w c → SoundCalls w c) {g : Graph} {t : Trans}
    (h : Meets S dbg R g t) (hs : Sound g.get? t.pending) {i y : NodeIndex} {f : Closure} (hf : (i, f) ∈ t.pending.muts ++ t.pending.upds)
    (hy : ¬ Exists g.get? t.pending y) (hl : ∀ n n', f n = .ok n' → ∃ s, n'.Holds s y) : ∃ e, g.commit S dbg t = .error e := by
  cases hc : g.commit S dbg t with
  | error e => exact ⟨e, rfl⟩
  | ok g' =>
    obtain ⟨v1, v2, v3, v4, _, _, h3, h4⟩ := C12_closures_partial hw hR h hs hc
    have key : ∀ {l : List (NodeIndex × Closure)} {v v' : View}, AppliedIn (Exists g.get? t.pending) l v v' → (i, f) ∉ l := by
      intro l v v' ha
      induction ha with
      | nil _ => simp
      | cons _ h2 h3 _ _ ih =>
        intro hm
        rcases List.mem_cons.1 hm with e | e
        · simp only [Prod.mk.injEq] at e
          obtain ⟨rfl, rfl⟩ := e
          obtain ⟨s, hh⟩ := hl _ _ h2
          exact hy (h3 s y hh)
        · exact ih e
    rcases List.mem_append.1 hf with e | e
    · exact absurd e (key h3)
    · exact absurd e (key h4)

/-- `check_integrity` panics exactly if some link is not to a node (in debug builds; otherwise it checks nothing). -/
theorem C12_check (hw : WellNamed S) {g : Graph} (h : Reachable S dbg R g) (dbg' : Bool) :
    g.checkIntegrity S dbg' = .ok () ↔ (dbg' = true → ∀ x s y, View.Holds g.get? x s y → g.get? y ≠ none) :=
  Graph.checkIntegrity_ok (h.inv hw).arena

/-- Hence `check_integrity` passes in such a program, as long as no set holds the empty index. -/
theorem C12_integrity_partial (hw : WellNamed S) (hR : ∀ w c, R w c → SoundCalls w c) {g : Graph} (h : Reachable S dbg R g)
    (h0 : ∀ x s, ¬ View.Holds g.get? x s emptyIdx) (dbg' : Bool) : g.checkIntegrity S dbg' = .ok () := by
  refine (C12_check hw h dbg').2 fun _ x s y hh => ?_
  rcases C12_internal_partial hw hR h x s y hh with rfl | e
  · exact absurd hh (h0 x s)
  · exact e

end TTGraph

namespace TTGraph
namespace Demo
open Spec

/-- The nodes that the entries of an arena link to. -/
def targets (S : Schema) (a : Arena) : List NodeIndex := (a.entries S).flatMap fun e => e.2.iterSources.map Prod.fst

/-- `Sound` by evaluation. -/
def sound (S : Schema) (g : Graph) (t : Trans) : Bool :=
  let ex := fun y => decide (y = emptyIdx) || (g.get? y).isSome || (t.inc.get? y).isSome
  (targets S t.inc).all ex && (t.redir ++ t.redirAll).all fun p => ex p.2

theorem sound_sound {S : Schema} {g : Graph} {t : Trans} (hi : t.inc.Inv S) (h : sound S g t = true) : Sound g.get? t.pending := by
  simp only [sound, Bool.and_eq_true, List.all_eq_true, Bool.or_eq_true, decide_eq_true_eq, Option.isSome_iff_ne_none, or_assoc] at h
  refine ⟨fun y ⟨x, s, n, hn, hh⟩ => h.1 y ?_, fun old new hm => h.2 (old, new) hm⟩
  exact List.mem_flatMap.2 ⟨(x, n), (Arena.mem_entries hi).2 hn, List.mem_map.2 ⟨(y, s), Node.mem_iterSources.2 hh, rfl⟩⟩

/-- `SoundCalls` by evaluation. -/
def soundStep (S : Schema) (w : World) : Step → Bool
  | .call (.commit h k) => sound S (graphAt w h) (transAt w k)
  | .call (.commitChecked h k _) => sound S (graphAt w h) (transAt w k)
  | .call (.commitCaught _ _) => false
  | .call (.deserialize _ _ _) => false
  | _ => true

theorem soundStep_ok [SetImpl] {S : Schema} {dbg : Bool} {R : World → Call → Prop} (hw : WellNamed S) (w : World) (s : Step)
    (h : Reaches S dbg R w) (hs : soundStep S w s = true) : SoundCalls w s.call' := by
  cases s with
  | mutate k i n => trivial
  | update k i n => trivial
  | edit k i n => trivial
  | swap k i n => trivial
  | call c =>
    cases c with
    | commit gh k =>
      intro c g c' t hg ht
      have e1 : graphAt w gh = g := by simp [graphAt, hg]
      have e2 : transAt w k = t := by simp [transAt, ht]
      simp only [soundStep, e1, e2] at hs
      obtain ⟨x, _, _, hr⟩ := (h.inv hw).trans k c' t ht
      exact sound_sound hr.good.inv hs
    | commitChecked gh k cs =>
      intro c g c' t hg ht
      have e1 : graphAt w gh = g := by simp [graphAt, hg]
      have e2 : transAt w k = t := by simp [transAt, ht]
      simp only [soundStep, e1, e2] at hs
      obtain ⟨x, _, _, hr⟩ := (h.inv hw).trans k c' t ht
      exact sound_sound hr.good.inv hs
    | commitCaught _ _ => exact absurd hs (by simp [soundStep])
    | deserialize _ _ _ => exact absurd hs (by simp [soundStep])
    | _ => trivial

theorem reaches_sound [SetImpl] {S : Schema} {dbg : Bool} (hw : WellNamed S) (l : List Step) {us : List Nat} {w : World}
    (h : Reaches S dbg SoundCalls w) (hu : Ids us w) (hok : runOk S dbg (soundStep S) us w l = true) : Reaches S dbg SoundCalls (run S dbg w l) :=
  reaches_where (soundStep_ok hw) l h hu hok

/-- `base3` and a transaction with all kinds of operations on it are sound. -/
theorem all3_sound : Reaches plain true SoundCalls (run plain true World.init all3) :=
  reaches_sound (us := []) plain_named all3 .init (fun _ _ h => absurd h (by simp [World.init])) (by decide +kernel)

/-- C12: the hypotheses of the theorems are met. -/
example : let w := run plain true World.init all3
    Meets plain true SoundCalls (graphAt w 0) (transAt w 1) ∧ Sound (graphAt w 0).get? (transAt w 1).pending ∧
    ((graphAt w 0).commit plain true (transAt w 1)).toOption.isSome = true := by
  intro w
  have hm : Meets plain true SoundCalls (graphAt w 0) (transAt w 1) := meets_of all3_sound 0 1 (by decide +kernel)
  exact ⟨hm, sound_sound (hm.ready plain_named).good.inv (by decide +kernel), by decide +kernel⟩

/-- A transaction with a closure that leaves a link to the index 9. -/
def dangle3 : List Step := base3 ++ [.mutate 1 3 (nB 9)]

/-- C12: `C12_panics_partial` applies to it. -/
example : let w := run plain true World.init dangle3
    ∃ e, (graphAt w 0).commit plain true (transAt w 1) = .error e := by
  intro w
  have hr : Reaches plain true SoundCalls w :=
    reaches_sound (us := []) plain_named dangle3 .init (fun _ _ h => absurd h (by simp [World.init])) (by decide +kernel)
  have hm : Meets plain true SoundCalls (graphAt w 0) (transAt w 1) := meets_of hr 0 1 (by decide +kernel)
  have hmu : (3, const (nB 9)) ∈ (transAt w 1).pending.muts ++ (transAt w 1).pending.upds := List.mem_cons_self
  refine C12_panics_partial plain_named (fun _ _ h => h) hm
    (sound_sound (hm.ready plain_named).good.inv (by decide +kernel)) (i := 3) (y := 9) hmu ?_ fun n n' e => ?_
  · rintro (e | e | e)
    · exact absurd e (by decide)
    · exact e (by decide +kernel)
    · exact e (by decide +kernel)
  · simp only [const, Except.ok.injEq] at e
    exact ⟨⟨2, 0, 0⟩, e ▸ ⟨rfl, .direct 9, rfl, rfl, rfl, by decide⟩⟩

/-- A dangling link is inserted and cleared again.  Then a closure links to the same index. -/
def leftover3 : List Step :=
  [.call (.newContext 0 77), .call (.newGraph 0 0), .call (.newTrans 0 0), .call (.op 0 (.insert (nB 9))), .call (.commit 0 0),
   .call (.newTrans 1 0), .mutate 1 1 (nB 0), .call (.commit 0 1), .call (.newTrans 2 0), .mutate 2 1 (nB 9)]

/-- C12 fails: the graph has only internal links, the transaction inserts and redirects nothing, its closure leaves a link to an index
that is not in the graph, and the commit returns. -/
theorem C12_leftover_fails : ∃ g t g', Meets plain true AnyCall g t ∧ Internal g.get? ∧ Sound g.get? t.pending ∧ g.commit plain true t = .ok g' ∧
    g'.get? 1 = some (nB 9) ∧ g'.get? 9 = none ∧ ¬ Internal g'.get? := by
  have hm := meets_of (reaches (S := plain) (dbg := true) leftover3 (by decide +kernel)) 0 2 (by decide +kernel)
  have hi := hm.inv plain_named
  refine ⟨_, _, _, hm, fun x s y hh => ?_, sound_sound (hm.ready plain_named).good.inv (by decide +kernel),
    got_ok (d := Graph.new 0) (by decide +kernel), by decide +kernel, by decide +kernel, fun hint => ?_⟩
  · obtain ⟨n, hn, hh⟩ := hh
    have he := (Arena.mem_entries hi.arena).2 hn
    rw [show (graphAt (run plain true World.init leftover3) 0).nodes.entries plain = [(1, nB 0)] from by decide +kernel] at he
    simp only [List.mem_singleton, Prod.mk.injEq] at he
    obtain ⟨rfl, rfl⟩ := he
    have := Node.mem_iterSources.2 hh
    rw [show (nB 0).iterSources = [] from by decide +kernel] at this
    exact absurd this (by simp)
  · rcases hint 1 ⟨2, 0, 0⟩ 9 ⟨nB 9, by decide +kernel, rfl, .direct 9, rfl, rfl, rfl, by decide⟩ with e | e
    · exact absurd e (by decide)
    · exact e (by decide +kernel)

end Demo
end TTGraph
