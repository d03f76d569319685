import Verif.Spec.History

/-!
# Running concrete programs

Used only by the examples beside the theorems and by the counterexamples: a concrete set implementation, and programs whose
calls can be checked by evaluation.  Closures of `mutate` and `update` replace the node by a given one.
-/

set_option autoImplicit false

namespace TTGraph
namespace Demo

/-- A set that keeps its elements in insertion order. -/
instance listSet : SetImpl where
  ins a s := if h : a ∈ s.elems then s else ⟨s.elems ++ [a], by
    rw [List.nodup_append]
    exact ⟨s.nodup, by simp, fun x hx y hy => by simp at hy; subst hy; exact fun e => h (e ▸ hx)⟩, s.hidden⟩
  del a s := ⟨s.elems.filter (fun x => x ≠ a), s.nodup.filter _, s.hidden⟩
  mem_ins a s x := by
    by_cases h : a ∈ s.elems
    · simp only [h, dif_pos]
      constructor
      · exact Or.inr
      · rintro (rfl | h1)
        · exact h
        · exact h1
    · simp only [h, dif_neg, not_false_iff, List.mem_append, List.mem_singleton]
      exact or_comm
  mem_del a s x := by simp

/-- A set with the given elements (which must be distinct, otherwise it is empty). -/
def setOf (l : List NodeIndex) : NSet := if h : l.Nodup then ⟨l, h, 0⟩ else NSet.empty

/-- The closure that replaces the node by `n`. -/
def const (n : Node) : Closure := fun _ => .ok n

/-- The closure that replaces a node of the same variant by `n` and panics on others. -/
def keep (n : Node) : Closure := fun m => if m.disc = n.disc then .ok n else .error .user

/-- A call whose conditions can be checked by evaluation. -/
inductive Step
  | call (c : Call)
  | mutate (k : Nat) (i : NodeIndex) (n : Node)
  | update (k : Nat) (i : NodeIndex) (n : Node)
  | edit (k : Nat) (i : NodeIndex) (n : Node)
  | swap (k : Nat) (i : NodeIndex) (n : Node)

/-- The call itself. -/
def Step.call' : Step → Call
  | .call c => c
  | .mutate k i n => .op k (.mutate i (const n))
  | .update k i n => .op k (.update i (const n))
  | .edit k i n => .op k (.mutate i (keep n))
  | .swap k i n => .op k (.update i (keep n))

/-- `S.WT n` by evaluation. -/
def wt (S : Schema) (n : Node) : Bool :=
  match S.struct? n.disc with
  | some sd => decide (n.links.map LinkVal.kind = sd.linkKinds) &&
      decide (n.data.map (fun v => v.ty) = sd.dataFields.map (fun f => match f.ty with | .data t _ => t | .link _ => 0))
  | none => false

theorem wt_sound {S : Schema} {n : Node} (h : wt S n = true) : S.WT n := by
  unfold wt at h
  cases hs : S.struct? n.disc with
  | none => rw [hs] at h; simp at h
  | some sd =>
    rw [hs] at h
    simp only [Bool.and_eq_true, decide_eq_true_eq] at h
    exact ⟨sd, hs, h.1, h.2⟩

/-- `TOp.Allowed` by evaluation; `mutate` and `update` with arbitrary closures are not covered. -/
def opOk (S : Schema) (t : Trans) : TOp → Bool
  | .insert n => wt S n
  | .extend l => l.all (wt S)
  | .alloc d => decide (d ∈ S.discs)
  | .allocUntyped => true
  | .fillBack _ n => wt S n
  | .fillBackUntyped i n => wt S n && decide (i ∈ t.allocs)
  | .remove _ => true
  | .mutate _ _ => false
  | .update _ _ => false
  | .redirectAllLinks old _ => decide (old ≠ emptyIdx)
  | .redirectLinks old _ => decide (old ≠ emptyIdx)

theorem opOk_sound {S : Schema} {t : Trans} {o : TOp} (h : opOk S t o = true) : o.Allowed S t := by
  cases o with
  | insert n => exact wt_sound h
  | extend l => exact fun n hn => wt_sound (List.all_eq_true.1 h n hn)
  | fillBack i n => exact wt_sound h
  | fillBackUntyped i n =>
    simp only [opOk, Bool.and_eq_true, decide_eq_true_eq] at h
    exact ⟨wt_sound h.1, h.2⟩
  | allocUntyped => trivial
  | remove i => trivial
  | mutate i f => simp [opOk] at h
  | update i f => simp [opOk] at h
  | _ => simpa [opOk, TOp.Allowed] using h

/-- Same context. -/
def sameCtx (w : World) (k g : Nat) : Bool :=
  match w.trans k, w.graph g with
  | some (c, _), some (c', _) => decide (c = c')
  | _, _ => true

theorem sameCtx_sound {w : World} {k g : Nat} (h : sameCtx w k g = true) :
    ∀ c t c' gr, w.trans k = some (c, t) → w.graph g = some (c', gr) → c = c' := by
  intro c t c' gr h1 h2
  simpa [sameCtx, h1, h2] using h

/-- `Call.Allowed` by evaluation; `us` are the context ids in use. -/
def stepOk (S : Schema) (us : List Nat) (w : World) : Step → Bool
  | .call (.newContext c u) => (w.ctx c).isNone && decide (u ≠ 0) && decide (u ∉ us)
  | .call (.defaultContext c) => (w.ctx c).isNone
  | .call (.newGraph g _) => (w.graph g).isNone
  | .call (.newTrans k _) => (w.trans k).isNone
  | .call (.op k o) => match w.trans k with | some (_, t) => opOk S t o | none => true
  | .call (.merge k g) => sameCtx w k g
  | .call (.commit g k) => sameCtx w k g
  | .call (.commitChecked g k _) => sameCtx w k g
  | .call (.commitCaught g k) => sameCtx w k g
  | .call (.dropTrans _) => true
  | .call (.dropGraph _) => true
  | .call (.switchContext _ _) => true
  | .call (.deserialize g c input) =>
    (w.graph g).isNone && (w.ctx c).isNone && input.nodes.all (fun e => decide (e.1 ≠ emptyIdx) && wt S e.2)
  | .mutate _ _ n => wt S n
  | .update _ _ n => wt S n
  | .edit _ _ n => wt S n
  | .swap _ _ n => wt S n

theorem const_typed {S : Schema} {n : Node} (h : S.WT n) : Closure.Typed S (const n) := by
  intro n0 n' _ h1
  simp only [const, Except.ok.injEq] at h1
  exact h1 ▸ h

theorem keep_typed {S : Schema} {n : Node} (h : S.WT n) : Closure.Typed S (keep n) := by
  intro n0 n' _ h1
  unfold keep at h1
  split at h1
  · simp only [Except.ok.injEq] at h1
    exact h1 ▸ h
  · exact absurd h1 (by simp)

theorem keep_keeps (n : Node) : (keep n).KeepsVariant := by
  intro n0 n' h1
  unfold keep at h1
  split at h1
  · rename_i e
    simp only [Except.ok.injEq] at h1
    rw [← h1, e]
  · exact absurd h1 (by simp)

/-- The context id that a call brings in. -/
def newId : Call → List Nat
  | .newContext _ u => [u]
  | .defaultContext _ => [0]
  | .deserialize _ _ input => [input.ctxId]
  | _ => []

/-- All context ids in use are listed. -/
def Ids (us : List Nat) (w : World) : Prop := ∀ c x, w.ctx c = some x → x.uuid ∈ us

theorem Ids.add {us : List Nat} {w : World} (h : Ids us w) (c u cnt : Nat) : Ids (u :: us) (w.addCtx c u cnt) := by
  intro c' x hx
  simp only [World.addCtx, World.put] at hx
  split at hx
  · simp only [Option.some.injEq] at hx
    subst hx
    exact List.mem_cons_self
  · exact List.mem_cons_of_mem _ (h c' x hx)

theorem Ids.issue {us : List Nat} {w : World} (h : Ids us w) {c : Nat} {x : Ctx} (hc : w.ctx c = some x) (cnt : Nat) (l : List NodeIndex) :
    Ids us (w.issue c x cnt l) := by
  intro c' x' hx
  simp only [World.issue, World.put] at hx
  split at hx
  · simp only [Option.some.injEq] at hx
    subst hx
    exact h c x hc
  · exact h c' x' hx

theorem Ids.exec [SetImpl] {S : Schema} {dbg : Bool} {us : List Nat} {w : World} (h : Ids us w) (c : Call) :
    Ids (newId c ++ us) (w.exec S dbg c) := by
  cases c with
  | newContext c u => exact h.add c u 0
  | defaultContext c => exact h.add c 0 0
  | newGraph g c => simp only [World.exec]; split <;> exact h
  | newTrans g c => simp only [World.exec]; split <;> exact h
  | op k o =>
    simp only [World.exec]
    split
    · split
      · rename_i hc
        split
        · exact h.issue hc _ []
        · exact h
      · exact h
    · exact h
  | merge k g => simp only [World.exec]; split <;> [split <;> exact h; exact h]
  | commit k g => simp only [World.exec]; split <;> [split <;> exact h; exact h]
  | commitChecked k g cs => simp only [World.exec]; split <;> [split <;> exact h; exact h]
  | commitCaught k g => simp only [World.exec]; split <;> exact h
  | dropTrans k => exact h
  | dropGraph k => exact h
  | switchContext g c =>
    simp only [World.exec]
    split
    · rename_i hc
      split
      · exact h
      · split
        · exact h.issue hc _ []
        · exact h.issue hc _ []
    · exact h
  | deserialize g c input =>
    simp only [World.exec]
    split
    · exact h.add c input.ctxId _
    · exact fun c x hx => List.mem_append_right _ (h c x hx)

theorem stepOk_sound {S : Schema} {us : List Nat} {w : World} (hu : Ids us w) {s : Step} (h : stepOk S us w s = true) : s.call'.Allowed S w := by
  cases s with
  | mutate k i n => exact fun c t _ => const_typed (wt_sound h)
  | update k i n => exact fun c t _ => const_typed (wt_sound h)
  | edit k i n => exact fun c t _ => keep_typed (wt_sound h)
  | swap k i n => exact fun c t _ => keep_typed (wt_sound h)
  | call c =>
    simp only [Step.call']
    cases c with
    | newContext c u =>
      simp only [stepOk, Bool.and_eq_true, decide_eq_true_eq, Option.isNone_iff_eq_none] at h
      exact ⟨h.1.1, h.1.2, fun c' x hx e => h.2 (e ▸ hu c' x hx)⟩
    | op k o =>
      intro c t ht
      simp only [stepOk, ht] at h
      exact opOk_sound h
    | merge k g => exact sameCtx_sound h
    | commit g k => exact sameCtx_sound h
    | commitChecked g k cs => exact sameCtx_sound h
    | commitCaught g k => exact sameCtx_sound h
    | deserialize g c input =>
      simp only [stepOk, Bool.and_eq_true, List.all_eq_true, decide_eq_true_eq, Option.isNone_iff_eq_none] at h
      exact ⟨h.1.1, h.1.2, fun e he => ⟨(h.2 e he).1, wt_sound (h.2 e he).2⟩⟩
    | dropTrans k => trivial
    | dropGraph k => trivial
    | switchContext g c => trivial
    | _ => simpa [stepOk, Call.Allowed] using h

/-- Run a program. -/
def run [SetImpl] (S : Schema) (dbg : Bool) (w : World) : List Step → World
  | [] => w
  | s :: l => run S dbg (w.exec S dbg s.call') l

/-- All calls of a program are allowed when they are made and pass the test `r`. -/
def runOk [SetImpl] (S : Schema) (dbg : Bool) (r : World → Step → Bool) (us : List Nat) (w : World) : List Step → Bool
  | [] => true
  | s :: l => stepOk S us w s && r w s && runOk S dbg r (newId s.call' ++ us) (w.exec S dbg s.call') l

/-- No test. -/
def anyStep (_ : World) (_ : Step) : Bool := true

theorem reaches_where [SetImpl] {S : Schema} {dbg : Bool} {R : World → Call → Prop} {r : World → Step → Bool}
    (hr : ∀ w s, Reaches S dbg R w → r w s = true → R w s.call') (l : List Step) : ∀ {us : List Nat} {w : World}, Reaches S dbg R w → Ids us w →
      runOk S dbg r us w l = true → Reaches S dbg R (run S dbg w l) := by
  induction l with
  | nil => exact fun h _ _ => h
  | cons s l ih =>
    intro us w h hu hok
    simp only [runOk, Bool.and_eq_true] at hok
    exact ih (h.step (stepOk_sound hu hok.1.1) (hr w s h hok.1.2)) (hu.exec s.call') hok.2

theorem reaches_run [SetImpl] {S : Schema} {dbg : Bool} {R : World → Call → Prop} {r : World → Step → Bool}
    (hr : ∀ w s, r w s = true → R w s.call') (l : List Step) {us : List Nat} {w : World} (h : Reaches S dbg R w) (hu : Ids us w)
    (hok : runOk S dbg r us w l = true) : Reaches S dbg R (run S dbg w l) := reaches_where (fun w s _ => hr w s) l h hu hok

/-- A program whose calls are checked by evaluation reaches its final world. -/
theorem reaches [SetImpl] {S : Schema} {dbg : Bool} (l : List Step) (h : runOk S dbg anyStep [] World.init l = true) :
    Reaches S dbg AnyCall (run S dbg World.init l) :=
  reaches_run (fun _ _ _ => trivial) l .init (fun _ _ h => absurd h (by simp [World.init])) h

/-- The graph under a handle. -/
def graphAt (w : World) (h : Nat) : Graph := ((w.graph h).map Prod.snd).getD (Graph.new 0)

/-- The transaction under a handle. -/
def transAt (w : World) (k : Nat) : Trans := ((w.trans k).map Prod.snd).getD (Trans.new 0)

/-- There is a graph under the handle. -/
def hasGraph (w : World) (h : Nat) : Bool := (w.graph h).isSome

/-- There are a graph and a transaction of the same context under the handles. -/
def hasBoth (w : World) (h k : Nat) : Bool :=
  match w.graph h, w.trans k with
  | some (c, _), some (c', _) => decide (c = c')
  | _, _ => false

theorem reachable_of [SetImpl] {S : Schema} {dbg : Bool} {R : World → Call → Prop} {w : World} (hr : Reaches S dbg R w) (h : Nat)
    (hb : hasGraph w h = true) : Reachable S dbg R (graphAt w h) := by
  unfold hasGraph at hb
  obtain ⟨⟨c, g⟩, hg⟩ := Option.isSome_iff_exists.1 hb
  exact ⟨w, h, c, hr, by simp [graphAt, hg]⟩

theorem meets_of [SetImpl] {S : Schema} {dbg : Bool} {R : World → Call → Prop} {w : World} (hr : Reaches S dbg R w) (h k : Nat)
    (hb : hasBoth w h k = true) : Meets S dbg R (graphAt w h) (transAt w k) := by
  unfold hasBoth at hb
  split at hb
  · rename_i c g c' t hg ht
    simp only [decide_eq_true_eq] at hb
    subst hb
    exact ⟨w, h, k, c, hr, by simp [graphAt, hg], by simp [transAt, ht]⟩
  · exact absurd hb (by simp)

/-- The result of an operation that did not panic. -/
def got {α : Type} (d : α) : Except Panic α → α
  | .ok a => a
  | .error _ => d

theorem got_ok {α : Type} {d : α} {e : Except Panic α} (h : e.toOption.isSome = true) : e = .ok (got d e) := by
  cases e with
  | ok a => rfl
  | error e => simp [Except.toOption] at h

/-- The panic of a call. -/
def panicked {α : Type} : Except Panic α → Option Panic
  | .ok _ => none
  | .error e => some e

theorem panic_of {α : Type} {e : Except Panic α} {p : Panic} (h : panicked e = some p) : e = .error p := by
  cases e with
  | ok a => exact absurd h (by simp [panicked])
  | error q => simp only [panicked, Option.some.injEq] at h; rw [h]

end Demo
end TTGraph
