import Verif.Demo.Run
import Verif.Spec.Protocol

/-!
# Traces of concrete programs

Used only by the examples.
-/

set_option autoImplicit false

namespace TTGraph
namespace Demo

/-- The calls made on each transaction by a program. -/
def traceOf [SetImpl] (S : Schema) (dbg : Bool) (w : World) (tr : Nat → List Spec.Event) : List Step → Nat → List Spec.Event
  | [] => tr
  | s :: l => traceOf S dbg (w.exec S dbg s.call') (record w tr s.call') l

theorem traced_run [SetImpl] {S : Schema} {dbg : Bool} {R : World → Call → Prop} {r : World → Step → Bool}
    (hr : ∀ w s, r w s = true → R w s.call') (l : List Step) : ∀ {us : List Nat} {w : World} {tr : Nat → List Spec.Event}, Traced S dbg R w tr →
      Ids us w → runOk S dbg r us w l = true → Traced S dbg R (run S dbg w l) (traceOf S dbg w tr l) := by
  induction l with
  | nil => exact fun h _ _ => h
  | cons s l ih =>
    intro us w tr h hu hok
    simp only [runOk, Bool.and_eq_true] at hok
    exact ih (h.step (stepOk_sound hu hok.1.1) (hr w s hok.1.2)) (hu.exec s.call') hok.2

theorem traced [SetImpl] {S : Schema} {dbg : Bool} (l : List Step) (h : runOk S dbg anyStep [] World.init l = true) :
    Traced S dbg AnyCall (run S dbg World.init l) (traceOf S dbg World.init (fun _ => []) l) :=
  traced_run (fun _ _ _ => trivial) l .init (fun _ _ h => absurd h (by simp [World.init])) h

/-- There is a transaction under the handle, and its context. -/
def hasTrans (w : World) (k : Nat) : Bool :=
  match w.trans k with
  | some (c, _) => (w.ctx c).isSome
  | none => false

/-- The counter of the context of a transaction. -/
def cntAt (w : World) (k : Nat) : Nat :=
  match w.trans k with
  | some (c, _) => ((w.ctx c).map Ctx.cnt).getD 0
  | none => 0

theorem building_of [SetImpl] {S : Schema} {dbg : Bool} {R : World → Call → Prop} {w : World} (hr : Reaches S dbg R w) (k : Nat)
    (hb : hasTrans w k = true) : Building S dbg R (transAt w k) (cntAt w k) := by
  unfold hasTrans at hb
  split at hb
  · rename_i c t ht
    obtain ⟨x, hx⟩ := Option.isSome_iff_exists.1 hb
    exact ⟨w, k, c, x, hr, by simp [transAt, ht], hx, by simp [cntAt, ht, hx]⟩
  · exact absurd hb (by simp)

theorem transAt_eq {w : World} {k : Nat} (h : hasTrans w k = true) : ∃ c, w.trans k = some (c, transAt w k) := by
  unfold hasTrans at h
  split at h
  · rename_i c t ht
    exact ⟨c, by simp [transAt, ht]⟩
  · exact absurd h (by simp)

theorem graphAt_some {w : World} {h : Nat} (hh : hasGraph w h = true) : ∃ c, w.graph h = some (c, graphAt w h) := by
  obtain ⟨⟨c, g⟩, e⟩ := Option.isSome_iff_exists.1 hh
  exact ⟨c, by simp [graphAt, e]⟩

end Demo
end TTGraph
