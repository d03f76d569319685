import Verif.Lemmas.History
import Verif.Spec.Worlds

/-!
# Contexts and their ids; calls that do not concern a graph
-/

set_option autoImplicit false

namespace TTGraph
open Spec
variable [SetImpl] {S : Schema} {dbg : Bool}

omit [SetImpl] in
theorem World.put_eq {α : Type} (f : Nat → α) (k : Nat) (v : α) (j : Nat) : World.put f k v j = if j = k then v else f j := rfl

/-- Calls that create no context keep the ids. -/
theorem exec_ctx (w : World) (call : Call) :
    match call with
    | .newContext c u => (w.exec S dbg call).ctx = World.put w.ctx c (some ⟨u, 0⟩)
    | .defaultContext c => (w.exec S dbg call).ctx = World.put w.ctx c (some ⟨0, 0⟩)
    | .deserialize _ c input => (w.exec S dbg call).ctx = w.ctx ∨ ∃ cnt, (w.exec S dbg call).ctx = World.put w.ctx c (some ⟨input.ctxId, cnt⟩)
    | _ => ∀ c x', (w.exec S dbg call).ctx c = some x' → ∃ x, w.ctx c = some x ∧ x.uuid = x'.uuid := by
  have keep : ∀ c x', w.ctx c = some x' → ∃ x, w.ctx c = some x ∧ x.uuid = x'.uuid := fun c x' h => ⟨x', h, rfl⟩
  have issue : ∀ {c0 : Nat} {x0 : Ctx} (cnt : Nat), w.ctx c0 = some x0 →
      ∀ c x', World.put w.ctx c0 (some { x0 with cnt }) c = some x' → ∃ x, w.ctx c = some x ∧ x.uuid = x'.uuid := by
    intro c0 x0 cnt h0 c x' hx
    rw [World.put_eq] at hx
    split at hx
    · rename_i e
      simp only [Option.some.injEq] at hx
      subst e hx
      exact ⟨x0, h0, rfl⟩
    · exact ⟨x', hx, rfl⟩
  cases call with
  | newContext c u => rfl
  | defaultContext c => rfl
  | newGraph g c => simp only [World.exec]; split <;> exact keep
  | newTrans g c => simp only [World.exec]; split <;> exact keep
  | op k o =>
    simp only [World.exec]
    split
    · split
      · rename_i hc
        split
        · exact issue _ hc
        · exact keep
      · exact keep
    · exact keep
  | merge k g => simp only [World.exec]; split <;> [split <;> exact keep; exact keep]
  | commit k g => simp only [World.exec]; split <;> [split <;> exact keep; exact keep]
  | commitChecked k g cs => simp only [World.exec]; split <;> [split <;> exact keep; exact keep]
  | commitCaught k g => simp only [World.exec]; split <;> exact keep
  | dropTrans k => exact keep
  | dropGraph k => exact keep
  | switchContext g c =>
    simp only [World.exec]
    split
    · rename_i hc
      split
      · exact keep
      · split
        · exact issue _ hc
        · exact issue _ hc
    · exact keep
  | deserialize g c input =>
    simp only [World.exec]
    split
    · exact Or.inr ⟨_, rfl⟩
    · exact Or.inl rfl

/-- Contexts that are created separately have different ids. -/
theorem ids_inj {w : World} {R : World → Call → Prop} (hR : ∀ w c, R w c → NewContexts w c) (h : Reaches S dbg R w) :
    ∀ {c c' : Nat} {x x' : Ctx}, w.ctx c = some x → w.ctx c' = some x' → x.uuid = x'.uuid → c = c' := by
  induction h with
  | init => exact fun h => absurd h (by simp [World.init])
  | @step w call _ ha hr ih =>
    intro c c' x x' h1 h2 he
    have hx := exec_ctx (S := S) (dbg := dbg) w call
    have hn := hR w call hr
    have fresh : ∀ c0 u, (∀ c x, w.ctx c = some x → x.uuid ≠ u) → (w.exec S dbg call).ctx = World.put w.ctx c0 (some ⟨u, 0⟩) → c = c' := by
      intro c0 u hu e
      rw [e, World.put_eq] at h1 h2
      split at h1 <;> split at h2
      · rename_i e1 e2; rw [e1, e2]
      · simp only [Option.some.injEq] at h1
        subst h1
        exact absurd he.symm (hu c' x' h2)
      · simp only [Option.some.injEq] at h2
        subst h2
        exact absurd he (hu c x h1)
      · exact ih h1 h2 he
    have keep : (∀ c x', (w.exec S dbg call).ctx c = some x' → ∃ x, w.ctx c = some x ∧ x.uuid = x'.uuid) → c = c' := by
      intro hk
      obtain ⟨y, hy, hy'⟩ := hk c x h1
      obtain ⟨z, hz, hz'⟩ := hk c' x' h2
      exact ih hy hz (by rw [hy', hz', he])
    cases call with
    | newContext c0 u => exact fresh c0 u ha.2.2 hx
    | defaultContext c0 => exact fresh c0 0 hn hx
    | deserialize g c0 input => exact absurd hn id
    | _ => exact keep hx

/-- A call that is not made on the graph leaves it alone. -/
theorem exec_graph (w : World) (call : Call) (h : Nat) (hu : ¬ UsesGraph h call) : (w.exec S dbg call).graph h = w.graph h := by
  have put : ∀ (g : Nat) (o : Option (Nat × Graph)), ¬ g = h → World.put w.graph g o h = w.graph h := by
    intro g o hg
    rw [World.put_eq, if_neg (fun e => hg e.symm)]
  cases call with
  | newContext c u => rfl
  | defaultContext c => rfl
  | newGraph g c => simp only [World.exec]; split <;> [exact put g _ hu; rfl]
  | newTrans g c => simp only [World.exec]; split <;> rfl
  | op k o =>
    simp only [World.exec]
    split
    · split
      · split <;> rfl
      · rfl
    · rfl
  | merge k g => simp only [World.exec]; split <;> [split <;> exact put g _ hu; rfl]
  | commit g k => simp only [World.exec]; split <;> [split <;> exact put g _ hu; rfl]
  | commitChecked g k cs => simp only [World.exec]; split <;> [split <;> exact put g _ hu; rfl]
  | commitCaught g k => simp only [World.exec]; split <;> [exact put g _ hu; rfl]
  | dropTrans k => rfl
  | dropGraph g => exact put g _ hu
  | switchContext g c =>
    simp only [World.exec]
    split
    · split
      · exact put g _ hu
      · split <;> exact put g _ hu
    · rfl
  | deserialize g c input =>
    simp only [World.exec]
    split
    · exact put g _ hu
    · rfl

/-- Fewer restrictions. -/
theorem Reaches.mono {R R' : World → Call → Prop} {w : World} (h : Reaches S dbg R w) (hR : ∀ w c, R w c → R' w c) : Reaches S dbg R' w := by
  induction h with
  | init => exact .init
  | step _ ha hr ih => exact ih.step ha (hR _ _ hr)

end TTGraph
