import Verif.Lemmas.Unique
import Verif.Spec.Types
import Verif.Spec.Vec

/-!
# When a `Vec` field never holds a node twice
-/

set_option autoImplicit false

namespace TTGraph
open Spec

variable {S : Schema}

theorem Spec.NoVecAnnos.steady (h : NoVecAnnos S) (t : Trans) (v : View) : SteadyAnnos S t v := by
  intro x m y
  by_cases hk : S.kind? m = some .vec
  · exact Or.inr fun d => h m d hk
  · exact Or.inl (Or.inl hk)

theorem Spec.NoVecAnnos.steadyCalls (h : NoVecAnnos S) (w : World) (c : Call) : SteadyCalls S w c := by
  cases c <;> first | exact trivial | exact fun _ _ _ _ _ _ => h.steady _ _

theorem Spec.NoVec.steadyBidirCalls (h : NoVec S) (w : World) (c : Call) : SteadyBidirCalls S w c := by
  cases c <;> first | exact trivial | exact fun _ _ _ _ _ _ => h.steadyBidir _ _

/-- The nodes of the view that are at `x` hold `y` at most once in the field `m`. -/
theorem once_node {v : View} {x y : NodeIndex} {m : Mirror} :
    v.Once x m y ↔ ∀ n, v x = some n → ∀ k k', n.Holds ⟨m.disc, m.pos, k⟩ y → n.Holds ⟨m.disc, m.pos, k'⟩ y → k = k' :=
  ⟨fun h n hn k k' h1 h2 => h k k' ⟨n, hn, h1⟩ ⟨n, hn, h2⟩, fun h k k' ⟨n, hn, h1⟩ ⟨n', hn', h2⟩ => by
    rw [hn, Option.some.injEq] at hn'
    subst hn'
    exact h n hn k k' h1 h2⟩

theorem redirected_nil {v v' : View} (h : Redirected [] v v') : View.Same v v' := by
  obtain ⟨ρ, h1, h2⟩ := h
  have : ρ = id := by
    funext u
    exact h1.other u (by simp)
  rw [this] at h2
  exact h2

theorem Spec.Applied.once {l : List (NodeIndex × Closure)} {v v' : View} (h : Applied l v v') {x y : NodeIndex} {m : Mirror} (h0 : v.Once x m y)
    (hl : ∀ f, (x, f) ∈ l → ∀ n n', f n = .ok n' → ∀ k k', n'.Holds ⟨m.disc, m.pos, k⟩ y → n'.Holds ⟨m.disc, m.pos, k'⟩ y → k = k') : v'.Once x m y := by
  induction h with
  | nil he =>
    rw [once_node] at *
    intro n hn
    exact h0 n (by rw [← he]; exact hn)
  | @cons i f l v v1 v' n n' h1 h2 h3 h4 ih =>
    refine ih ?_ fun f hf => hl f (List.mem_cons_of_mem _ hf)
    rw [once_node] at *
    intro a ha
    rw [h3 x] at ha
    split at ha
    · rename_i e
      subst e
      rw [Option.some.injEq] at ha
      subst ha
      exact hl f (by simp) n _ h2
    · exact h0 a ha

/-- A transaction without redirections is steady at a `Vec` field that holds the node at most once to begin with, if neither the new node nor the
results of the closures hold it twice. -/
theorem steady_of {t : Trans} {v : View} {x y : NodeIndex} {m : Mirror} (hr : t.redir = []) (hra : t.redirAll = []) (h0 : v.Once x m y)
    (hn : View.Once t.inc.get? x m y)
    (hl : ∀ f, (x, f) ∈ t.muts ++ t.upds → ∀ n n', f n = .ok n' → ∀ k k', n'.Holds ⟨m.disc, m.pos, k⟩ y → n'.Holds ⟨m.disc, m.pos, k'⟩ y → k = k') :
    Steady S t v x m y := by
  right
  have hs : ∀ {v v' : View}, View.Same v v' → v.Once x m y → v'.Once x m y := fun h h1 k k' k1 k2 =>
    h1 k k' (((View.same_iff.1 h).2 x _ y).1 k1) (((View.same_iff.1 h).2 x _ y).1 k2)
  have hm : ∀ pre : List (NodeIndex × Closure), pre <+: t.muts → ∀ f, (x, f) ∈ pre → (x, f) ∈ t.muts ++ t.upds := fun pre hp f hf =>
    List.mem_append_left _ (hp.subset hf)
  have hu : ∀ pre : List (NodeIndex × Closure), pre <+: t.upds → ∀ f, (x, f) ∈ pre → (x, f) ∈ t.muts ++ t.upds := fun pre hp f hf =>
    List.mem_append_right _ (hp.subset hf)
  have hi : ∀ {v1 v2 : View}, v1.Once x m y → Inserted t.inc.get? v1 v2 → v2.Once x m y := by
    intro v1 v2 h1 h2
    rw [once_node] at *
    intro n hn2
    cases hx : t.inc.get? x with
    | none => exact h1 n (by rw [← h2.1 x hx]; exact hn2)
    | some n' =>
      rw [(h2.2 x n' hx).2, Option.some.injEq] at hn2
      subst hn2
      exact hn _ hx
  rintro v' (rfl | h | ⟨v1, v2, h1, h2, h⟩)
  · exact h0
  · rw [hr] at h; exact hs (redirected_nil h) h0
  · rw [hr] at h1
    have k2 := hi (hs (redirected_nil h1) h0) h2
    rcases h with ⟨pre, hp, h⟩ | ⟨v3, h3, h⟩
    · exact h.once k2 fun f hf => hl f (hm pre hp f hf)
    · have k3 := h3.once k2 fun f hf => hl f (hm _ (List.prefix_refl _) f hf)
      rcases h with ⟨pre, hp, h⟩ | ⟨v4, h4, h⟩
      · exact h.once k3 fun f hf => hl f (hu pre hp f hf)
      · rw [hra] at h
        exact hs (redirected_nil h) (h4.once k3 fun f hf => hl f (hu _ (List.prefix_refl _) f hf))

end TTGraph
