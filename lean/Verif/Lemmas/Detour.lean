import Verif.Lemmas.Moved
import Verif.Props.Switch

/-!
# Several `switch_context`s in a row
-/

set_option autoImplicit false

namespace TTGraph
open Spec
variable {S : Schema}

theorem Node.Renamed.comp {σ τ : NodeIndex → NodeIndex} (h0 : σ emptyIdx = emptyIdx) (k0 : τ emptyIdx = emptyIdx) {n n1 n2 : Node} (h : Node.Renamed σ n n1)
    (k : Node.Renamed τ n1 n2) : Node.Renamed (fun i => τ (σ i)) n n2 := by
  refine Node.renamed_of_holds (k.shape.trans h.shape) fun s z => ?_
  rw [k.holds]
  constructor
  · rintro ⟨u1, a1, rfl, a3⟩
    obtain ⟨u, b1, rfl, b3⟩ := (h.holds _ _).1 a1
    refine ⟨u, b1, rfl, ?_⟩
    rcases a3 with a3 | a3
    · exact .inl a3
    · exact .inr (b3.resolve_left fun c => c a3)
  · rintro ⟨u, b1, rfl, b3⟩
    refine ⟨σ u, (h.holds _ _).2 ⟨u, b1, rfl, ?_⟩, rfl, ?_⟩
    · rcases b3 with b3 | b3
      · exact .inl fun e => b3 (by rw [e, k0])
      · exact .inr b3
    · rcases b3 with b3 | b3
      · exact .inl b3
      · exact .inr (by rw [b3, h0])

theorem Spec.Isomorphic.comp {σ τ : NodeIndex → NodeIndex} {v v1 v2 : View} (h : Isomorphic σ v v1) (k : Isomorphic τ v1 v2) :
    Isomorphic (fun i => τ (σ i)) v v2 := by
  have image : ∀ x, v x ≠ none → v1 (σ x) ≠ none := by
    intro x hx
    obtain ⟨n, hn⟩ := Option.ne_none_iff_exists'.1 hx
    obtain ⟨n1, h1, _⟩ := h.node x n hn
    rw [h1]; simp
  refine ⟨by rw [h.empty, k.empty], fun x y hx hy e => h.inj x y hx hy (k.inj _ _ (image x hx) (image y hy) e), fun x n hn => ?_, fun x' hx' => ?_⟩
  · obtain ⟨n1, h1, r1⟩ := h.node x n hn
    obtain ⟨n2, h2, r2⟩ := k.node _ n1 h1
    exact ⟨n2, h2, r1.comp h.empty k.empty r2⟩
  · obtain ⟨x1, h1, rfl⟩ := k.onto x' hx'
    obtain ⟨x, h2, rfl⟩ := h.onto x1 h1
    exact ⟨x, h2, rfl⟩

theorem Spec.Joined.comp {σ ρ : NodeIndex → NodeIndex} {v v2 v3 v' : View} (h : Isomorphic σ v2 v3) (k : Joined ρ v v3 v') :
    Joined (fun i => ρ (σ i)) v v2 v' := by
  have image : ∀ x, v2 x ≠ none → v3 (σ x) ≠ none := by
    intro x hx
    obtain ⟨n, hn⟩ := Option.ne_none_iff_exists'.1 hx
    obtain ⟨n1, h1, _⟩ := h.node x n hn
    rw [h1]; simp
  refine ⟨by rw [h.empty, k.empty], fun x y hx hy e => h.inj x y hx hy (k.inj _ _ (image x hx) (image y hy) e), fun x hx => k.apart _ (image x hx), k.old,
    fun x n hn => ?_, fun x' hx' => ?_⟩
  · obtain ⟨n1, h1, r1⟩ := h.node x n hn
    obtain ⟨n2, h2, r2⟩ := k.moved _ n1 h1
    exact ⟨n2, h2, r1.comp h.empty k.empty r2⟩
  · rcases k.only x' hx' with h1 | ⟨x1, h1, rfl⟩
    · exact .inl h1
    · obtain ⟨x, h2, rfl⟩ := h.onto x1 h1
      exact .inr ⟨x, h2, rfl⟩

variable [SetImpl] {dbg : Bool} {R : World → Call → Prop}

/-- A `switch_context` without collisions, in a program. -/
theorem World.switch_step (hw : WellNamed S) {w : World} (h : Reaches S dbg R w) {gh c c2 : Nat} {g : Graph} {x : Ctx} (hg : w.graph gh = some (c2, g))
    (hx : w.ctx c = some x) (hv : Whole S g.get?) (hcol : ¬ Collision g.get? ((g.iter S).map Prod.fst) x.cnt) :
    ∃ g' ρ, (w.exec S dbg (.switchContext gh c)).graph gh = some (c, g') ∧
      (∀ j, j ≠ gh → (w.exec S dbg (.switchContext gh c)).graph j = w.graph j) ∧
      (w.exec S dbg (.switchContext gh c)).ctx c = some { x with cnt := x.cnt + (g.iter S).length } ∧
      (∀ j, j ≠ c → (w.exec S dbg (.switchContext gh c)).ctx j = w.ctx j) ∧
      (w.exec S dbg (.switchContext gh c)).trans = w.trans ∧ Isomorphic ρ g.get? g'.get? ∧
      (∀ i : Nat, g'.get? i ≠ none → x.cnt < i ∧ i ≤ x.cnt + (g.iter S).length) ∧ Whole S g'.get? := by
  have hr : Reachable S dbg R g := ⟨w, gh, c2, h, hg⟩
  obtain ⟨g3, cnt', ρ, hs, _, hiso⟩ := C32_returns_partial hw x.uuid x.cnt hr hv.internal hv.symmetric.answered hv.typed hcol
  obtain ⟨_, hl, _, _, _, hrange, _⟩ := C32_nodes hw hr hs
  have hlen : cnt' = x.cnt + (g.iter S).length := by rw [hl]; exact congrArg _ (Arena.len_eq S g.nodes)
  obtain ⟨a0, idMap, a, k0, _⟩ := Graph.switchNodes_ok hw.variants (hr.inv hw) x.cnt
  have e : w.exec S dbg (.switchContext gh c) = (w.issue c x (x.cnt + (g.iter S).length) (idMap.entries.map Prod.snd)).setGraph gh (some (c, g3)) := by
    simp only [World.exec, hg, hx, k0, hs]
  have hg3 : (w.exec S dbg (.switchContext gh c)).graph gh = some (c, g3) := by rw [e]; simp [World.setGraph, World.put]
  have hi3 : g3.Inv S False := by
    obtain ⟨_, _, _, hi⟩ := (((h.mono fun _ _ _ => trivial : Reaches S dbg AnyCall w).step (c := .switchContext gh c) trivial trivial).inv hw).graph _ _ _ hg3
    exact hi
  refine ⟨g3, ρ, hg3, ?_, ?_, ?_, ?_, hiso, fun i hi => ?_, hiso.whole hi3.noEmpty hv⟩
  · intro j hj
    rw [e]; simp [World.setGraph, World.put, World.issue, hj]
  · rw [e]; simp [World.setGraph, World.put, World.issue]
  · intro j hj
    rw [e]; simp [World.setGraph, World.put, World.issue, hj]
  · rw [e]; rfl
  · obtain ⟨h1, h2, _⟩ := hrange i hi
    exact ⟨h1, hlen ▸ h2⟩

/-- There are at most as many nodes as indices in the range of their indices. -/
theorem Graph.iter_length_le (hw : WellNamed S) {e0 : Prop} {g : Graph} (h : g.Inv S e0) {a m : Nat} (hr : ∀ i : Nat, g.get? i ≠ none → a < i ∧ i ≤ a + m) :
    (g.iter S).length ≤ m := by
  have hn : ((g.iter S).map Prod.fst).Nodup := Arena.entries_nodup hw.variants h.arena
  have hs : ((g.iter S).map Prod.fst) ⊆ List.range' (a + 1) m := by
    intro i hi
    obtain ⟨⟨i', n⟩, hm, rfl⟩ := List.mem_map.1 hi
    have := hr i' (by rw [show g.get? i' = some n from (Arena.mem_entries h.arena).1 hm]; simp)
    rw [List.mem_range'_1]
    constructor
    · exact this.1
    · exact Nat.lt_of_le_of_lt this.2 (by omega)
  have := (hn.subperm hs).length_le
  rw [List.length_range', List.length_map] at this
  exact this

end TTGraph
