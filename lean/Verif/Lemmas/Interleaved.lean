import Verif.Spec.Interleaved
import Verif.Lemmas.SwitchDraws
import Verif.Lemmas.Gone

/-!
# The invariant of programs in which a `switch_context` takes its time
-/

set_option autoImplicit false

namespace TTGraph
open Spec
variable [SetImpl] {S : Schema} {dbg : Bool} {R : World → Call → Prop}

/-- The indices that a `switch_context` has drawn belong to nobody else. -/
structure MInv (S : Schema) (w : World) (mv : Nat → Option Moving) : Prop where
  world : World.WInv S w
  graph : ∀ m c g ds, mv m = some ⟨c, g, ds⟩ → g.Inv S False
  ctx : ∀ m c g ds, mv m = some ⟨c, g, ds⟩ → ∃ x, w.ctx c = some x
  nodup : ∀ m c g ds, mv m = some ⟨c, g, ds⟩ → ds.Nodup
  gone : ∀ m c g ds, mv m = some ⟨c, g, ds⟩ → ∀ d ∈ ds, w.Gone c (d + 1)
  apart : ∀ m m' c g g' ds ds', mv m = some ⟨c, g, ds⟩ → mv m' = some ⟨c, g', ds'⟩ → ∀ d ∈ ds, d ∈ ds' → m = m'

omit [SetImpl] in
theorem put_some {mv : Nat → Option Moving} {m m' : Nat} {v : Option Moving} {q : Moving} (h : World.put mv m v m' = some q) :
    m' = m ∧ v = some q ∨ m' ≠ m ∧ mv m' = some q := by
  simp only [World.put] at h
  split at h
  · rename_i e; exact .inl ⟨e, h⟩
  · rename_i e; exact .inr ⟨e, h⟩

omit [SetImpl] in
/-- A `switch_context` ends. -/
theorem MInv.drop {w : World} {mv : Nat → Option Moving} (h : MInv S w mv) (m : Nat) : MInv S w (World.put mv m none) := by
  have key : ∀ m' q, World.put mv m none m' = some q → m' ≠ m ∧ mv m' = some q := by
    intro m' q hq
    rcases put_some hq with ⟨_, e⟩ | e
    · exact absurd e (by simp)
    · exact e
  refine ⟨h.world, ?_, ?_, ?_, ?_, ?_⟩
  · exact fun m' c g ds e => h.graph m' c g ds (key _ _ e).2
  · exact fun m' c g ds e => h.ctx m' c g ds (key _ _ e).2
  · exact fun m' c g ds e => h.nodup m' c g ds (key _ _ e).2
  · exact fun m' c g ds e => h.gone m' c g ds (key _ _ e).2
  · exact fun m1 m2 c g g' ds ds' e1 e2 => h.apart m1 m2 c g g' ds ds' (key _ _ e1).2 (key _ _ e2).2

omit [SetImpl] in
/-- The world changes. -/
theorem MInv.world_step {w w' : World} {mv : Nat → Option Moving} (h : MInv S w mv) (hi : World.WInv S w')
    (hc : ∀ c x, w.ctx c = some x → ∃ x', w'.ctx c = some x')
    (hg : ∀ m c g ds, mv m = some ⟨c, g, ds⟩ → ∀ d ∈ ds, w.Gone c (d + 1) → w'.Gone c (d + 1)) : MInv S w' mv := by
  refine ⟨hi, h.graph, ?_, h.nodup, ?_, h.apart⟩
  · intro m c g ds e
    obtain ⟨x, hx⟩ := h.ctx m c g ds e
    exact hc c x hx
  · exact fun m c g ds e d hd => hg m c g ds e d hd (h.gone m c g ds e d hd)

omit [SetImpl] in
theorem MInv.start {w : World} {mv : Nat → Option Moving} (h : MInv S w mv) {m gh c c' : Nat} {g : Graph} {x : Ctx}
    (hg : w.graph gh = some (c', g)) (hx : w.ctx c = some x) : MInv S (w.setGraph gh none) (World.put mv m (some ⟨c, g, []⟩)) := by
  have h1 : MInv S (w.setGraph gh none) mv := h.world_step (h.world.setGraph_none gh) (fun c x hx => ⟨x, hx⟩)
    (fun _ _ _ _ _ _ _ k => k.quiet rfl fun o ho => ⟨o, (World.owns_setGraph_none ho).1⟩)
  obtain ⟨_, _, _, hgi⟩ := h.world.graph gh c' g hg
  have key : ∀ m' q, World.put mv m (some ⟨c, g, []⟩) m' = some q → q = ⟨c, g, []⟩ ∨ mv m' = some q := by
    intro m' q hq
    rcases put_some hq with ⟨_, e⟩ | e
    · exact .inl (Option.some.inj e).symm
    · exact .inr e.2
  refine ⟨h1.world, ?_, ?_, ?_, ?_, ?_⟩
  · intro m' c1 g1 ds e
    rcases key _ _ e with e | e
    · simp only [Moving.mk.injEq] at e; exact e.2.1 ▸ hgi
    · exact h1.graph m' c1 g1 ds e
  · intro m' c1 g1 ds e
    rcases key _ _ e with e | e
    · simp only [Moving.mk.injEq] at e; exact ⟨x, e.1 ▸ hx⟩
    · exact h1.ctx m' c1 g1 ds e
  · intro m' c1 g1 ds e
    rcases key _ _ e with e | e
    · simp only [Moving.mk.injEq] at e; exact e.2.2 ▸ List.nodup_nil
    · exact h1.nodup m' c1 g1 ds e
  · intro m' c1 g1 ds e d hd
    rcases key _ _ e with e | e
    · simp only [Moving.mk.injEq] at e; rw [e.2.2] at hd; exact absurd hd (by simp)
    · exact h1.gone m' c1 g1 ds e d hd
  · intro m1 m2 c1 g1 g2 ds ds' e1 e2 d hd hd'
    rcases key _ _ e1 with e | e1
    · simp only [Moving.mk.injEq] at e; rw [e.2.2] at hd; exact absurd hd (by simp)
    rcases key _ _ e2 with e | e2
    · simp only [Moving.mk.injEq] at e; rw [e.2.2] at hd'; exact absurd hd' (by simp)
    exact h1.apart m1 m2 c1 g1 g2 ds ds' e1 e2 d hd hd'

omit [SetImpl] in
theorem issue_ctx {w : World} {c c1 : Nat} {x x1 : Ctx} {cnt : Nat} {l : List NodeIndex} (hx : w.ctx c = some x) (hle : x.cnt ≤ cnt)
    (h1 : w.ctx c1 = some x1) : ∃ x', (w.issue c x cnt l).ctx c1 = some x' ∧ x1.cnt ≤ x'.cnt := by
  simp only [World.issue, World.put]
  split
  · rename_i e
    subst e
    rw [hx] at h1
    simp only [Option.some.injEq] at h1
    subst h1
    exact ⟨_, rfl, hle⟩
  · exact ⟨x1, h1, Nat.le_refl _⟩

omit [SetImpl] in
theorem MInv.draw {w : World} {mv : Nat → Option Moving} (h : MInv S w mv) {m c : Nat} {g : Graph} {ds : List Nat} {x : Ctx}
    (hm : mv m = some ⟨c, g, ds⟩) (hx : w.ctx c = some x) :
    MInv S (w.issue c x (x.cnt + 1) [x.cnt + 1]) (World.put mv m (some ⟨c, g, ds ++ [x.cnt]⟩)) := by
  have h1 : MInv S (w.issue c x (x.cnt + 1) [x.cnt + 1]) mv := by
    refine h.world_step (h.world.issue hx (by omega) (List.nodup_singleton _) (by simp)) (fun c1 x1 hx1 => ?_) (fun _ c1 _ _ _ d _ k => ?_)
    · obtain ⟨x', h2, _⟩ := issue_ctx (l := [x.cnt + 1]) hx (Nat.le_succ _) hx1
      exact ⟨x', h2⟩
    · exact k.mono (fun x1 hx1 => issue_ctx (l := [x.cnt + 1]) hx (Nat.le_succ _) hx1) fun o ho => .inl ⟨o, World.owns_issue.1 ho⟩
  have hlt : ∀ m' g' ds', mv m' = some ⟨c, g', ds'⟩ → ∀ d ∈ ds', d < x.cnt := by
    intro m' g' ds' e d hd
    obtain ⟨⟨x', hx', hle⟩, _⟩ := h.gone m' c g' ds' e d hd
    rw [hx] at hx'
    simp only [Option.some.injEq] at hx'
    subst hx'
    exact hle
  have hnew : (w.issue c x (x.cnt + 1) [x.cnt + 1]).Gone c (x.cnt + 1) := by
    refine ⟨⟨{ x with cnt := x.cnt + 1 }, by simp [World.issue, World.put], Nat.le_refl _⟩, fun o ho => ?_⟩
    obtain ⟨x', hx', _, hle⟩ := h.world.bound o c _ (World.owns_issue.1 ho)
    rw [hx] at hx'
    simp only [Option.some.injEq] at hx'
    subst hx'
    omega
  refine ⟨h1.world, ?_, ?_, ?_, ?_, ?_⟩
  · intro m' c1 g1 ds1 e
    rcases put_some e with ⟨_, e⟩ | ⟨_, e⟩
    · simp only [Option.some.injEq, Moving.mk.injEq] at e; exact e.2.1 ▸ h.graph m c g ds hm
    · exact h1.graph m' c1 g1 ds1 e
  · intro m' c1 g1 ds1 e
    rcases put_some e with ⟨_, e⟩ | ⟨_, e⟩
    · simp only [Option.some.injEq, Moving.mk.injEq] at e; exact e.1 ▸ h1.ctx m c g ds hm
    · exact h1.ctx m' c1 g1 ds1 e
  · intro m' c1 g1 ds1 e
    rcases put_some e with ⟨_, e⟩ | ⟨_, e⟩
    · simp only [Option.some.injEq, Moving.mk.injEq] at e
      rw [← e.2.2, List.nodup_append]
      refine ⟨h.nodup m c g ds hm, List.nodup_singleton _, ?_⟩
      intro d hd d' hd'
      have := hlt m g ds hm d hd
      rw [List.mem_singleton] at hd'
      omega
    · exact h1.nodup m' c1 g1 ds1 e
  · intro m' c1 g1 ds1 e d hd
    rcases put_some e with ⟨_, e⟩ | ⟨_, e⟩
    · simp only [Option.some.injEq, Moving.mk.injEq] at e
      obtain ⟨rfl, rfl, rfl⟩ := e
      rcases List.mem_append.1 hd with hd | hd
      · exact h1.gone m c g ds hm d hd
      · rw [List.mem_singleton] at hd; subst hd; exact hnew
    · exact h1.gone m' c1 g1 ds1 e d hd
  · intro m1 m2 c1 g1 g2 ds1 ds2 e1 e2 d hd hd'
    rcases put_some e1 with ⟨k1, e1⟩ | ⟨k1, e1⟩ <;> rcases put_some e2 with ⟨k2, e2⟩ | ⟨k2, e2⟩
    · rw [k1, k2]
    · simp only [Option.some.injEq, Moving.mk.injEq] at e1
      obtain ⟨rfl, rfl, rfl⟩ := e1
      rcases List.mem_append.1 hd with hd | hd
      · rw [k1]; exact h.apart m m2 c g g2 ds ds2 hm e2 d hd hd'
      · rw [List.mem_singleton] at hd
        exact absurd (hlt m2 g2 ds2 e2 d hd') (by omega)
    · simp only [Option.some.injEq, Moving.mk.injEq] at e2
      obtain ⟨rfl, rfl, rfl⟩ := e2
      rcases List.mem_append.1 hd' with hd' | hd'
      · rw [k2]; exact h.apart m1 m c g1 g ds1 ds e1 hm d hd hd'
      · rw [List.mem_singleton] at hd'
        exact absurd (hlt m1 g1 ds1 e1 d hd) (by omega)
    · exact h.apart m1 m2 c1 g1 g2 ds1 ds2 e1 e2 d hd hd'

theorem MInv.finish (hw : WellNamed S) {w : World} {mv : Nat → Option Moving} (h : MInv S w mv) {m gh c : Nat} {g g' : Graph} {ds : List Nat}
    {x : Ctx} (hm : mv m = some ⟨c, g, ds⟩) (hx : w.ctx c = some x) (hl : ds.length = g.len S)
    (hs : g.switchContextDraws S x.uuid ds = .ok g') : MInv S (w.setGraph gh (some (c, g'))) (World.put mv m none) := by
  rw [show g.len S = (g.iter S).length from Arena.len_eq S g.nodes] at hl
  obtain ⟨a0, idMap, a, h1, h2, h3⟩ := Graph.switchDraws_ok hw.variants (h.graph m c g ds hm) (h.nodup m c g ds hm) hl
  have out := Graph.switchDraws_out hw h1 h2 h3 hs
  have hown : ∀ i : Nat, g'.Owns i → ∃ d ∈ ds, i = d + 1 := by
    intro i hi
    simp only [Graph.Owns, out.disp] at hi
    exact h3.drawn i hi
  have hi : World.WInv S (w.setGraph gh (some (c, g'))) := by
    refine h.world.newGraph hx gh out.ctx (out.inv.mono (by simp)) (fun o i hi => ?_) (fun i hi => ?_)
    · obtain ⟨d, hd, rfl⟩ := hown i hi
      exact (h.gone m c g ds hm d hd).2 o
    · obtain ⟨d, hd, rfl⟩ := hown i hi
      obtain ⟨⟨x', hx', hle⟩, _⟩ := h.gone m c g ds hm d hd
      rw [hx] at hx'
      simp only [Option.some.injEq] at hx'
      subst hx'
      exact ⟨Nat.succ_ne_zero d, hle⟩
  refine (h.drop m).world_step hi (fun c x hx => ⟨x, hx⟩) (fun m' c1 g1 ds1 e d hd k => k.quiet rfl fun o ho => ?_)
  rcases World.owns_setGraph ho with ho | ⟨rfl, ho2⟩
  · exact ⟨o, ho⟩
  · obtain ⟨d', hd', e'⟩ := hown _ ho2
    have : d = d' := by omega
    subst this
    rcases put_some e with ⟨_, e⟩ | ⟨hne, e⟩
    · exact absurd e (by simp)
    · exact absurd (h.apart m' m c1 g1 g ds1 ds e hm d hd hd') hne

theorem Spec.Interleaves.inv (hw : WellNamed S) {w : World} {mv : Nat → Option Moving} (h : Interleaves S dbg R w mv) : MInv S w mv := by
  induction h with
  | init => exact ⟨World.init_inv S, by simp, by simp, by simp, by simp, by simp⟩
  | call _ ha _ ih =>
    refine ih.world_step (ih.world.exec hw dbg _ ha) (fun c x hx => ?_) (fun _ _ _ _ _ _ _ k => k.exec hw dbg ih.world _ ha)
    obtain ⟨x', h1, _⟩ := World.exec_cnt hw dbg ih.world ha hx
    exact ⟨x', h1⟩
  | start _ _ hg hx ih => exact ih.start hg hx
  | draw _ hm hx _ ih => exact ih.draw hm hx
  | finish _ hm hx hl hs ih => exact ih.finish hw hm hx hl hs
  | panic _ _ _ _ _ ih => exact ih.drop _

end TTGraph
