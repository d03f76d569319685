import Verif.Props.Commute

/-!
# What a commit reaches: C74
-/

set_option autoImplicit false

namespace TTGraph
open Spec
variable [SetImpl] {S : Schema} {dbg : Bool} {R : World → Call → Prop}

/-- A commit leaves alone what it has nothing to do with: an index stays without a node, or keeps its node (up to the iteration order of its sets), if
the transaction inserts no node there, no closure is for it, it is not removed, the node has no links to nodes that are redirected or removed, and no link to
it is added or removed in a field with an opposite. -/
theorem C74_untouched (hw : WellNamed S) {g g' : Graph} {t : Trans} (hst : SteadyBidir S t g.get?) (h : Meets S dbg R g t) 
    (hc : g.commit S dbg t = .ok g') {x : NodeIndex} (hnew : t.pending.new x = none) (hcl : ∀ f, (x, f) ∉ t.pending.muts ++ t.pending.upds) (hrem : ¬ t.pending.removed x)
    (hl : ∀ s y, View.Holds g.get? x s y → ¬ Displaces t.pending y)
    (hop : ∀ v6, Performed t g.get? v6 → ∀ a m m', AddedLink g.get? v6 a m x ∨ RemovedLink g.get? v6 a m x → ¬ Opposite S m m') :
    SameAt g.get? g'.get? x := by
  have hF : Footprint S t g.get? (· ≠ x) := {
    inserted := fun i hi e => hi (e ▸ hnew)
    changed := fun i f hf e => hcl f (e ▸ hf)
    removed := fun i hi e => hrem (e ▸ hi)
    holders := fun a s y ha hd e => hl s y (e ▸ ha) hd
    ends := fun v6 hp a m y m' ha ho e => hop v6 hp a m m' (e ▸ ha) ho }
  exact View.same_on.1 (hF.committed (C03_order hw hst h hc)).2 x (fun e => e rfl)

/-- What a commit makes of the nodes it concerns depends only on them.  `F` contains all of them (`Footprint`).  If another graph has the same nodes with
indices in `F`, and its other nodes have no links to nodes that are redirected or removed, the same transaction does the same to the nodes in `F`, and
nothing to the others. -/
theorem C74_local (hw : WellNamed S) {g g' h h' : Graph} {t : Trans} (hst : SteadyBidir S t g.get?) (hst' : SteadyBidir S t h.get?) (hg : Meets S dbg R g t) 
    (hh : Meets S dbg R h t) (hreg : Regular t.pending) {F : NodeIndex → Prop} (hF : Footprint S t g.get? F) (hs : ∀ x, F x → SameAt g.get? h.get? x)
    (hl : ∀ x s y, ¬ F x → View.Holds h.get? x s y → ¬ Displaces t.pending y)
    (hc : g.commit S dbg t = .ok g') (hc' : h.commit S dbg t = .ok h') :
    (∀ x, F x → SameAt g'.get? h'.get? x) ∧ ∀ x, ¬ F x → SameAt h.get? h'.get? x := by
  obtain ⟨h1, h2⟩ := hF.committed_same hreg (C03_order hw hst hg hc) (View.same_on.2 hs) hl (C03_order hw hst' hh hc')
  exact ⟨View.same_on.1 h1, View.same_on.1 h2⟩

end TTGraph

namespace TTGraph
namespace Demo
open Spec

/-- C74: the first transaction of `two6` has nothing to do with node 4. -/
example : SameAt two6g.get? two6ga.get? 4 := by
  obtain ⟨ma, -⟩ := two6_meets
  have ra := ma.ready typed_named
  have hF := footprint_sound (F := [1, 2, 3, 7]) typed_named.variants (ma.inv typed_named) ra.good (ma.disjoint typed_named).1 ra.noFrom
    two6_regular.1.1 (by decide +kernel)
  have h4 : (4 : NodeIndex) ∉ ([1, 2, 3, 7] : List NodeIndex) := by decide
  exact C74_untouched typed_named (typed_noVec.steadyBidir _ _) ma two6_a (by decide +kernel) (fun f hf => h4 (hF.changed _ f hf)) (fun hr => h4 (hF.removed _ hr))
    (fun s y hy hd => h4 (hF.holders _ s y hy hd)) (fun v6 hp a m m' ha ho => h4 (hF.ends v6 hp a m _ m' ha ho))

/-- What it does to the others. -/
example : (two6g.get? 3, two6ga.get? 3) = (some (pB [] 0), some (pB [1, 7] 7)) := by decide +kernel

/-- C74: the transaction does the same to its nodes before and after the other transaction of `two6`, which changes nodes 4, 5, 6 and 8. -/
example : ∃ h', two6gb.commit typed true two6a = .ok h' ∧ (∀ x ∈ ([1, 2, 3, 7] : List NodeIndex), SameAt two6ga.get? h'.get? x) ∧
    ∀ x, x ∉ ([1, 2, 3, 7] : List NodeIndex) → SameAt two6gb.get? h'.get? x := by
  obtain ⟨c, hg, h1, h2⟩ := two6_at
  obtain ⟨ma, mb⟩ := two6_meets
  have ra := ma.ready typed_named
  have ib := (mb.commit typed_named two6_b).choose_spec.inv
  have hb : Meets typed true AnyCall two6gb two6a := two6_sound.any.second hg h2 h1 (by decide) trivial two6_b
  have hF := footprint_sound (F := [1, 2, 3, 7]) typed_named.variants (ma.inv typed_named) ra.good (ma.disjoint typed_named).1 ra.noFrom
    two6_regular.1.1 (by decide +kernel)
  have hF' := footprint_sound (F := [1, 2, 3, 7]) typed_named.variants (hb.inv typed_named) ra.good (hb.disjoint typed_named).1 ra.noFrom
    two6_regular.1.1 (by decide +kernel)
  have hs : ∀ x ∈ ([1, 2, 3, 7] : List NodeIndex), SameAt two6g.get? two6gb.get? x := by
    have e : ∀ x ∈ ([1, 2, 3, 7] : List NodeIndex), two6g.get? x = two6gb.get? x := by decide +kernel
    intro x hx
    simp only [SameAt, ← e x hx]
    cases two6g.get? x with
    | none => trivial
    | some n => exact Node.Same.refl n
  exact ⟨_, got_ok (d := Graph.new 0) (by decide +kernel), C74_local typed_named (typed_noVec.steadyBidir _ _) (typed_noVec.steadyBidir _ _) ⟨_, 0, 1, c, two6_sound.any, hg, h1⟩ hb two6_regular.1.1 hF hs
    (fun x s y hx hy hd => hx (hF'.holders x s y hy hd)) two6_a (got_ok (d := Graph.new 0) (by decide +kernel))⟩

end Demo
end TTGraph
