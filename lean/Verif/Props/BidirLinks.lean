import Verif.Lemmas.BidirLinks
import Verif.Props.Bidir

/-!
# C54: `get_bidiretional_links`
-/

set_option autoImplicit false

namespace TTGraph

open Spec

/-- `get_bidiretional_links` returns for every node, and its entries are right and complete: an entry belongs to one link field of the node, its
indices are those that the field holds, and its fields are exactly those opposite to it; and every field that has an opposite has an
entry. -/
theorem C54_entries {S : Schema} (hw : WellNamed S) (n : Node) : ∃ l, n.bidirLinks S = .ok l ∧
    (∀ ys ls, (ys, ls) ∈ l → ∃ m, m.disc = n.disc ∧ (∀ y, y ∈ ys ↔ n.HasLink m y) ∧ ∀ m', m' ∈ ls ↔ Opposite S m m') ∧
    ∀ m m', m.disc = n.disc → Opposite S m m' →
      ∃ ys ls, (ys, ls) ∈ l ∧ (∀ y, y ∈ ys ↔ n.HasLink m y) ∧ ∀ m'', m'' ∈ ls ↔ Opposite S m m'' := by
  obtain ⟨l, h1, h2, h3⟩ := n.bidirLinks_entries hw
  refine ⟨l, h1, fun ys ls he => h2 _ he, fun m m' hm ho => ?_⟩
  obtain ⟨e, he, h⟩ := h3 m m' hm ho
  exact ⟨e.1, e.2, he, h⟩

/-- What the documentation says about the result, "link of y should connect to this node", is all that the declarations require: a view is
symmetric if and only if every node gets, from every node that its entries name, the links that they ask for. -/
theorem C54_symmetric {S : Schema} (hw : WellNamed S) (v : View) : Symmetric S v ↔
    ∀ x n l, v x = some n → n.bidirLinks S = .ok l → ∀ ys ls, (ys, ls) ∈ l → ∀ y ∈ ys, ∀ k, v y = some k → ∀ m' ∈ ls, m'.disc = k.disc →
      k.HasLink m' x := by
  constructor
  · intro hs x n l hx hl ys ls he y hy k hk m' hm' hd
    obtain ⟨l', h1, h2, _⟩ := C54_entries hw n
    rw [hl, Except.ok.injEq] at h1
    obtain ⟨m, _, h3, h4⟩ := h2 ys ls (h1 ▸ he)
    obtain ⟨k', hk', h5⟩ := hs x m y k m' ⟨n, hx, (h3 y).1 hy⟩ hk ((h4 m').1 hm') hd
    rw [hk, Option.some.injEq] at hk'
    exact hk' ▸ h5
  · rintro h x m y k m' ⟨n, hx, hl⟩ hk ho hd
    obtain ⟨l, h1, _, h3⟩ := C54_entries hw n
    have hm : m.disc = n.disc := hl.choose_spec.1
    obtain ⟨ys, ls, he, h4, h5⟩ := h3 m m' hm ho
    exact ⟨k, hk, h x n l hx h1 ys ls he y ((h4 y).2 hl) k hk m' ((h5 m').2 ho) hd⟩

/-- In programs that keep to the rules of C22, what `get_bidiretional_links` asks for holds in every graph. -/
theorem C54_reachable [SetImpl] {S : Schema} {dbg : Bool} {R : World → Call → Prop} (hw : WellNamed S) (hst : ∀ w c, R w c → SteadyBidirCalls S w c)
    (hone : OneOpposite S)
    (hK : ∀ w c, R w c → KeepVariants w c) (hR : ∀ w c, R w c → SoundCalls w c) {g : Graph} (h : Reachable S dbg R g) {x y : NodeIndex}
    {n k : Node} {l : List (List NodeIndex × List Mirror)} (hx : g.get? x = some n) (hl : n.bidirLinks S = .ok l) {ys : List NodeIndex}
    {ls : List Mirror} (he : (ys, ls) ∈ l) (hy : y ∈ ys) (hk : g.get? y = some k) {m' : Mirror} (hm : m' ∈ ls) (hd : m'.disc = k.disc) :
    k.HasLink m' x := by
  refine (C54_symmetric hw g.get?).1 (fun a m b nb q ha hb ho hq => ?_) x n l hx hl ys ls he y hy k hk m' hm hd
  obtain ⟨na, hna, hlk⟩ := ha
  exact (C22_sound hw hst hone hK hR h hna hb ho hlk.choose_spec.1 hq).1 ⟨na, hna, hlk⟩

end TTGraph

/-! ### Concrete cases -/

namespace TTGraph.Demo
open Spec

/-- `A{f: 2, s: {4}}`: both fields have an opposite. -/
example : (pA 2 [4]).bidirLinks pair = .ok [([2], [⟨2, 0⟩]), ([4], [⟨2, 1⟩])] := rfl

/-- The hypotheses of `C54_reachable`. -/
example : (graphAt (run pair true World.init pair5) 0).get? 1 = some (pA 2 [4]) ∧
    (graphAt (run pair true World.init pair5) 0).get? 2 = some (pB [1] 0) ∧ (pB [1] 0).HasLink ⟨2, 0⟩ 1 :=
  ⟨by decide +kernel, by decide +kernel, C54_reachable pair_named (fun w c _ => pair_noVec.steadyBidirCalls w c) pair_one (fun _ _ h => h.2) (fun _ _ h => h.1)
    pair5_meets.reachable (x := 1) (n := pA 2 [4]) (by decide +kernel) (l := [([2], [⟨2, 0⟩]), ([4], [⟨2, 1⟩])]) rfl (ys := [2]) (ls := [⟨2, 0⟩])
    (by simp) (y := 2) (by simp) (by decide +kernel) (by simp) rfl⟩

end TTGraph.Demo
