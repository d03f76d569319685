import Verif.Spec.History
import Verif.Spec.Effects
import Verif.Spec.Machine

/-!
# What a program relies on in every world

A summary of the guarantees that hold without conditions on the calls: used for programs that do more than `Reaches` allows (C83, C84).
-/

set_option autoImplicit false

namespace TTGraph
namespace Spec

/-- The guarantees for the objects of the world `w`. -/
structure Intact [SetImpl] (S : Schema) (dbg : Bool) (w : World) : Prop where
  /-- The indices that a context has handed out are different from each other and from the empty index. -/
  ids : ∀ c, (w.issued c).Nodup ∧ emptyIdx ∉ w.issued c
  /-- A node belongs to one object. -/
  apart : ∀ {c : Nat} {i : NodeIndex},
    (∀ h h' g g', w.graph h = some (c, g) → w.graph h' = some (c, g') → g.get? i ≠ none → g'.get? i ≠ none → h = h') ∧
    (∀ h k g t, w.graph h = some (c, g) → w.trans k = some (c, t) → g.get? i ≠ none → t.pending.new i = none ∧ ¬ t.pending.unfilled i) ∧
    ∀ k k' t t', w.trans k = some (c, t) → w.trans k' = some (c, t') → t.pending.new i ≠ none ∨ t.pending.unfilled i →
      t'.pending.new i ≠ none ∨ t'.pending.unfilled i → k = k'
  /-- The back-links of a graph are exact, except those of the empty index. -/
  backlinks : ∀ {gh c : Nat} {g : Graph}, w.graph gh = some (c, g) →
    (∀ x s y, y ≠ emptyIdx → ((∃ places, g.back.get? y = some places ∧ (x, s) ∈ places) ↔ View.Holds g.get? x s y)) ∧
    ∀ x, g.get? x ≠ none → g.back.get? x ≠ none
  /-- A method of a transaction that returns has its documented effect. -/
  methods : ∀ {k c : Nat} {t t' : Trans} {x : Ctx} {o : TOp} {cnt : Nat} {l : List NodeIndex}, w.trans k = some (c, t) → w.ctx c = some x →
    o.Allowed S t → o.run t x.cnt = .ok (t', cnt, l) → Effect o l t.pending t'.pending
  /-- A commit that returns makes of the graph what the pending operations say. -/
  commit : ∀ {gh k c : Nat} {g g' : Graph} {t : Trans}, w.graph gh = some (c, g) → w.trans k = some (c, t) →
    g.commit S dbg t = .ok g' → Machine.Commits S dbg t.pending g.get? g'.get?

end Spec
end TTGraph
