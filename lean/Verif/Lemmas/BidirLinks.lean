import Verif.Model.Bidir
import Verif.Lemmas.Schema
import Verif.Spec.Worlds

/-!
# Lemmas on `get_bidiretional_links`
-/

set_option autoImplicit false

namespace TTGraph
open Spec

theorem mapE_ok {α β : Type} {f : α → Except Panic β} {h : α → β} : ∀ {l : List α}, (∀ a ∈ l, f a = .ok (h a)) → mapE f l = .ok (l.map h)
  | [], _ => rfl
  | a :: l, hf => by
    rw [mapE, hf a (by simp), mapE_ok fun b hb => hf b (by simp [hb])]
    rfl

namespace Schema
variable {S : Schema}

theorem mem_bLinkNames {v l : Ident} : l ∈ S.bLinkNames v ↔ ∃ e ∈ S.expandedBidirs, (e.var1 = v ∧ e.link1 = l) ∨ (e.var2 = v ∧ e.link2 = l) := by
  simp only [bLinkNames, List.mem_dedup, List.mem_flatMap, List.mem_append]
  constructor
  · rintro ⟨e, he, h | h⟩
    · split at h
      · exact ⟨e, he, .inl ⟨by assumption, (List.mem_singleton.1 h).symm⟩⟩
      · exact absurd h (by simp)
    · split at h
      · exact ⟨e, he, .inr ⟨by assumption, (List.mem_singleton.1 h).symm⟩⟩
      · exact absurd h (by simp)
  · rintro ⟨e, he, ⟨h1, h2⟩ | ⟨h1, h2⟩⟩
    · exact ⟨e, he, .inl (by simp [h1, h2])⟩
    · exact ⟨e, he, .inr (by simp [h1, h2])⟩

/-- The fields that `get_bidiretional_links` looks at include all those that have an opposite. -/
theorem mem_bidirFields (h : WellNamed S) {m m' : Mirror} (ho : Opposite S m m') :
    m ∈ (S.bLinkNames m.disc).flatMap fun log => S.expandLog m.disc log := by
  obtain ⟨l, hl, ho⟩ := ho
  have key : ∀ v k v2 k2 : Ident, Names S v k m → Names S v2 k2 m' →
      (∃ e ∈ S.expandedBidirs, (e.var1 = m.disc ∧ e.link1 = k) ∨ (e.var2 = m.disc ∧ e.link2 = k)) →
      m ∈ (S.bLinkNames m.disc).flatMap fun log => S.expandLog m.disc log := by
    rintro v k v2 k2 ⟨_, sd, hsd, hf⟩ - he
    exact List.mem_flatMap.2 ⟨k, mem_bLinkNames.2 he, (mem_expandLog h).2 ⟨rfl, sd, hsd, hf⟩⟩
  rcases ho with ⟨h1, h2⟩ | ⟨h1, h2⟩
  · exact key _ _ _ _ h1 h2 ⟨⟨m.disc, l.link1, m'.disc, l.link2⟩, mem_expandedBidirs.2
      ⟨l, hl, ((mem_expandVar h).2 h1.1).1, rfl, ((mem_expandVar h).2 h2.1).1, rfl⟩, .inl ⟨rfl, rfl⟩⟩
  · exact key _ _ _ _ h2 h1 ⟨⟨m'.disc, l.link1, m.disc, l.link2⟩, mem_expandedBidirs.2
      ⟨l, hl, ((mem_expandVar h).2 h1.1).1, rfl, ((mem_expandVar h).2 h2.1).1, rfl⟩, .inr ⟨rfl, rfl⟩⟩

end Schema

theorem LinkVal.mem_iterLinks {v : LinkVal} {y : NodeIndex} : y ∈ v.iterLinks ↔ ∃ slot, v.Holds slot y := by
  cases v with
  | direct i =>
    simp only [LinkVal.iterLinks, LinkVal.Holds]
    by_cases h : i = emptyIdx
    · simp only [h, if_true, List.not_mem_nil, false_iff]
      rintro ⟨_, _, h1, h2⟩
      exact h2 h1.symm
    · simp only [h, if_false, List.mem_singleton]
      exact ⟨fun e => ⟨0, rfl, e.symm, e ▸ h⟩, fun ⟨_, _, e, _⟩ => e.symm⟩
  | set s => simp [LinkVal.iterLinks, LinkVal.Holds]
  | vec l =>
    simp only [LinkVal.iterLinks, LinkVal.Holds, List.mem_filter, decide_eq_true_eq, exists_and_right]
    exact and_congr_left fun _ => List.mem_iff_getElem?

/-- The entries: one for each field that is looked at. -/
theorem Node.bidirLinks_entries {S : Schema} (h : WellNamed S) (n : Node) : ∃ l, n.bidirLinks S = .ok l ∧
    (∀ e ∈ l, ∃ m, m.disc = n.disc ∧ (∀ y, y ∈ e.1 ↔ n.HasLink m y) ∧ ∀ m', m' ∈ e.2 ↔ Opposite S m m') ∧
    ∀ m m', m.disc = n.disc → Opposite S m m' → ∃ e ∈ l, (∀ y, y ∈ e.1 ↔ n.HasLink m y) ∧ ∀ q, q ∈ e.2 ↔ Opposite S m q := by
  have hd : ∀ m ∈ (S.bLinkNames n.disc).flatMap (fun log => S.expandLog n.disc log), m.disc = n.disc := by
    intro m hm
    obtain ⟨log, _, hm⟩ := List.mem_flatMap.1 hm
    exact ((Schema.mem_expandLog h).1 hm).1
  have hlk : ∀ m : Mirror, m.disc = n.disc → ∀ y, y ∈ ((n.links[m.pos]?).map LinkVal.iterLinks).getD [] ↔ n.HasLink m y := by
    intro m hm y
    cases hv : n.links[m.pos]? with
    | none =>
      simp only [Option.map_none, Option.getD_none, List.not_mem_nil, false_iff]
      rintro ⟨slot, _, v, hv', _⟩
      rw [hv] at hv'; exact absurd hv' (by simp)
    | some v =>
      simp only [Option.map_some, Option.getD_some, LinkVal.mem_iterLinks]
      exact ⟨fun ⟨s, hs⟩ => ⟨s, hm, v, hv, hs⟩, fun ⟨s, _, v', hv', hs⟩ => ⟨s, by
        have : v = v' := Option.some.inj (hv.symm.trans hv')
        exact this ▸ hs⟩⟩
  have hok := mapE_ok (f := fun m => match n.iterLinks m with | .error e => .error e | .ok ys => .ok (ys, S.mirrorsOf m))
    (h := fun m => (((n.links[m.pos]?).map LinkVal.iterLinks).getD [], S.mirrorsOf m))
    (l := (S.bLinkNames n.disc).flatMap fun log => S.expandLog n.disc log) (fun m hm => by
      simp only [Node.iterLinks, hd m hm, if_true]
      cases n.links[m.pos]? <;> rfl)
  refine ⟨_, hok, fun e he => ?_, fun m m' hm ho => ?_⟩
  · obtain ⟨m, hm, rfl⟩ := List.mem_map.1 he
    exact ⟨m, hd m hm, hlk m (hd m hm), fun m' => Schema.mem_mirrorsOf h⟩
  · exact ⟨_, List.mem_map.2 ⟨m, hm ▸ Schema.mem_bidirFields h ho, rfl⟩, hlk m hm, fun q => Schema.mem_mirrorsOf h⟩

end TTGraph
