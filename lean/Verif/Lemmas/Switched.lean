import Verif.Lemmas.Loaded
import Verif.Lemmas.Meets

/-!
# `switch_context` against its specification
-/

set_option autoImplicit false

namespace TTGraph
namespace Graph

open Spec

variable {S : Schema} {e0 : Prop} {g : Graph} {idMap : OrderMap NodeIndex NodeIndex} {cnt : Nat} {a0 : Arena}

/-- The new index of an old one. -/
def rename (idMap : OrderMap NodeIndex NodeIndex) (u : NodeIndex) : NodeIndex := (idMap.get? u).getD u

theorem rename_some {u w : NodeIndex} (h : idMap.get? u = some w) : rename idMap u = w := by simp [rename, h]

theorem SwitchIn.keys {E : List (NodeIndex × Node)} {st : Arena × OrderMap NodeIndex NodeIndex × Nat} (h : SwitchIn S E cnt st) :
    st.2.1.keys = E.map Prod.fst := by
  have e : st.2.1.keys = st.2.1.entries.map Prod.fst := rfl
  rw [e, h.map, List.map_map]
  have : (Prod.fst ∘ fun q : (NodeIndex × Node) × Nat => (q.1.1, newIndex cnt q.2)) = Prod.fst ∘ Prod.fst := rfl
  rw [this, ← List.map_map]
  congr 1
  exact List.zipIdx_map_fst 0 E

/-- A link is lost iff its index collides with that of another one at the same place. -/
theorem collision_iff (hin : SwitchIn S (g.iter S) cnt (a0, idMap, cnt + (g.iter S).length)) :
    Collision g.get? ((g.iter S).map Prod.fst) cnt ↔ ∃ y t u, View.Holds g.get? y t u ∧ LostIn g idMap idMap.keys y t u := by
  have hk : idMap.keys = (g.iter S).map Prod.fst := hin.keys
  constructor
  · rintro ⟨p, q, a, b, h1, h2, h3, h4, x, s, h5, h6⟩
    refine ⟨x, s, a, h5, ((g.iter S).map Prod.fst).take q, b, ((g.iter S).map Prod.fst).drop (q + 1), ?_, ?_, ?_, h6⟩
    · rw [hk]
      obtain ⟨hlt, he⟩ := List.getElem?_eq_some_iff.1 h2
      rw [← he, List.getElem_cons_drop, List.take_append_drop]
    · refine List.mem_of_getElem? (i := p) ?_
      rw [List.getElem?_take]
      simp [h3, h1]
    · rw [List.getElem?_map, Option.map_eq_some_iff] at h1
      obtain ⟨⟨i, n⟩, h7, rfl⟩ := h1
      exact (hin.map_get i b).2 ⟨p, n, h7, h4⟩
  · rintro ⟨y, t, u, h1, pre, v, post, h2, h3, h4, h5⟩
    obtain ⟨p, n, h6, h7⟩ := (hin.map_get u v).1 h4
    have hp : ((g.iter S).map Prod.fst)[p]? = some u := by rw [List.getElem?_map, h6]; rfl
    rw [hk] at h2
    refine ⟨p, pre.length, u, v, hp, by rw [h2]; simp, ?_, h7, y, t, h1, h5⟩
    obtain ⟨p', hp'⟩ := List.getElem?_of_mem h3
    have hlt := (List.getElem?_eq_some_iff.1 hp').1
    have hp2 : ((g.iter S).map Prod.fst)[p']? = some u := by rw [h2, List.getElem?_append_left hlt]; exact hp'
    have hnd : ((g.iter S).map Prod.fst).Nodup := by rw [← hk]; exact idMap.nodup
    have hlt1 := (List.getElem?_eq_some_iff.1 hp).1
    have : p = p' := (List.getElem?_inj hlt1 hnd).1 (by rw [hp, hp2])
    omega

/-- The nodes after the two loops are isomorphic to those before, if no links collide. -/
theorem Moved.isomorphic {a : Arena} (h : g.Inv S e0) (hin : SwitchIn S (g.iter S) cnt (a0, idMap, cnt + (g.iter S).length))
    (h2 : ∀ i, idMap.get? i ≠ none ↔ g.get? i ≠ none) (h3 : ∀ i i' j, idMap.get? i = some j → idMap.get? i' = some j → i = i')
    (h4 : ∀ i j : Nat, idMap.get? i = some j → cnt < j ∧ j ≤ cnt + (g.iter S).length)
    (hm : Moved S g idMap a0 (LostIn g idMap idMap.keys) (fun _ _ u => idMap.get? u ≠ none) a) (hI : Internal g.get?)
    (hc : ¬ Collision g.get? ((g.iter S).map Prod.fst) cnt) : Isomorphic (rename idMap) g.get? a.get? := by
  have he : idMap.get? emptyIdx = none := by
    by_contra hne
    exact (h2 emptyIdx).1 hne h.noEmpty
  have hex : ∀ x, g.get? x ≠ none → ∃ x', idMap.get? x = some x' := fun x hx => Option.ne_none_iff_exists'.1 ((h2 x).2 hx)
  refine ⟨by simp [rename, he], ?_, ?_, ?_⟩
  · intro x y hx hy hxy
    obtain ⟨x', hx'⟩ := hex x hx
    obtain ⟨y', hy'⟩ := hex y hy
    rw [rename_some hx', rename_some hy'] at hxy
    subst hxy
    exact h3 _ _ _ hx' hy'
  · intro x n hn
    obtain ⟨x', hx'⟩ := hex x (by rw [hn]; simp)
    obtain ⟨n', k1, k2, k3⟩ := hm.node x n x' hn hx'
    refine ⟨n', by rw [rename_some hx']; exact k1, Node.renamed_of_holds k2 fun t w => ?_⟩
    rw [k3]
    constructor
    · rintro ⟨u, e1, e2, ⟨e3, rfl⟩ | ⟨e3, e4⟩⟩
      · have hu : w = emptyIdx := (hI x t w ⟨n, hn, e1⟩).resolve_right (fun c => e3 ((h2 w).2 c))
        subst hu
        exact ⟨emptyIdx, e1, by simp [rename, he], Or.inr rfl⟩
      · refine ⟨u, e1, rename_some e4, Or.inl ?_⟩
        have := h4 u w e4
        rintro rfl
        exact absurd this.1 (Nat.not_lt_zero _)
    · rintro ⟨u, e1, rfl, _⟩
      refine ⟨u, e1, fun hl => hc ((collision_iff hin).2 ⟨x, t, u, ⟨n, hn, e1⟩, hl⟩), ?_⟩
      cases hu : idMap.get? u with
      | none => exact Or.inl ⟨by simp, by simp [rename, hu]⟩
      | some w => exact Or.inr ⟨by simp, by simp [rename, hu]⟩
  · intro x' hx'
    obtain ⟨i, n, k1, k2⟩ := (hm.good h hin).1 x' hx'
    exact ⟨i, by rw [k1]; simp, rename_some k2⟩

/-- Where links collide, the nodes are not isomorphic. -/
theorem Moved.not_isomorphic {a : Arena} (h : g.Inv S e0) (hin : SwitchIn S (g.iter S) cnt (a0, idMap, cnt + (g.iter S).length))
    (h2 : ∀ i, idMap.get? i ≠ none ↔ g.get? i ≠ none) (h3 : ∀ i i' j, idMap.get? i = some j → idMap.get? i' = some j → i = i')
    (h4 : ∀ i j : Nat, idMap.get? i = some j → cnt < j ∧ j ≤ cnt + (g.iter S).length)
    (hm : Moved S g idMap a0 (LostIn g idMap idMap.keys) (fun _ _ u => idMap.get? u ≠ none) a) (hI : Internal g.get?)
    (hc : Collision g.get? ((g.iter S).map Prod.fst) cnt) : ¬ Isomorphic (rename idMap) g.get? a.get? := by
  intro hiso
  have he : idMap.get? emptyIdx = none := by
    by_contra hne
    exact (h2 emptyIdx).1 hne h.noEmpty
  obtain ⟨y, t, u, ⟨n, hn, hu⟩, hl⟩ := (collision_iff hin).1 hc
  obtain ⟨n1, k1, k2⟩ := hiso.node y n hn
  obtain ⟨y', hy'⟩ := Option.ne_none_iff_exists'.1 ((h2 y).2 (by rw [hn]; simp))
  rw [rename_some hy'] at k1
  obtain ⟨n2, k3, k4, k5⟩ := hm.node y n y' hn hy'
  rw [k1, Option.some.injEq] at k3
  subst k3
  obtain ⟨pre, v, post, l1, l2, l3, l4⟩ := id hl
  have hv0 : v ≠ emptyIdx := by
    rintro rfl
    exact absurd (h4 u emptyIdx l3).1 (Nat.not_lt_zero _)
  have hold : n1.Holds t v := (k2.holds t v).2 ⟨u, hu, rename_some l3, Or.inl hv0⟩
  obtain ⟨u', e1, e2, ⟨e3, e4⟩ | ⟨e3, e4⟩⟩ := (k5 t v).1 hold
  · subst e4
    rcases hI y t v ⟨n, hn, e1⟩ with e | e
    · exact hv0 e
    · exact e3 ((h2 v).2 e)
  · rw [h3 _ _ _ e4 l3] at e2
    exact e2 hl

end Graph
end TTGraph
