import Verif.Model.SwitchDraws
import Verif.Lemmas.Switched

/-!
# `switch_context` with arbitrary draws
-/

set_option autoImplicit false

namespace TTGraph
namespace Graph

open Spec

variable {S : Schema} {e0 : Prop}

/-- What the first loop has built from the nodes and draws `L`. -/
structure DrawIn (S : Schema) (L : List ((NodeIndex × Node) × Nat)) (st : Arena × OrderMap NodeIndex NodeIndex) : Prop where
  inv : st.1.Inv S
  typed : st.1.Typed
  disp : ∀ j : Nat, st.1.disp.get? j ≠ none ↔ ∃ q ∈ L, j = q.2 + 1
  map : st.2.entries = L.map fun q => (q.1.1, q.2 + 1)
  get : ∀ (j : Nat) n, st.1.get? j = some n ↔ ∃ q ∈ L, q.1.2 = n ∧ j = q.2 + 1

theorem drawIn_total (L : List ((NodeIndex × Node) × Nat)) (hE : (L.map fun q => q.1.1).Nodup) (hD : (L.map Prod.snd).Nodup)
    (hd : ∀ e ∈ L, e.1.2.disc ∈ S.discs) :
    ∃ st, foldE (fun (st : Arena × OrderMap NodeIndex NodeIndex) (e : (NodeIndex × Node) × Nat) =>
      match st.1.insert e.2 e.1.2 with
      | .error p => .error p
      | .ok (new, a, _) => .ok (a, st.2.insert e.1.1 new)) (Arena.new, OrderMap.empty) L = .ok st ∧ DrawIn S L st := by
  apply foldE_total (P := fun pre (st : Arena × OrderMap NodeIndex NodeIndex) => DrawIn S pre st)
  · refine ⟨Arena.new_inv S, Arena.new_typed, ?_, by simp [OrderMap.empty], ?_⟩
    · intro j; simp [Arena.new]
    · intro j n; simp
  · rintro pre e post ⟨a, m⟩ rfl h
    have hnew : ∀ q ∈ pre, q.2 ≠ e.2 := by
      intro q hq he
      simp only [List.map_append, List.map_cons, List.nodup_append] at hD
      exact hD.2.2 _ (List.mem_map_of_mem hq) _ (by simp) he
    have hfresh : a.disp.get? (e.2 + 1) = none := by
      by_contra hne
      obtain ⟨q, hq, h1⟩ := (h.disp (e.2 + 1)).1 hne
      exact hnew q hq (by omega)
    refine ⟨(a.store (e.2 + 1) e.1.2, m.insert e.1.1 (e.2 + 1)), ?_, ?_⟩
    · simp only [Arena.insert_ok h.inv hfresh e.1.2]
    · have hm : m.entries = pre.map fun q => (q.1.1, q.2 + 1) := h.map
      have hmk : e.1.1 ∉ m.entries.map Prod.fst := by
        rw [hm, List.map_map]
        intro hq
        obtain ⟨q, hq, h1⟩ := List.mem_map.1 hq
        simp only [List.map_append, List.map_cons, List.nodup_append] at hE
        exact hE.2.2 _ (List.mem_map_of_mem (f := fun q : (NodeIndex × Node) × Nat => q.1.1) hq) _ (by simp) h1
      refine ⟨?_, ?_, ?_, ?_, ?_⟩
      · exact Arena.store_inv h.inv (hd e (by simp)) fun d => h.inv.cont_none hfresh d
      · exact Arena.store_typed h.typed _ _
      · intro j
        simp only [Arena.store_disp, List.mem_append, List.mem_singleton, or_and_right, exists_or, exists_eq_left]
        by_cases hj : e.2 + 1 = j
        · simp [hj]
        · simp only [hj, if_false]
          rw [h.disp j]
          constructor
          · exact Or.inl
          · rintro (h1 | h1)
            · exact h1
            · exact absurd h1.symm hj
      · show alSet e.1.1 (e.2 + 1) m.entries = _
        rw [alSet_absent _ hmk, hm]
        simp only [List.map_append, List.map_cons, List.map_nil]
      · intro j n
        simp only [Arena.store_get?, List.mem_append, List.mem_singleton, or_and_right, exists_or, exists_eq_left]
        by_cases hj : e.2 + 1 = j
        · simp only [hj, if_true, Option.some.injEq]
          constructor
          · exact fun h1 => Or.inr ⟨h1, trivial⟩
          · rintro (⟨q, hq, _, h1⟩ | h1)
            · exact absurd (by omega) (hnew q hq)
            · exact h1.1
        · simp only [hj, if_false]
          rw [h.get j n]
          constructor
          · exact Or.inl
          · rintro (h1 | h1)
            · exact h1
            · exact absurd h1.2.symm hj

/-- The new index of an old one, by the position in the iteration. -/
theorem DrawIn.map_get {L : List ((NodeIndex × Node) × Nat)} {st : Arena × OrderMap NodeIndex NodeIndex} (h : DrawIn S L st) (i j : Nat) :
    st.2.get? i = some j ↔ ∃ q ∈ L, q.1.1 = i ∧ j = q.2 + 1 := by
  rw [OrderMap.get?_eq_some, h.map]
  simp only [List.mem_map, Prod.mk.injEq]
  constructor
  · rintro ⟨q, h1, h2, h3⟩; exact ⟨q, h1, h2, h3.symm⟩
  · rintro ⟨q, h1, h2, h3⟩; exact ⟨q, h1, h2, h3.symm⟩

theorem zip_nodup {α β : Type} {l : List α} {k : List β} (h : l.length = k.length) :
    (l.zip k).map Prod.fst = l ∧ (l.zip k).map Prod.snd = k :=
  ⟨List.map_fst_zip (by omega), List.map_snd_zip (by omega)⟩

/-- What the two loops leave. -/
structure DrawOut (S : Schema) (g : Graph) (draws : List Nat) (idMap : OrderMap NodeIndex NodeIndex) (a : Arena) : Prop where
  keys : ∀ i, idMap.get? i ≠ none ↔ g.get? i ≠ none
  order : idMap.keys = (g.iter S).map Prod.fst
  values : ∀ (p : Nat) i c, ((g.iter S).map Prod.fst)[p]? = some i → draws[p]? = some c → idMap.get? i = some (c + 1)
  pos : ∀ i j : Nat, idMap.get? i = some j → ∃ (p : Nat) (c : Nat), ((g.iter S).map Prod.fst)[p]? = some i ∧ draws[p]? = some c ∧ j = c + 1
  inj : ∀ i i' j, idMap.get? i = some j → idMap.get? i' = some j → i = i'
  onto : ∀ j, a.get? j ≠ none → ∃ i n, g.get? i = some n ∧ idMap.get? i = some j
  noEmpty : a.get? emptyIdx = none
  wt : ∀ x n, a.get? x = some n → S.WT n
  drawn : ∀ j : Nat, a.disp.get? j ≠ none → ∃ d ∈ draws, j = d + 1
  inv : a.Inv S
  moved : ∃ a0, Moved S g idMap a0 (LostIn g idMap idMap.keys) (fun _ _ u => idMap.get? u ≠ none) a

theorem switchDraws_ok [SetImpl] (hS : S.discs.Nodup) {g : Graph} (h : g.Inv S e0) {draws : List Nat} (hn : draws.Nodup)
    (hl : draws.length = (g.iter S).length) :
    ∃ a0 idMap a, switchInsertDraws S g draws = .ok (a0, idMap) ∧ foldE (switchNode g.back idMap) a0 idMap.entries = .ok a ∧
      DrawOut S g draws idMap a := by
  have hE : ∀ i n, (i, n) ∈ g.iter S ↔ g.get? i = some n := fun i n => Arena.mem_entries h.arena
  have hEn : ((g.iter S).map Prod.fst).Nodup := Arena.entries_nodup hS h.arena
  obtain ⟨z1, z2⟩ := zip_nodup hl.symm
  obtain ⟨⟨a0, idMap⟩, h1, h2⟩ := drawIn_total (S := S) ((g.nodes.entries S).zip draws)
    (by
      have : (((g.iter S).zip draws).map fun q => q.1.1) = (g.iter S).map Prod.fst := by
        conv => rhs; rw [← z1]
        rw [List.map_map]; rfl
      exact this ▸ hEn)
    (by
      have z2' : ((g.nodes.entries S).zip draws).map Prod.snd = draws := z2
      rw [z2']; exact hn)
    (by
      intro e he
      have := (List.of_mem_zip he).1
      exact (h.wt _ _ ((hE e.1.1 e.1.2).1 this)).disc)
  have hpos : ∀ i j : Nat, idMap.get? i = some j → ∃ (p : Nat) (n : Node) (c : Nat), (g.iter S)[p]? = some (i, n) ∧ draws[p]? = some c ∧ j = c + 1 := by
    intro i j hj
    obtain ⟨⟨⟨i', n⟩, c⟩, hq, rfl, h3⟩ := (h2.map_get i j).1 hj
    obtain ⟨p, hp⟩ := List.getElem?_of_mem hq
    rw [List.getElem?_zip_eq_some] at hp
    exact ⟨p, n, c, hp.1, hp.2, h3⟩
  have hval : ∀ (p : Nat) i n c, (g.iter S)[p]? = some (i, n) → draws[p]? = some c → idMap.get? i = some (c + 1) := by
    intro p i n c h3 h4
    exact (h2.map_get i (c + 1)).2 ⟨((i, n), c), List.mem_of_getElem? (List.getElem?_zip_eq_some.2 ⟨h3, h4⟩), rfl, rfl⟩
  have hkeys : ∀ i, idMap.get? i ≠ none ↔ g.get? i ≠ none := by
    intro i
    rw [Option.ne_none_iff_exists', Option.ne_none_iff_exists']
    constructor
    · rintro ⟨j, hj⟩
      obtain ⟨p, n, c, h3, _⟩ := hpos i j hj
      exact ⟨n, (hE i n).1 (List.mem_of_getElem? h3)⟩
    · rintro ⟨n, hn⟩
      obtain ⟨p, hp⟩ := List.getElem?_of_mem ((hE i n).2 hn)
      have hlt := (List.getElem?_eq_some_iff.1 hp).1
      exact ⟨_, hval p i n _ hp (List.getElem?_eq_getElem (by omega))⟩
  have hinj : ∀ i i' j, idMap.get? i = some j → idMap.get? i' = some j → i = i' := by
    intro i i' j hi hi'
    obtain ⟨p, n, c, h3, h4, h5⟩ := hpos i j hi
    obtain ⟨p', n', c', h6, h7, h8⟩ := hpos i' j hi'
    have hc : c = c' := by have := h5.symm.trans h8; exact Nat.succ.inj this
    subst hc
    have hp : p = p' := (List.getElem?_inj (List.getElem?_eq_some_iff.1 h4).1 hn).1 (h4.trans h7.symm)
    subst hp
    rw [h3] at h6
    simp only [Option.some.injEq, Prod.mk.injEq] at h6
    exact h6.1
  have hne : ∀ i j, idMap.get? i = some j → j ≠ emptyIdx := by
    intro i j hj
    obtain ⟨p, n, c, _, _, h5⟩ := hpos i j hj
    rw [h5]
    exact Nat.succ_ne_zero c
  have hget : ∀ i n j, g.get? i = some n → idMap.get? i = some j → a0.get? j = some n := by
    intro i n j hi hj
    obtain ⟨p, n', c, h3, h4, h5⟩ := hpos i j hj
    have hn' := (hE i n').1 (List.mem_of_getElem? h3)
    rw [hi] at hn'
    simp only [Option.some.injEq] at hn'
    subst hn'
    exact (h2.get j n).2 ⟨((i, n), c), List.mem_of_getElem? (List.getElem?_zip_eq_some.2 ⟨h3, h4⟩), rfl, h5⟩
  obtain ⟨a, h3, h4⟩ := switchLoop_ok h hkeys hinj hne h2.inv h2.typed hget
  have honto : ∀ j, a.get? j ≠ none → ∃ i n, g.get? i = some n ∧ idMap.get? i = some j := by
    intro j hj
    have : a0.get? j ≠ none := fun e => hj ((h4.absent j).2 e)
    obtain ⟨n, hn⟩ := Option.ne_none_iff_exists'.1 this
    obtain ⟨⟨⟨i, n'⟩, c⟩, hq, h5, h6⟩ := (h2.get j n).1 hn
    simp only at h5
    subst h5
    exact ⟨i, n', (hE i n').1 (List.of_mem_zip hq).1, (h2.map_get i j).2 ⟨_, hq, rfl, h6⟩⟩
  have hdrawn : ∀ j : Nat, a.disp.get? j ≠ none → ∃ d ∈ draws, j = d + 1 := by
    intro j hj
    rw [h4.disp] at hj
    obtain ⟨q, hq, e⟩ := (h2.disp j).1 hj
    exact ⟨q.2, (List.of_mem_zip hq).2, e⟩
  refine ⟨a0, idMap, a, h1, h3, hkeys, ?_, ?_, ?_, hinj, honto, ?_, ?_, hdrawn, h4.inv, a0, h4⟩
  · have e : idMap.keys = idMap.entries.map Prod.fst := rfl
    have hm : idMap.entries = _ := h2.map
    rw [e, hm, List.map_map]
    have z1' : ((g.nodes.entries S).zip draws).map Prod.fst = g.nodes.entries S := z1
    show _ = (g.nodes.entries S).map Prod.fst
    conv => rhs; rw [← z1']
    rw [List.map_map]; rfl
  · intro p i c hp hc
    rw [List.getElem?_map, Option.map_eq_some_iff] at hp
    obtain ⟨⟨i', n⟩, hp, rfl⟩ := hp
    exact hval p i' n c hp hc
  · intro i j hj
    obtain ⟨p, n, c, k1, k2, k3⟩ := hpos i j hj
    exact ⟨p, c, by rw [List.getElem?_map, k1]; rfl, k2, k3⟩
  · by_contra hne0
    obtain ⟨i, n, _, k⟩ := honto emptyIdx hne0
    exact hne i emptyIdx k rfl
  · intro x n hx
    obtain ⟨i, ni, h5, h6⟩ := honto x (by rw [hx]; simp)
    obtain ⟨n', h7, h8, _⟩ := h4.node i ni x h5 h6
    rw [hx] at h7
    simp only [Option.some.injEq] at h7
    subst h7
    exact Schema.wt_of_shape h8 (h.wt _ _ h5)

/-- A link is lost iff its index collides with that of another one at the same place. -/
theorem collisionWith_iff {g : Graph} {draws : List Nat} {idMap : OrderMap NodeIndex NodeIndex} {a : Arena}
    (ho : DrawOut S g draws idMap a) :
    CollisionWith g.get? ((g.iter S).map Prod.fst) (draws.map (· + 1)) ↔
      ∃ y t u, View.Holds g.get? y t u ∧ LostIn g idMap idMap.keys y t u := by
  have hk := ho.order
  constructor
  · rintro ⟨p, q, a, b, h1, h2, h3, h4, x, s, h5, h6⟩
    refine ⟨x, s, a, h5, ((g.iter S).map Prod.fst).take q, b, ((g.iter S).map Prod.fst).drop (q + 1), ?_, ?_, ?_, h6⟩
    · rw [hk]
      obtain ⟨hlt, he⟩ := List.getElem?_eq_some_iff.1 h2
      rw [← he, List.getElem_cons_drop, List.take_append_drop]
    · refine List.mem_of_getElem? (i := p) ?_
      rw [List.getElem?_take]
      simp [h3, h1]
    · rw [List.getElem?_map, Option.map_eq_some_iff] at h4
      obtain ⟨c, h4, rfl⟩ := h4
      exact ho.values p a c h1 h4
  · rintro ⟨y, t, u, h1, pre, v, post, h2, h3, h4, h5⟩
    obtain ⟨p, c, hp, h7, h8⟩ := ho.pos u v h4
    rw [hk] at h2
    refine ⟨p, pre.length, u, v, hp, by rw [h2]; simp, ?_, by rw [List.getElem?_map, h7, h8]; rfl, y, t, h1, h5⟩
    obtain ⟨p', hp'⟩ := List.getElem?_of_mem h3
    have hlt := (List.getElem?_eq_some_iff.1 hp').1
    have hp2 : ((g.iter S).map Prod.fst)[p']? = some u := by rw [h2, List.getElem?_append_left hlt]; exact hp'
    have hnd : ((g.iter S).map Prod.fst).Nodup := by rw [← hk]; exact idMap.nodup
    have hlt1 := (List.getElem?_eq_some_iff.1 hp).1
    have : p = p' := (List.getElem?_inj hlt1 hnd).1 (by rw [hp, hp2])
    omega

theorem DrawOut.isomorphic {g : Graph} {e0 : Prop} {draws : List Nat} {idMap : OrderMap NodeIndex NodeIndex} {a : Arena} (h : g.Inv S e0)
    (ho : DrawOut S g draws idMap a) (hI : Internal g.get?)
    (hc : ¬ CollisionWith g.get? ((g.iter S).map Prod.fst) (draws.map (· + 1))) : Isomorphic (rename idMap) g.get? a.get? := by
  obtain ⟨a0, hm⟩ := ho.moved
  have he : idMap.get? emptyIdx = none := by
    by_contra hne
    exact (ho.keys emptyIdx).1 hne h.noEmpty
  have hex : ∀ x, g.get? x ≠ none → ∃ x', idMap.get? x = some x' := fun x hx => Option.ne_none_iff_exists'.1 ((ho.keys x).2 hx)
  refine ⟨by simp [rename, he], ?_, ?_, ?_⟩
  · intro x y hx hy hxy
    obtain ⟨x', hx'⟩ := hex x hx
    obtain ⟨y', hy'⟩ := hex y hy
    rw [rename_some hx', rename_some hy'] at hxy
    subst hxy
    exact ho.inj _ _ _ hx' hy'
  · intro x n hn
    obtain ⟨x', hx'⟩ := hex x (by rw [hn]; simp)
    obtain ⟨n', k1, k2, k3⟩ := hm.node x n x' hn hx'
    refine ⟨n', by rw [rename_some hx']; exact k1, Node.renamed_of_holds k2 fun t w => ?_⟩
    rw [k3]
    constructor
    · rintro ⟨u, e1, e2, ⟨e3, rfl⟩ | ⟨e3, e4⟩⟩
      · have hu : w = emptyIdx := (hI x t w ⟨n, hn, e1⟩).resolve_right (fun c => e3 ((ho.keys w).2 c))
        subst hu
        exact ⟨emptyIdx, e1, by simp [rename, he], Or.inr rfl⟩
      · refine ⟨u, e1, rename_some e4, Or.inl ?_⟩
        obtain ⟨_, c, _, _, e5⟩ := ho.pos u w e4
        rw [e5]
        exact Nat.succ_ne_zero c
    · rintro ⟨u, e1, rfl, _⟩
      refine ⟨u, e1, fun hl => hc ((collisionWith_iff ho).2 ⟨x, t, u, ⟨n, hn, e1⟩, hl⟩), ?_⟩
      cases hu : idMap.get? u with
      | none => exact Or.inl ⟨by simp, by simp [rename, hu]⟩
      | some w => exact Or.inr ⟨by simp, by simp [rename, hu]⟩
  · intro x' hx'
    obtain ⟨i, n, k1, k2⟩ := ho.onto x' hx'
    exact ⟨i, by rw [k1]; simp, rename_some k2⟩

/-- `switch_context` that returns. -/
theorem switchDraws_out [SetImpl] (hw : WellNamed S) {g g' : Graph} {newId : Nat} {draws : List Nat} {a0 a : Arena}
    {idMap : OrderMap NodeIndex NodeIndex} (h1 : switchInsertDraws S g draws = .ok (a0, idMap))
    (h2 : foldE (switchNode g.back idMap) a0 idMap.entries = .ok a) (ho : DrawOut S g draws idMap a)
    (hs : switchContextDraws S g newId draws = .ok g') : LoadOut S newId a g' := by
  simp only [switchContextDraws, h1, h2] at hs
  cases h3 : applyBidirectional S (mergeNodes S (Graph.new newId) a Lcr.new).1 (mergeNodes S (Graph.new newId) a Lcr.new).2 with
  | error e => rw [h3] at hs; exact absurd hs (by simp)
  | ok g2 =>
    rw [h3] at hs
    simp only at hs
    cases hlt : checkLinkType S g2 (mergeNodes S (Graph.new newId) a Lcr.new).2 with
    | error e => rw [hlt] at hs; exact absurd hs (by simp)
    | ok u =>
      rw [hlt] at hs
      obtain rfl : g2 = g' := by simpa using hs
      exact load_ok hw ho.inv ho.noEmpty ho.wt h3

/-- It returns if that arena has opposites for all links and satisfies the annotations. -/
theorem switchDraws_answered [SetImpl] (hw : WellNamed S) {g : Graph} (newId : Nat) {draws : List Nat} {a0 a : Arena}
    {idMap : OrderMap NodeIndex NodeIndex} (h1 : switchInsertDraws S g draws = .ok (a0, idMap))
    (h2 : foldE (switchNode g.back idMap) a0 idMap.entries = .ok a) (ho : DrawOut S g draws idMap a) (hans : Answered S a.get?)
    (ht : WellTyped S a.get?) : ∃ g', switchContextDraws S g newId draws = .ok g' ∧ LoadOut S newId a g' := by
  have h3 := load_answered hw ho.inv ho.noEmpty ho.wt hans newId
  have h4 := load_typed hw ho.inv ho.noEmpty ho.wt ht newId
  refine ⟨_, ?_, load_ok hw ho.inv ho.noEmpty ho.wt h3⟩
  simp only [switchContextDraws, h1, h2, h3, h4]

/-- `switch_context` that returns, node by node. -/
theorem switchDraws_nodes [SetImpl] (hw : WellNamed S) {g g' : Graph} {u : Nat} {draws : List Nat} (inv : g.Inv S e0) (hn : draws.Nodup)
    (hl : draws.length = g.len S) (hs : g.switchContextDraws S u draws = .ok g') :
    g'.ctxId = u ∧ ∃ ρ : NodeIndex → NodeIndex,
      (∀ (p : Nat) (i : NodeIndex) (c : Nat), ((g.iter S).map Prod.fst)[p]? = some i → draws[p]? = some c → ρ i = c + 1) ∧
      (∀ x y, g.get? x ≠ none → g.get? y ≠ none → ρ x = ρ y → x = y) ∧
      (∀ x', g'.get? x' ≠ none → ∃ x, g.get? x ≠ none ∧ ρ x = x') ∧
      ∀ x n, g.get? x = some n → ∃ n', g'.get? (ρ x) = some n' ∧ n'.shape = n.shape := by
  rw [show g.len S = (g.iter S).length from Arena.len_eq S g.nodes] at hl
  obtain ⟨a0, idMap, a, h1, h2, h3⟩ := switchDraws_ok hw.variants inv hn hl
  obtain ⟨a1, hm⟩ := h3.moved
  have k2 := switchDraws_out hw h1 h2 h3 hs
  · refine ⟨k2.ctx, rename idMap, fun p i c hp hc => rename_some (h3.values p i c hp hc), ?_, ?_, ?_⟩
    · intro x y hx hy hxy
      obtain ⟨x', hx'⟩ := Option.ne_none_iff_exists'.1 ((h3.keys x).2 hx)
      obtain ⟨y', hy'⟩ := Option.ne_none_iff_exists'.1 ((h3.keys y).2 hy)
      rw [rename_some hx', rename_some hy'] at hxy
      subst hxy
      exact h3.inj _ _ _ hx' hy'
    · intro x' hx'
      obtain ⟨i, n, k3, k4⟩ := h3.onto x' (fun e => hx' ((LoadOut.none_iff k2 x').2 e))
      exact ⟨i, by rw [k3]; simp, rename_some k4⟩
    · intro x n hn
      obtain ⟨x', hx'⟩ := Option.ne_none_iff_exists'.1 ((h3.keys x).2 (by rw [hn]; simp))
      obtain ⟨n', k3, k4, _⟩ := hm.node x n x' hn hx'
      rw [rename_some hx']
      have := k2.same.1 x'
      rw [k3] at this
      cases hg : g'.get? x' with
      | none => rw [hg] at this; exact absurd this (by simp)
      | some n2 =>
        rw [hg] at this
        simp only [Option.map_some, Option.some.injEq] at this
        exact ⟨n2, rfl, this.trans k4⟩

/-- It returns an isomorphic graph if no old index collides with a new one. -/
theorem switchDraws_iso [SetImpl] (hw : WellNamed S) {g : Graph} (u : Nat) {draws : List Nat} (inv : g.Inv S e0) (hn : draws.Nodup)
    (hl : draws.length = g.len S) (hI : Internal g.get?) (ha : Answered S g.get?) (ht : WellTyped S g.get?)
    (hc : ¬ CollisionWith g.get? ((g.iter S).map Prod.fst) (draws.map (· + 1))) :
    ∃ g' ρ, g.switchContextDraws S u draws = .ok g' ∧
      (∀ (p : Nat) (i : NodeIndex) (c : Nat), ((g.iter S).map Prod.fst)[p]? = some i → draws[p]? = some c → ρ i = c + 1) ∧
      Isomorphic ρ g.get? g'.get? := by
  rw [show g.len S = (g.iter S).length from Arena.len_eq S g.nodes] at hl
  obtain ⟨a0, idMap, a, h1, h2, h3⟩ := switchDraws_ok hw.variants inv hn hl
  have hiso := h3.isomorphic inv hI hc
  have hans := hiso.answered hI h3.noEmpty ha
  obtain ⟨g', k1, k2⟩ := switchDraws_answered hw u h1 h2 h3 hans (hiso.wellTyped hI h3.noEmpty ht)
  exact ⟨g', _, k1, fun p i c hp hc => rename_some (h3.values p i c hp hc), hiso.same (hans.same h3.wt k2.completion)⟩

end Graph
end TTGraph
