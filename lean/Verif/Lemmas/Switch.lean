import Verif.Lemmas.Load

/-!
# `new_from_iter` and the two loops of `switch_context`
-/

set_option autoImplicit false

namespace TTGraph

theorem alSet_absent {κ ν : Type} [DecidableEq κ] {k : κ} (v : ν) {l : List (κ × ν)} (h : k ∉ l.map Prod.fst) : alSet k v l = l ++ [(k, v)] := by
  induction l with
  | nil => rfl
  | cons e r ih =>
    obtain ⟨k', v'⟩ := e
    simp only [List.map_cons, List.mem_cons, not_or] at h
    have hne : ¬ k' = k := fun e => h.1 e.symm
    simp only [alSet, hne, if_false, ih h.2, List.cons_append]

namespace Arena
variable {S : Schema}

/-- `new_from_iter` accepts exactly the lists without repeated indices, and stores their nodes. -/
structure FromIter (S : Schema) (l : List (NodeIndex × Node)) (a : Arena) : Prop where
  inv : (∀ e ∈ l, e.2.disc ∈ S.discs) → a.Inv S
  typed : a.Typed
  get : ∀ i n, a.get? i = some n ↔ (i, n) ∈ l
  disp : ∀ i, a.disp.get? i ≠ none ↔ i ∈ l.map Prod.fst

theorem newFromIterStep_ok {a : Arena} {e : NodeIndex × Node} (h1 : a.disp.get? e.1 = none) (h2 : (a.cont e.2.disc).get? e.1 = none) :
    newFromIterStep a e = .ok (a.store e.1 e.2) := by
  have c1 : a.disp.contains e.1 = false := by simp [OrderMap.contains, h1]
  have c2 : (a.cont e.2.disc).contains e.1 = false := by simp [OrderMap.contains, h2]
  simp only [newFromIterStep, c1, Bool.false_eq_true, if_false, c2]
  rfl

theorem newFromIter_cases (S : Schema) (l : List (NodeIndex × Node)) :
    ((l.map Prod.fst).Nodup ∧ ∃ a, newFromIter l = .ok a ∧ FromIter S l a) ∨ (¬ (l.map Prod.fst).Nodup ∧ newFromIter l = .error .dupIndex) := by
  by_cases hnd : (l.map Prod.fst).Nodup
  · left
    refine ⟨hnd, ?_⟩
    suffices hk : ∃ a, foldE newFromIterStep Arena.new l = .ok a ∧ (FromIter S l a ∧ ∀ d i n, (a.cont d).get? i = some n → a.disp.get? i ≠ none) by
      obtain ⟨a, h1, h2⟩ := hk
      exact ⟨a, h1, h2.1⟩
    apply foldE_total (P := fun pre (a : Arena) => FromIter S pre a ∧ ∀ d i n, (a.cont d).get? i = some n → a.disp.get? i ≠ none)
    · refine ⟨⟨fun _ => new_inv S, new_typed, ?_, ?_⟩, ?_⟩
      · intro i n; simp
      · intro i; simp [Arena.new]
      · intro d i n h; simp [Arena.new] at h
    · rintro pre e post a rfl ⟨h, hc⟩
      have hni : e.1 ∉ pre.map Prod.fst := by
        simp only [List.map_append, List.map_cons, List.nodup_append] at hnd
        intro hm
        exact hnd.2.2 _ hm _ (by simp) rfl
      have hd : a.disp.get? e.1 = none := by
        by_contra hne
        exact hni ((h.disp e.1).1 hne)
      have hcn : ∀ d, (a.cont d).get? e.1 = none := by
        intro d
        cases hx : (a.cont d).get? e.1 with
        | none => rfl
        | some n => exact absurd hd (hc d _ n hx)
      refine ⟨a.store e.1 e.2, newFromIterStep_ok hd (hcn _), ⟨?_, ?_, ?_, ?_⟩, ?_⟩
      · intro hl
        exact store_inv (h.inv fun x hx => hl x (by simp [hx])) (hl e (by simp)) hcn
      · exact store_typed h.typed _ _
      · intro i n
        rw [store_get?]
        by_cases hi : e.1 = i
        · subst hi
          simp only [if_true, Option.some.injEq, List.mem_append, List.mem_singleton]
          constructor
          · rintro rfl; exact Or.inr rfl
          · rintro (h1 | h1)
            · exact absurd (List.mem_map_of_mem (f := Prod.fst) h1) hni
            · rw [← h1]
        · simp only [hi, if_false, h.get, List.mem_append, List.mem_singleton]
          constructor
          · exact Or.inl
          · rintro (h1 | h1)
            · exact h1
            · exact absurd (by rw [← h1]) hi
      · intro i
        rw [store_disp]
        by_cases hi : e.1 = i
        · subst hi; simp
        · simp only [hi, if_false, h.disp, List.map_append, List.mem_append, List.map_cons, List.map_nil, List.mem_singleton]
          constructor
          · exact Or.inl
          · rintro (h1 | h1)
            · exact h1
            · exact absurd h1.symm hi
      · intro d i n hx
        rw [store_disp]
        by_cases hi : e.1 = i
        · simp [hi]
        · simp only [hi, if_false]
          by_cases hdd : d = e.2.disc
          · subst hdd
            simp only [store, if_true] at hx
            rw [OrderMap.get?_insert_ne _ _ hi] at hx
            exact hc _ _ _ hx
          · simp only [store, hdd, if_false] at hx
            exact hc _ _ _ hx
  · right
    refine ⟨hnd, ?_⟩
    have key : ∀ (l : List (NodeIndex × Node)) (a : Arena) (pre : List (NodeIndex × Node)), (∀ i ∈ pre.map Prod.fst, a.disp.get? i ≠ none) →
        (pre.map Prod.fst).Nodup → ¬ ((pre ++ l).map Prod.fst).Nodup → foldE newFromIterStep a l = .error .dupIndex := by
      intro l
      induction l with
      | nil => intro a pre h1 h2 h3; simp only [List.append_nil] at h3; exact absurd h2 h3
      | cons e l ih =>
        intro a pre h1 h2 h3
        simp only [foldE]
        by_cases hc1 : a.disp.contains e.1 = true
        · simp [newFromIterStep, hc1]
        · have c1 : a.disp.contains e.1 = false := by simpa using hc1
          by_cases hc2 : (a.cont e.2.disc).contains e.1 = true
          · simp [newFromIterStep, c1, hc2]
          · have c2 : (a.cont e.2.disc).contains e.1 = false := by simpa using hc2
            have e1 : a.disp.get? e.1 = none := by simpa [OrderMap.contains] using c1
            have e2 : (a.cont e.2.disc).get? e.1 = none := by simpa [OrderMap.contains] using c2
            rw [newFromIterStep_ok e1 e2]
            refine ih _ (pre ++ [e]) ?_ ?_ (by simpa using h3)
            · intro i hi
              rw [store_disp]
              by_cases he : e.1 = i
              · simp [he]
              · simp only [he, if_false]
                simp only [List.map_append, List.mem_append, List.map_cons, List.map_nil, List.mem_singleton] at hi
                rcases hi with hi | hi
                · exact h1 i hi
                · exact absurd hi.symm he
            · simp only [List.map_append, List.map_cons, List.map_nil, List.nodup_append]
              refine ⟨h2, by simp, ?_⟩
              intro x hx y hy
              simp only [List.mem_singleton] at hy
              subst hy
              rintro rfl
              exact h1 _ hx e1
    exact key l Arena.new [] (by simp) (by simp) (by simpa using hnd)

end Arena

namespace Graph
variable {S : Schema} {e0 : Prop}

/-- The new index of the node that comes at position `p` of the iteration. -/
def newIndex (cnt p : Nat) : Nat := cnt + 1 + p

/-- The first loop of `switch_context`. -/
structure SwitchIn (S : Schema) (E : List (NodeIndex × Node)) (cnt : Nat) (st : Arena × OrderMap NodeIndex NodeIndex × Nat) : Prop where
  len : st.2.2 = cnt + E.length
  inv : st.1.Inv S
  typed : st.1.Typed
  disp : ∀ j : Nat, st.1.disp.get? j ≠ none ↔ cnt < j ∧ j ≤ st.2.2
  map : st.2.1.entries = E.zipIdx.map fun q => (q.1.1, newIndex cnt q.2)
  get : ∀ (j : Nat) n, st.1.get? j = some n ↔ ∃ p i, E[p]? = some (i, n) ∧ j = newIndex cnt p

theorem switchIn_total (E : List (NodeIndex × Node)) (hE : (E.map Prod.fst).Nodup) (hd : ∀ e ∈ E, e.2.disc ∈ S.discs) (cnt : Nat) :
    ∃ st, foldE (fun (st : Arena × OrderMap NodeIndex NodeIndex × Nat) (e : NodeIndex × Node) =>
    match st.1.insert st.2.2 e.2 with
    | .error p => .error p
    | .ok (new, a, cnt') => .ok (a, st.2.1.insert e.1 new, cnt')) (Arena.new, OrderMap.empty, cnt) E = .ok st ∧ SwitchIn S E cnt st := by
  apply foldE_total (P := fun pre (st : Arena × OrderMap NodeIndex NodeIndex × Nat) => SwitchIn S pre cnt st)
  · refine ⟨by simp, Arena.new_inv S, Arena.new_typed, ?_, by simp [OrderMap.empty], ?_⟩
    · intro j
      simp only [Arena.new, OrderMap.get?_empty, ne_eq, not_true_eq_false, false_iff, not_and]
      intro h1 h2
      omega
    · intro j n; simp
  · rintro pre e post ⟨a, m, c⟩ rfl h
    have hcnt : c = cnt + pre.length := h.len
    have hfresh : a.disp.get? (c + 1) = none := by
      by_contra hne
      have := (h.disp (c + 1)).1 hne
      simp only at this
      omega
    refine ⟨(a.store (c + 1) e.2, m.insert e.1 (c + 1), c + 1), ?_, ?_⟩
    · simp only [Arena.insert_ok h.inv hfresh e.2]
    · have hkey : e.1 ∉ pre.map Prod.fst := by
        simp only [List.map_append, List.map_cons, List.nodup_append] at hE
        intro hm
        exact hE.2.2 _ hm _ (by simp) rfl
      have hmk : e.1 ∉ m.entries.map Prod.fst := by
        have hm : m.entries = pre.zipIdx.map fun q => (q.1.1, newIndex cnt q.2) := h.map
        rw [hm]
        simp only [List.map_map, List.mem_map, Function.comp]
        rintro ⟨q, hq, hq1⟩
        refine hkey ?_
        rw [← hq1]
        have := List.mem_zipIdx' hq
        exact List.mem_map_of_mem (f := Prod.fst) (by rw [this.2]; exact List.getElem_mem _)
      refine ⟨?_, ?_, ?_, ?_, ?_, ?_⟩
      · simp only [List.length_append, List.length_singleton]; omega
      · exact Arena.store_inv h.inv (hd e (by simp)) fun d => h.inv.cont_none hfresh d
      · exact Arena.store_typed h.typed _ _
      · intro j
        simp only [Arena.store_disp]
        by_cases hj : c + 1 = j
        · simp only [hj, if_true]; simp; omega
        · simp only [hj, if_false]
          rw [h.disp j]
          simp only
          omega
      · simp only [OrderMap.insert, alSet_absent _ hmk]
        have hm : m.entries = pre.zipIdx.map fun q => (q.1.1, newIndex cnt q.2) := h.map
        rw [hm, List.zipIdx_append]
        simp only [List.map_append, List.zipIdx_cons, List.zipIdx_nil, List.map_cons, List.map_nil, newIndex]
        have : c + 1 = cnt + 1 + (0 + pre.length) := by omega
        rw [this]
      · intro j n
        simp only [Arena.store_get?]
        have hlast : ∀ p, (pre ++ [e])[p]? = if p = pre.length then some e else pre[p]? := by
          intro p
          by_cases hp : p = pre.length
          · subst hp; simp
          · simp only [hp, if_false]
            by_cases hlt : p < pre.length
            · rw [List.getElem?_append_left hlt]
            · rw [List.getElem?_append_right (by omega)]
              rw [List.getElem?_eq_none (by simp; omega), List.getElem?_eq_none (by omega)]
        by_cases hj : c + 1 = j
        · simp only [hj, if_true, Option.some.injEq]
          constructor
          · rintro rfl
            refine ⟨pre.length, e.1, by simp, ?_⟩
            simp only [newIndex]; omega
          · rintro ⟨p, i, h1, h2⟩
            simp only [newIndex] at h2
            have : p = pre.length := by omega
            subst this
            simp at h1
            rw [h1]
        · simp only [hj, if_false]
          have := h.get j n
          simp only at this
          rw [this]
          constructor
          · rintro ⟨p, i, h1, h2⟩
            refine ⟨p, i, ?_, h2⟩
            rw [hlast]
            have : p < pre.length := (List.getElem?_eq_some_iff.1 h1).1
            rw [if_neg (by omega)]
            exact h1
          · rintro ⟨p, i, h1, h2⟩
            rw [hlast] at h1
            simp only [newIndex] at h2
            have : p ≠ pre.length := by omega
            rw [if_neg this] at h1
            exact ⟨p, i, h1, by simp only [newIndex]; omega⟩

theorem switchInsert_ok (hS : S.discs.Nodup) {g : Graph} (h : g.Inv S e0) (cnt : Nat) :
    ∃ st, switchInsert S g cnt = .ok st ∧ SwitchIn S (g.iter S) cnt st := by
  refine switchIn_total (g.nodes.entries S) (Arena.entries_nodup hS h.arena) ?_ cnt
  intro e he
  exact (h.wt _ _ ((Arena.mem_entries h.arena).1 he)).disc

/-! ### The second loop -/

/-- What the new place holds for the old index `u`: `u` itself before it is processed, then its new index. -/
def Ren (idMap : OrderMap NodeIndex NodeIndex) (p : Prop) (u w : NodeIndex) : Prop := (¬ p ∧ w = u) ∨ (p ∧ idMap.get? u = some w)

/-- The arena during the second loop of `switch_context`; `Pr y t u` says that the link `u` at the place `t` of the old node `y` has been
processed, `Lost y t u` that it has been lost. -/
structure Moved (S : Schema) (g : Graph) (idMap : OrderMap NodeIndex NodeIndex) (a0 : Arena) (Lost Pr : NodeIndex → Source → NodeIndex → Prop)
    (a : Arena) : Prop where
  inv : a.Inv S
  typed : a.Typed
  disp : a.disp = a0.disp
  absent : ∀ j, a.get? j = none ↔ a0.get? j = none
  node : ∀ y n y', g.get? y = some n → idMap.get? y = some y' → ∃ n', a.get? y' = some n' ∧ n'.shape = n.shape ∧
    ∀ t w, n'.Holds t w ↔ ∃ u, n.Holds t u ∧ ¬ Lost y t u ∧ Ren idMap (Pr y t u) u w

variable {g : Graph} {idMap : OrderMap NodeIndex NodeIndex} {a0 : Arena} {Lost : NodeIndex → Source → NodeIndex → Prop}

theorem Moved.congr {Pr Lost' Pr' : NodeIndex → Source → NodeIndex → Prop} {a : Arena} (h : Moved S g idMap a0 Lost Pr a)
    (he : ∀ y n t u, g.get? y = some n → n.Holds t u → ((Pr' y t u ↔ Pr y t u) ∧ (Lost' y t u ↔ Lost y t u))) : Moved S g idMap a0 Lost' Pr' a where
  inv := h.inv
  typed := h.typed
  disp := h.disp
  absent := h.absent
  node := by
    intro y n y' hn hy
    obtain ⟨n', h1, h2, h3⟩ := h.node y n y' hn hy
    refine ⟨n', h1, h2, fun t w => ?_⟩
    rw [h3]
    constructor
    · rintro ⟨u, h5, h6, h7⟩
      obtain ⟨e1, e2⟩ := he y n t u hn h5
      exact ⟨u, h5, by rwa [e2], by simpa only [Ren, e1] using h7⟩
    · rintro ⟨u, h5, h6, h7⟩
      obtain ⟨e1, e2⟩ := he y n t u hn h5
      exact ⟨u, h5, by rwa [e2] at h6, by simpa only [Ren, e1] using h7⟩

theorem Moved.step [SetImpl] {Pr : NodeIndex → Source → NodeIndex → Prop} {a : Arena} (h : Moved S g idMap a0 Lost Pr a)
    (hinj : ∀ i i' j, idMap.get? i = some j → idMap.get? i' = some j → i = i') (hne : ∀ i j, idMap.get? i = some j → j ≠ emptyIdx)
    {y : NodeIndex} {n : Node} {s : Source} {id new y' : NodeIndex} (hy : g.get? y = some n) (hs : n.Holds s id) (hp : ¬ Pr y s id)
    (hl : ¬ Lost y s id) (hid : idMap.get? id = some new) (hy' : idMap.get? y = some y') :
    ∃ a', switchLink idMap id new a (y, s) = .ok a' ∧
      Moved S g idMap a0 (fun z t u => Lost z t u ∨ (z = y ∧ t = s ∧ Pr z t u ∧ idMap.get? u = some id))
        (fun z t u => Pr z t u ∨ (z = y ∧ t = s ∧ u = id)) a' := by
  obtain ⟨n', h1, h2, h3⟩ := h.node y n y' hy hy'
  have hs' : n'.Holds s id := (h3 s id).2 ⟨id, hs, hl, Or.inl ⟨hp, rfl⟩⟩
  obtain ⟨n2, rem, add, m1, m2, m3, _⟩ := Node.modifyLink_spec (new := new) hs'
  obtain ⟨a', k1, k2, k3, k4, k5⟩ := Arena.modifyAt_ok (S := S) (a := a) (i := y') (f := fun n => n.modifyLink s id new) h1 m1
  have hnew := hne _ _ hid
  refine ⟨a', by simp only [switchLink, hy', k1], ?_⟩
  have hdisc : n2.disc = n'.disc := by
    have := m2
    simp only [Node.shape, Prod.mk.injEq] at this
    exact this.1
  refine ⟨k4 h.inv, k5 h.typed hdisc, by rw [k3, h.disp], ?_, ?_⟩
  · intro j
    rw [k2]
    by_cases hj : y' = j
    · subst hj
      rw [← h.absent, h1]; simp
    · simp only [hj, if_false, h.absent]
  · intro z nz z' hz hz'
    by_cases he : z = y
    · subst he
      rw [hy] at hz
      simp only [Option.some.injEq] at hz
      subst hz
      rw [hy'] at hz'
      simp only [Option.some.injEq] at hz'
      subst hz'
      refine ⟨n2, by rw [k2]; simp, m2.trans h2, fun t w => ?_⟩
      rw [m3]
      constructor
      · rintro (⟨hw, hno⟩ | ⟨rfl, rfl, _⟩)
        · obtain ⟨u, h5, h6, h7⟩ := (h3 t w).1 hw
          refine ⟨u, h5, ?_, ?_⟩
          · rintro (h8 | ⟨_, rfl, h8, h9⟩)
            · exact h6 h8
            · rcases h7 with ⟨h7, _⟩ | ⟨_, h7⟩
              · exact h7 h8
              · rw [h9, Option.some.injEq] at h7
                exact hno ⟨rfl, h7.symm⟩
          · rcases h7 with ⟨h7, rfl⟩ | ⟨h7, h8⟩
            · refine Or.inl ⟨?_, rfl⟩
              rintro (h8 | ⟨_, rfl, rfl⟩)
              · exact h7 h8
              · exact hno ⟨rfl, rfl⟩
            · exact Or.inr ⟨Or.inl h7, h8⟩
        · refine ⟨id, hs, ?_, Or.inr ⟨Or.inr ⟨rfl, rfl, rfl⟩, hid⟩⟩
          rintro (h8 | ⟨_, _, h8, _⟩)
          · exact hl h8
          · exact hp h8
      · rintro ⟨u, h5, h6, h7⟩
        by_cases hx : t = s ∧ u = id
        · obtain ⟨rfl, rfl⟩ := hx
          rcases h7 with ⟨h7, _⟩ | ⟨_, h7⟩
          · exact absurd (Or.inr ⟨rfl, rfl, rfl⟩) h7
          · rw [hid] at h7
            simp only [Option.some.injEq] at h7
            exact Or.inr ⟨rfl, h7.symm, hnew⟩
        · have hpr : (Pr z t u ∨ (z = z ∧ t = s ∧ u = id)) ↔ Pr z t u := by
            constructor
            · rintro (h8 | ⟨_, h8⟩)
              · exact h8
              · exact absurd h8 hx
            · exact Or.inl
          have h7' : Ren idMap (Pr z t u) u w := by unfold Ren at h7 ⊢; rwa [hpr] at h7
          refine Or.inl ⟨(h3 t w).2 ⟨u, h5, fun h8 => h6 (Or.inl h8), h7'⟩, ?_⟩
          rintro ⟨rfl, rfl⟩
          rcases h7' with ⟨_, rfl⟩ | ⟨h8, h9⟩
          · exact hx ⟨rfl, rfl⟩
          · exact h6 (Or.inr ⟨rfl, rfl, h8, h9⟩)
    · have hne' : y' ≠ z' := by
        rintro rfl
        exact he (hinj _ _ _ hz' hy')
      obtain ⟨n', h1, h2, h3⟩ := h.node z nz z' hz hz'
      have hpr : ∀ t u, (Pr z t u ∨ (z = y ∧ t = s ∧ u = id)) ↔ Pr z t u := by
        intro t u
        constructor
        · rintro (h8 | ⟨h8, _⟩)
          · exact h8
          · exact absurd h8 he
        · exact Or.inl
      have hlo : ∀ t u, (Lost z t u ∨ (z = y ∧ t = s ∧ Pr z t u ∧ idMap.get? u = some id)) ↔ Lost z t u := by
        intro t u
        constructor
        · rintro (h8 | ⟨h8, _⟩)
          · exact h8
          · exact absurd h8 he
        · exact Or.inl
      refine ⟨n', by rw [k2]; simp [hne', h1], h2, fun t w => ?_⟩
      simp only [h3, Ren, hpr, hlo]

/-- After the keys `l` of the map have been processed, the link `u` at the place `t` of `y` is lost if it has been replaced by its new index
`v`, and then `v`, which the place held too, has been replaced by the new index of `v`. -/
def LostIn (g : Graph) (idMap : OrderMap NodeIndex NodeIndex) (l : List NodeIndex) (y : NodeIndex) (t : Source) (u : NodeIndex) : Prop :=
  ∃ pre v post, l = pre ++ v :: post ∧ u ∈ pre ∧ idMap.get? u = some v ∧ View.Holds g.get? y t v

theorem lostIn_append {l : List NodeIndex} {id : NodeIndex} {y : NodeIndex} {t : Source} {u : NodeIndex} :
    LostIn g idMap (l ++ [id]) y t u ↔ LostIn g idMap l y t u ∨ (u ∈ l ∧ idMap.get? u = some id ∧ View.Holds g.get? y t id) := by
  constructor
  · rintro ⟨pre, v, post, h1, h2, h3, h4⟩
    rcases List.eq_nil_or_concat post with rfl | ⟨post', e, rfl⟩
    · obtain ⟨rfl, h5⟩ := List.append_inj' h1 rfl
      simp only [List.cons.injEq, and_true] at h5
      subst h5
      exact Or.inr ⟨h2, h3, h4⟩
    · have : l ++ [id] = (pre ++ v :: post') ++ [e] := by rw [h1]; simp
      obtain ⟨rfl, _⟩ := List.append_inj' this rfl
      exact Or.inl ⟨pre, v, post', rfl, h2, h3, h4⟩
  · rintro (⟨pre, v, post, rfl, h2, h3, h4⟩ | ⟨h1, h2, h3⟩)
    · exact ⟨pre, v, post ++ [id], by simp, h2, h3, h4⟩
    · exact ⟨l, id, [], rfl, h1, h2, h3⟩

theorem switchLoop_ok [SetImpl] (h : g.Inv S e0) (hkeys : ∀ i, idMap.get? i ≠ none ↔ g.get? i ≠ none)
    (hinj : ∀ i i' j, idMap.get? i = some j → idMap.get? i' = some j → i = i') (hne : ∀ i j, idMap.get? i = some j → j ≠ emptyIdx)
    (hinv : a0.Inv S) (hty : a0.Typed) (hget : ∀ i n j, g.get? i = some n → idMap.get? i = some j → a0.get? j = some n) :
    ∃ a, foldE (switchNode g.back idMap) a0 idMap.entries = .ok a ∧
      Moved S g idMap a0 (LostIn g idMap idMap.keys) (fun _ _ u => idMap.get? u ≠ none) a := by
  suffices hk : ∃ a, foldE (switchNode g.back idMap) a0 idMap.entries = .ok a ∧
      Moved S g idMap a0 (LostIn g idMap (idMap.entries.map Prod.fst)) (fun _ _ u => u ∈ idMap.entries.map Prod.fst) a by
    obtain ⟨a, h1, h2⟩ := hk
    refine ⟨a, h1, h2.congr ?_⟩
    intro y n t u _ _
    have e1 : idMap.entries.map Prod.fst = idMap.keys := rfl
    rw [e1, OrderMap.mem_keys, Option.ne_none_iff_exists']
    exact ⟨Iff.rfl, Iff.rfl⟩
  apply foldE_total (P := fun pre (a : Arena) => Moved S g idMap a0 (LostIn g idMap (pre.map Prod.fst)) (fun _ _ u => u ∈ pre.map Prod.fst) a)
  · refine ⟨hinv, hty, rfl, fun j => Iff.rfl, ?_⟩
    intro y n y' hn hy
    refine ⟨n, hget y n y' hn hy, rfl, fun t w => ?_⟩
    constructor
    · intro hw
      exact ⟨w, hw, fun ⟨pre, v, post, h1, _⟩ => by simp at h1, Or.inl ⟨by simp, rfl⟩⟩
    · rintro ⟨u, h3, _, ⟨_, rfl⟩ | ⟨h4, _⟩⟩
      · exact h3
      · exact absurd h4 (by simp)
  · rintro pre ⟨id, new⟩ post a he hm
    have hid : idMap.get? id = some new := by
      rw [OrderMap.get?_eq_some, he]; simp
    have hidn : id ∉ pre.map Prod.fst := by
      have := idMap.nodup
      rw [he] at this
      simp only [List.map_append, List.map_cons, List.nodup_append] at this
      intro hmem
      exact this.2.2 _ hmem _ (by simp) rfl
    obtain ⟨nid, hnid⟩ : ∃ n, g.get? id = some n := Option.ne_none_iff_exists'.1 ((hkeys id).1 (by rw [hid]; simp))
    have hid0 : id ≠ emptyIdx := by
      rintro rfl
      rw [h.noEmpty] at hnid
      exact absurd hnid (by simp)
    obtain ⟨links, hlinks⟩ := h.known id nid hnid
    have hmem : ∀ y s, (y, s) ∈ links.elems ↔ ∃ n, g.get? y = some n ∧ n.Holds s id := by
      intro y s
      have e1 : (y, s) ∈ links.elems ↔ g.back.Rec id (y, s) := by
        constructor
        · intro h1; exact ⟨links, hlinks, h1⟩
        · rintro ⟨l', h1, h2⟩
          rw [hlinks] at h1
          simp only [Option.some.injEq] at h1
          subst h1
          exact h2
      rw [e1]
      constructor
      · intro h1; exact h.exact y s id (Or.inl hid0) h1
      · rintro h1; exact h.recd y s id h1
    have hlostIn : ∀ y t u, LostIn g idMap (pre.map Prod.fst) y t u → u ∈ pre.map Prod.fst := by
      rintro y t u ⟨p1, v, p2, h1, h2, _⟩
      rw [h1]; simp [h2]
    suffices hk : ∃ a', foldE (switchLink idMap id new) a links.elems = .ok a' ∧
        Moved S g idMap a0 (fun y t u => LostIn g idMap (pre.map Prod.fst) y t u ∨ (u ∈ pre.map Prod.fst ∧ idMap.get? u = some id ∧ (y, t) ∈ links.elems))
          (fun y t u => u ∈ pre.map Prod.fst ∨ (u = id ∧ (y, t) ∈ links.elems)) a' by
      obtain ⟨a', k1, k2⟩ := hk
      refine ⟨a', by simp only [switchNode, hlinks, k1], k2.congr ?_⟩
      intro y n t u hn hh
      constructor
      · simp only [List.map_append, List.map_cons, List.map_nil, List.mem_append, List.mem_singleton]
        constructor
        · rintro (h3 | rfl)
          · exact Or.inl h3
          · exact Or.inr ⟨rfl, (hmem y t).2 ⟨n, hn, hh⟩⟩
        · rintro (h3 | ⟨rfl, _⟩)
          · exact Or.inl h3
          · exact Or.inr rfl
      · simp only [List.map_append, List.map_cons, List.map_nil]
        rw [lostIn_append, hmem]
        rfl
    apply foldE_total (P := fun preL (a : Arena) => Moved S g idMap a0
      (fun y t u => LostIn g idMap (pre.map Prod.fst) y t u ∨ (u ∈ pre.map Prod.fst ∧ idMap.get? u = some id ∧ (y, t) ∈ preL))
      (fun y t u => u ∈ pre.map Prod.fst ∨ (u = id ∧ (y, t) ∈ preL)) a)
    · refine hm.congr ?_
      intro y n t u _ _
      simp
    · rintro preL ⟨y, s⟩ postL b hL hb
      obtain ⟨n, hn, hh⟩ := (hmem y s).1 (by rw [hL]; simp)
      obtain ⟨y', hy'⟩ := Option.ne_none_iff_exists'.1 ((hkeys y).2 (by rw [hn]; simp))
      have hnotin : (y, s) ∉ preL := by
        have := links.nodup
        rw [hL, List.nodup_append] at this
        intro hmem'
        exact this.2.2 _ hmem' _ (by simp) rfl
      obtain ⟨b', l1, l2⟩ := hb.step hinj hne hn hh (id := id) (new := new) (by
          rintro (h3 | ⟨_, h3⟩)
          · exact hidn h3
          · exact hnotin h3) (by
          rintro (h3 | ⟨h3, _⟩)
          · exact hidn (hlostIn _ _ _ h3)
          · exact hidn h3) hid hy'
      refine ⟨b', l1, l2.congr ?_⟩
      intro z nz t u _ _
      simp only [List.mem_append, List.mem_singleton, Prod.mk.injEq]
      constructor
      · tauto
      · constructor
        · rintro (h3 | ⟨h3, h4, h5 | ⟨rfl, rfl⟩⟩)
          · exact Or.inl (Or.inl h3)
          · exact Or.inl (Or.inr ⟨h3, h4, h5⟩)
          · exact Or.inr ⟨rfl, rfl, Or.inl h3, h4⟩
        · rintro ((h3 | ⟨h3, h4, h5⟩) | ⟨rfl, rfl, h3 | ⟨rfl, h3⟩, h4⟩)
          · exact Or.inl h3
          · exact Or.inr ⟨h3, h4, Or.inl h5⟩
          · exact Or.inr ⟨h3, h4, Or.inr ⟨rfl, rfl⟩⟩
          · exact absurd h3 hnotin

theorem SwitchIn.map_get {E : List (NodeIndex × Node)} {cnt : Nat} {st : Arena × OrderMap NodeIndex NodeIndex × Nat} (h : SwitchIn S E cnt st)
    (i j : Nat) : st.2.1.get? i = some j ↔ ∃ p n, E[p]? = some (i, n) ∧ j = newIndex cnt p := by
  rw [OrderMap.get?_eq_some, h.map]
  simp only [List.mem_map, Prod.mk.injEq, Prod.exists]
  constructor
  · rintro ⟨i', n, p, h1, rfl, rfl⟩
    refine ⟨p, n, ?_, rfl⟩
    exact List.mem_zipIdx_iff_getElem?.1 h1
  · rintro ⟨p, n, h1, rfl⟩
    exact ⟨i, n, p, List.mem_zipIdx_iff_getElem?.2 h1, rfl, rfl⟩

/-- The two loops of `switch_context` never panic. -/
theorem switchNodes_ok [SetImpl] (hS : S.discs.Nodup) {g : Graph} (h : g.Inv S e0) (cnt : Nat) :
    ∃ a0 idMap a, switchInsert S g cnt = .ok (a0, idMap, cnt + (g.iter S).length) ∧ SwitchIn S (g.iter S) cnt (a0, idMap, cnt + (g.iter S).length) ∧
      switchNodes S g cnt = .ok (a, idMap, cnt + (g.iter S).length) ∧
      (∀ i, idMap.get? i ≠ none ↔ g.get? i ≠ none) ∧ (∀ i i' j, idMap.get? i = some j → idMap.get? i' = some j → i = i') ∧
      (∀ i j : Nat, idMap.get? i = some j → cnt < j ∧ j ≤ cnt + (g.iter S).length) ∧
      Moved S g idMap a0 (LostIn g idMap idMap.keys) (fun _ _ u => idMap.get? u ≠ none) a := by
  obtain ⟨⟨a0, idMap, c⟩, h1, h2⟩ := switchInsert_ok hS h cnt
  have hc : c = cnt + (g.iter S).length := h2.len
  subst hc
  have hE : ∀ i n, (i, n) ∈ g.iter S ↔ g.get? i = some n := fun i n => Arena.mem_entries h.arena
  have hEn : ((g.iter S).map Prod.fst).Nodup := Arena.entries_nodup hS h.arena
  have hkeys : ∀ i, idMap.get? i ≠ none ↔ g.get? i ≠ none := by
    intro i
    rw [Option.ne_none_iff_exists', Option.ne_none_iff_exists']
    constructor
    · rintro ⟨j, hj⟩
      obtain ⟨p, n, h3, _⟩ := (h2.map_get i j).1 hj
      exact ⟨n, (hE i n).1 (List.mem_of_getElem? h3)⟩
    · rintro ⟨n, hn⟩
      obtain ⟨p, hp⟩ := List.getElem?_of_mem ((hE i n).2 hn)
      exact ⟨newIndex cnt p, (h2.map_get i _).2 ⟨p, n, hp, rfl⟩⟩
  have hinj : ∀ i i' j, idMap.get? i = some j → idMap.get? i' = some j → i = i' := by
    intro i i' j hi hi'
    obtain ⟨p, n, h3, h4⟩ := (h2.map_get i j).1 hi
    obtain ⟨p', n', h5, h6⟩ := (h2.map_get i' j).1 hi'
    have : p = p' := by
      simp only [newIndex] at h4 h6
      omega
    subst this
    rw [h3] at h5
    simp only [Option.some.injEq, Prod.mk.injEq] at h5
    exact h5.1
  have hrange : ∀ i j : Nat, idMap.get? i = some j → cnt < j ∧ j ≤ cnt + (g.iter S).length := by
    intro i j hi
    obtain ⟨p, n, h3, h4⟩ := (h2.map_get i j).1 hi
    have := (List.getElem?_eq_some_iff.1 h3).1
    simp only [newIndex] at h4
    omega
  have hget : ∀ i n j, g.get? i = some n → idMap.get? i = some j → a0.get? j = some n := by
    intro i n j hi hj
    obtain ⟨p, n', h3, h4⟩ := (h2.map_get i j).1 hj
    have hn' := (hE i n').1 (List.mem_of_getElem? h3)
    rw [hi] at hn'
    simp only [Option.some.injEq] at hn'
    subst hn'
    exact (h2.get j n).2 ⟨p, i, h3, h4⟩
  obtain ⟨a, h3, h4⟩ := switchLoop_ok h hkeys hinj (fun i j hj => by
    have := hrange i j hj
    rintro rfl
    exact absurd this.1 (Nat.not_lt_zero _)) h2.inv h2.typed hget
  exact ⟨a0, idMap, a, h1, h2, by simp only [switchNodes, h1, h3], hkeys, hinj, hrange, h4⟩

end Graph
end TTGraph
