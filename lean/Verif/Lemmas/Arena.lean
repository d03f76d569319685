import Verif.Model.Arena
import Verif.Lemmas.OrderMap


set_option autoImplicit false
namespace TTGraph

theorem foldE_append {σ α : Type} (f : σ → α → Except Panic σ) (s : σ) (l1 l2 : List α) :
    foldE f s (l1 ++ l2) = (match foldE f s l1 with | .ok s' => foldE f s' l2 | .error e => .error e) := by
  induction l1 generalizing s with
  | nil => rfl
  | cons a as ih =>
    simp only [List.cons_append, foldE]
    cases f s a with
    | ok s' => exact ih s'
    | error e => rfl

/-- Invariant rule for loops: partial correctness.  `P pre s`: the state after the elements `pre`. -/
theorem foldE_inv {σ α : Type} {f : σ → α → Except Panic σ} {l : List α} {s s' : σ} (P : List α → σ → Prop)
    (h0 : P [] s) (hstep : ∀ pre a post s1 s2, l = pre ++ a :: post → P pre s1 → f s1 a = .ok s2 → P (pre ++ [a]) s2)
    (h : foldE f s l = .ok s') : P l s' := by
  suffices ∀ pre post s1, l = pre ++ post → P pre s1 → foldE f s1 post = .ok s' → P l s' from this [] l s rfl h0 h
  intro pre post
  induction post generalizing pre with
  | nil =>
    intro s1 hl hp hf
    simp only [foldE, Except.ok.injEq] at hf
    subst hf
    simp only [List.append_nil] at hl
    rw [hl]; exact hp
  | cons a as ih =>
    intro s1 hl hp hf
    simp only [foldE] at hf
    cases hfa : f s1 a with
    | error e => rw [hfa] at hf; exact absurd hf (by simp)
    | ok s2 =>
      rw [hfa] at hf
      exact ih (pre ++ [a]) s2 (by rw [hl]; simp) (hstep pre a as s1 s2 hl hp hfa) hf

/-- Invariant rule for loops: total correctness. -/
theorem foldE_total {σ α : Type} {f : σ → α → Except Panic σ} {l : List α} {s : σ} (P : List α → σ → Prop)
    (h0 : P [] s) (hstep : ∀ pre a post s1, l = pre ++ a :: post → P pre s1 → ∃ s2, f s1 a = .ok s2 ∧ P (pre ++ [a]) s2) :
    ∃ s', foldE f s l = .ok s' ∧ P l s' := by
  suffices ∀ post pre s1, l = pre ++ post → P pre s1 → ∃ s', foldE f s1 post = .ok s' ∧ P l s' from this l [] s rfl h0
  intro post
  induction post with
  | nil =>
    intro pre s1 hl hp
    simp only [List.append_nil] at hl
    exact ⟨s1, rfl, hl ▸ hp⟩
  | cons a as ih =>
    intro pre s1 hl hp
    obtain ⟨s2, h1, h2⟩ := hstep pre a as s1 hl hp
    obtain ⟨s', h3, h4⟩ := ih (pre ++ [a]) s2 (by rw [hl]; simp) h2
    exact ⟨s', by simp only [foldE, h1]; exact h3, h4⟩

theorem none_alt {α : Type} (x : Option α) : (none <|> x) = x := rfl
theorem some_alt {α : Type} (v : α) (x : Option α) : (some v <|> x) = some v := rfl

namespace Arena

/-- Invariant of an arena: a node is filed under the variant that the dispatcher has for its index, and the dispatcher
names declared variants only. -/
structure Inv (S : Schema) (a : Arena) : Prop where
  home : ∀ d i n, (a.cont d).get? i = some n → a.disp.get? i = some d
  decl : ∀ i d, a.disp.get? i = some d → d ∈ S.discs

/-- Every node is filed under its own variant. -/
def Typed (a : Arena) : Prop := ∀ d i n, (a.cont d).get? i = some n → n.disc = d

theorem get?_eq_some {a : Arena} {i : NodeIndex} {n : Node} :
    a.get? i = some n ↔ ∃ d, a.disp.get? i = some d ∧ (a.cont d).get? i = some n := by
  simp only [get?, Option.bind_eq_some_iff]

theorem get?_of_disp {a : Arena} {i : NodeIndex} {d : Ident} (h : a.disp.get? i = some d) : a.get? i = (a.cont d).get? i := by
  simp [get?, h]

theorem get?_of_disp_none {a : Arena} {i : NodeIndex} (h : a.disp.get? i = none) : a.get? i = none := by
  simp [get?, h]

theorem contains_iff {a : Arena} {i : NodeIndex} : a.contains i = true ↔ ∃ n, a.get? i = some n := by
  simp only [contains, get?]
  cases h : a.disp.get? i with
  | none => simp
  | some d => simp [OrderMap.contains_iff]

theorem contains_eq {a : Arena} {i : NodeIndex} : a.contains i = (a.get? i).isSome := by
  have := contains_iff (a := a) (i := i)
  rw [← Option.isSome_iff_exists] at this
  cases h1 : a.contains i <;> cases h2 : (a.get? i).isSome <;> simp_all

theorem Inv.get? {S : Schema} {a : Arena} (h : a.Inv S) {d : Ident} {i : NodeIndex} {n : Node}
    (hc : (a.cont d).get? i = some n) : a.get? i = some n :=
  get?_eq_some.2 ⟨d, h.home d i n hc, hc⟩

theorem Typed.get? {a : Arena} (h : a.Typed) {i : NodeIndex} {n : Node} (hn : a.get? i = some n) :
    (a.cont n.disc).get? i = some n := by
  obtain ⟨d, _, h2⟩ := get?_eq_some.1 hn
  have := h d i n h2
  rw [this]; exact h2

theorem new_inv (S : Schema) : (new).Inv S := ⟨by intro d i n h; simp [new] at h, by intro i d h; simp [new] at h⟩

theorem new_typed : (new).Typed := by intro d i n h; simp [new] at h

@[simp] theorem new_get? (i : NodeIndex) : (new).get? i = none := rfl

theorem mem_entries {S : Schema} {a : Arena} (h : a.Inv S) {i : NodeIndex} {n : Node} :
    (i, n) ∈ a.entries S ↔ a.get? i = some n := by
  simp only [entries, List.mem_flatMap]
  constructor
  · rintro ⟨d, _, hm⟩
    exact h.get? (OrderMap.get?_eq_some.2 hm)
  · intro hg
    obtain ⟨d, hd, hc⟩ := get?_eq_some.1 hg
    exact ⟨d, h.decl i d hd, OrderMap.get?_eq_some.1 hc⟩

theorem entries_nodup {S : Schema} (hS : S.discs.Nodup) {a : Arena} (h : a.Inv S) :
    ((a.entries S).map Prod.fst).Nodup := by
  simp only [entries]
  suffices ∀ ds : List Ident, ds.Nodup → ((ds.flatMap fun d => (a.cont d).entries).map Prod.fst).Nodup from this _ hS
  intro ds
  induction ds with
  | nil => simp
  | cons d r ih =>
    intro hn
    rw [List.nodup_cons] at hn
    simp only [List.flatMap_cons, List.map_append]
    rw [List.nodup_append]
    refine ⟨(a.cont d).nodup, ih hn.2, ?_⟩
    intro x hx y hy hxy
    subst hxy
    obtain ⟨⟨x1, n1⟩, hx1, rfl⟩ := List.mem_map.1 hx
    obtain ⟨⟨x2, n2⟩, hx2, he⟩ := List.mem_map.1 hy
    simp only at he; subst he
    obtain ⟨d2, hd2, hm2⟩ := List.mem_flatMap.1 hx2
    have e1 := h.home d _ _ (OrderMap.get?_eq_some.2 hx1)
    have e2 := h.home d2 _ _ (OrderMap.get?_eq_some.2 hm2)
    rw [e1] at e2
    simp at e2
    exact hn.1 (e2 ▸ hd2)

theorem len_eq (S : Schema) (a : Arena) : a.len S = (a.entries S).length := by
  simp [len, entries, List.length_flatMap, OrderMap.len]

/-! ### setCont -/

@[simp] theorem setCont_disp (a : Arena) (d : Ident) (c : OrderMap NodeIndex Node) : (a.setCont d c).disp = a.disp := rfl

theorem setCont_cont (a : Arena) (d d' : Ident) (c : OrderMap NodeIndex Node) :
    (a.setCont d c).cont d' = if d' = d then c else a.cont d' := rfl

/-- Storing a node at an index whose dispatcher entry is `d`. -/
theorem setCont_get? {a : Arena} {d : Ident} {i : NodeIndex} {n : Node} {c : OrderMap NodeIndex Node}
    (hd : a.disp.get? i = some d) (hc : ∀ j, c.get? j = if i = j then some n else (a.cont d).get? j) (j : NodeIndex) :
    (a.setCont d c).get? j = if i = j then some n else a.get? j := by
  simp only [get?, setCont_disp, setCont_cont]
  by_cases h : i = j
  · subst h; simp [hd, hc]
  · simp only [h, if_false]
    cases hj : a.disp.get? j with
    | none => rfl
    | some d' =>
      simp only [Option.bind_some]
      split
      · rename_i h'; subst h'; simp [hc, h]
      · rfl

theorem setCont_inv {S : Schema} {a : Arena} {d : Ident} {i : NodeIndex} {n : Node} {c : OrderMap NodeIndex Node} (h : a.Inv S)
    (hd : a.disp.get? i = some d) (hc : ∀ j, c.get? j = if i = j then some n else (a.cont d).get? j) :
    (a.setCont d c).Inv S := by
  refine ⟨?_, h.decl⟩
  intro d' j m hm
  simp only [setCont_cont] at hm
  split at hm
  · rename_i h'; subst h'
    rw [hc] at hm
    split at hm
    · rename_i h'; subst h'; exact hd
    · exact h.home _ _ _ hm
  · exact h.home _ _ _ hm

theorem setCont_typed {a : Arena} {d : Ident} {i : NodeIndex} {n : Node} {c : OrderMap NodeIndex Node} (h : a.Typed)
    (hn : n.disc = d) (hc : ∀ j, c.get? j = if i = j then some n else (a.cont d).get? j) : (a.setCont d c).Typed := by
  intro d' j m hm
  simp only [setCont_cont] at hm
  split at hm
  · rename_i h'; subst h'
    rw [hc] at hm
    split at hm
    · simp at hm; subst hm; exact hn
    · exact h _ _ _ hm
  · exact h _ _ _ hm

/-! ### modifyAt -/

theorem modifyAt_ok {β : Type} {S : Schema} {a : Arena} {i : NodeIndex} {n n' : Node} {r : β}
    {f : Node → Except Panic (Node × β)} (hn : a.get? i = some n) (hf : f n = .ok (n', r)) :
    ∃ a', a.modifyAt i f = .ok (a', r) ∧ (∀ j, a'.get? j = if i = j then some n' else a.get? j) ∧ a'.disp = a.disp ∧
      (a.Inv S → a'.Inv S) ∧ (a.Typed → n'.disc = n.disc → a'.Typed) := by
  obtain ⟨d, hd, hc⟩ := get?_eq_some.1 hn
  refine ⟨a.setCont d ((a.cont d).insert i n'), ?_, ?_, rfl, ?_, ?_⟩
  · simp only [modifyAt, hd, hc, hf]
  · exact setCont_get? hd (OrderMap.get?_insert _ _ · _)
  · intro h; exact setCont_inv h hd (OrderMap.get?_insert _ _ · _)
  · intro h hnd; exact setCont_typed h (hnd.trans (h d i n hc)) (OrderMap.get?_insert _ _ · _)

theorem modifyAt_none {β : Type} {a : Arena} {i : NodeIndex} {f : Node → Except Panic (Node × β)} (hn : a.get? i = none) :
    a.modifyAt i f = .error .nodeMissing := by
  unfold modifyAt
  cases hd : a.disp.get? i with
  | none => rfl
  | some d =>
    have : (a.cont d).get? i = none := by rw [get?_of_disp hd] at hn; exact hn
    simp [this]

theorem modifyAt_err {β : Type} {a : Arena} {i : NodeIndex} {n : Node} {e : Panic} {f : Node → Except Panic (Node × β)}
    (hn : a.get? i = some n) (hf : f n = .error e) : a.modifyAt i f = .error e := by
  obtain ⟨d, hd, hc⟩ := get?_eq_some.1 hn
  simp only [modifyAt, hd, hc, hf]

/-- What a successful `modifyAt` did. -/
theorem modifyAt_inv {β : Type} {a a' : Arena} {i : NodeIndex} {r : β} {f : Node → Except Panic (Node × β)}
    (h : a.modifyAt i f = .ok (a', r)) : ∃ n n', a.get? i = some n ∧ f n = .ok (n', r) := by
  cases hn : a.get? i with
  | none => rw [modifyAt_none hn] at h; exact absurd h (by simp)
  | some n =>
    cases hf : f n with
    | error e => rw [modifyAt_err hn hf] at h; exact absurd h (by simp)
    | ok p =>
      obtain ⟨n', r'⟩ := p
      obtain ⟨a'', h1, _⟩ := modifyAt_ok (S := ⟨[], [], [], []⟩) hn hf
      rw [h1] at h
      simp only [Except.ok.injEq, Prod.mk.injEq] at h
      exact ⟨n, n', rfl, by rw [hf, h.2]⟩

/-! ### updateWith -/

theorem updateWith_ok {S : Schema} {a : Arena} {i : NodeIndex} {n n' : Node} {f : Node → Except Panic Node}
    (hn : a.get? i = some n) (hf : f n = .ok n') :
    ∃ a', a.updateWith i f = .ok a' ∧ (∀ j, a'.get? j = if i = j then some n' else a.get? j) ∧ a'.disp = a.disp ∧
      (a.Inv S → a'.Inv S) ∧ (a.Typed → n'.disc = n.disc → a'.Typed) := by
  obtain ⟨d, hd, hc⟩ := get?_eq_some.1 hn
  have hcc : ∀ j, (((a.cont d).swapRemove i).insert i n').get? j = if i = j then some n' else (a.cont d).get? j := by
    intro j
    rw [OrderMap.get?_insert, OrderMap.get?_swapRemove]
    split <;> rfl
  refine ⟨a.setCont d (((a.cont d).swapRemove i).insert i n'), ?_, ?_, rfl, ?_, ?_⟩
  · simp only [updateWith, hd, hc, hf]
  · exact setCont_get? hd hcc
  · intro h; exact setCont_inv h hd hcc
  · intro h hnd; exact setCont_typed h (hnd.trans (h d i n hc)) hcc

theorem updateWith_none {a : Arena} {i : NodeIndex} {f : Node → Except Panic Node} (hn : a.get? i = none) :
    a.updateWith i f = .error .updateMissing := by
  unfold updateWith
  cases hd : a.disp.get? i with
  | none => rfl
  | some d =>
    have : (a.cont d).get? i = none := by rw [get?_of_disp hd] at hn; exact hn
    simp [this]

theorem updateWith_err {a : Arena} {i : NodeIndex} {n : Node} {e : Panic} {f : Node → Except Panic Node}
    (hn : a.get? i = some n) (hf : f n = .error e) : a.updateWith i f = .error e := by
  obtain ⟨d, hd, hc⟩ := get?_eq_some.1 hn
  simp only [updateWith, hd, hc, hf]

/-! ### remove -/

theorem remove_fst (a : Arena) (i : NodeIndex) : (a.remove i).1 = a.get? i := by
  unfold remove get?
  cases a.disp.get? i <;> rfl

theorem remove_disp (a : Arena) (i j : NodeIndex) : (a.remove i).2.disp.get? j = if i = j then none else a.disp.get? j := by
  unfold remove
  cases hd : a.disp.get? i with
  | none =>
    simp only
    split
    · rename_i h; subst h; exact hd
    · rfl
  | some d => simp only; exact OrderMap.get?_swapRemove _ _ _

theorem remove_get? (a : Arena) (i j : NodeIndex) : (a.remove i).2.get? j = if i = j then none else a.get? j := by
  simp only [get?, remove_disp]
  by_cases h : i = j
  · simp [h]
  · simp only [h, if_false]
    cases hj : a.disp.get? j with
    | none => rfl
    | some d' =>
      simp only [Option.bind_some]
      unfold remove
      cases hd : a.disp.get? i with
      | none => rfl
      | some d =>
        simp only
        split
        · rename_i h'; subst h'; simp [OrderMap.get?_swapRemove, h]
        · rfl

theorem remove_cont (a : Arena) {d : Ident} {i j : NodeIndex} {n : Node} (h : ((a.remove i).2.cont d).get? j = some n) :
    (a.cont d).get? j = some n ∧ (a.disp.get? i = some d → i ≠ j) := by
  unfold remove at h
  cases hd : a.disp.get? i with
  | none => rw [hd] at h; exact ⟨h, by simp⟩
  | some d' =>
    rw [hd] at h
    simp only at h
    split at h
    · rename_i h'; subst h'
      rw [OrderMap.get?_swapRemove] at h
      split at h
      · simp at h
      · rename_i hij; exact ⟨h, fun _ => hij⟩
    · rename_i hne
      refine ⟨h, fun he => absurd ?_ hne⟩
      simpa using he.symm

theorem remove_inv {S : Schema} {a : Arena} (h : a.Inv S) (i : NodeIndex) : (a.remove i).2.Inv S := by
  constructor
  · intro d j n hc
    obtain ⟨h1, h2⟩ := remove_cont a hc
    have hj := h.home d j n h1
    rw [remove_disp]
    have : i ≠ j := by
      intro e; subst e; exact h2 hj rfl
    simp [this, hj]
  · intro j d hj
    rw [remove_disp] at hj
    split at hj
    · simp at hj
    · exact h.decl j d hj

theorem remove_typed {a : Arena} (h : a.Typed) (i : NodeIndex) : (a.remove i).2.Typed := by
  intro d j n hc
  exact h d j n (remove_cont a hc).1

/-! ### merge -/

/-- The indices known to the dispatchers of two arenas are disjoint. -/
def Disjoint (a b : Arena) : Prop := ∀ i, b.disp.get? i ≠ none → a.disp.get? i = none

theorem Inv.cont_none {S : Schema} {a : Arena} (h : a.Inv S) {i : NodeIndex} (hi : a.disp.get? i = none) (d : Ident) :
    (a.cont d).get? i = none := by
  cases hc : (a.cont d).get? i with
  | none => rfl
  | some n => rw [h.home d i n hc] at hi; exact absurd hi (by simp)

theorem merge_disp (a b : Arena) (j : NodeIndex) : (a.merge b).disp.get? j = (b.disp.get? j <|> a.disp.get? j) :=
  OrderMap.get?_append _ _ _

theorem merge_get? {S : Schema} {a b : Arena} (ha : a.Inv S) (hb : b.Inv S) (hdis : a.Disjoint b) (j : NodeIndex) :
    (a.merge b).get? j = (b.get? j <|> a.get? j) := by
  simp only [get?, merge_disp]
  have hc : ∀ d, ((a.merge b).cont d).get? j = ((b.cont d).get? j <|> (a.cont d).get? j) :=
    fun d => OrderMap.get?_append _ _ _
  cases hj : b.disp.get? j with
  | none =>
    simp only [none_alt, Option.bind_none, hc]
    cases hja : a.disp.get? j with
    | none => rfl
    | some d => simp [hb.cont_none hj]
  | some d =>
    have hja : a.disp.get? j = none := hdis j (by simp [hj])
    simp only [some_alt, Option.bind_some, hc, hja, Option.bind_none]
    simp [ha.cont_none hja]

theorem merge_inv {S : Schema} {a b : Arena} (ha : a.Inv S) (hb : b.Inv S) (hdis : a.Disjoint b) : (a.merge b).Inv S := by
  constructor
  · intro d j n hc
    have hc' : ((a.merge b).cont d).get? j = ((b.cont d).get? j <|> (a.cont d).get? j) := OrderMap.get?_append _ _ _
    rw [hc'] at hc
    rw [merge_disp]
    cases hbj : (b.cont d).get? j with
    | some m => simp [hb.home d j m hbj]
    | none =>
      rw [hbj] at hc
      simp only [none_alt] at hc
      have := ha.home d j n hc
      cases hbd : b.disp.get? j with
      | none => simp [this]
      | some d' => rw [hdis j (by simp [hbd])] at this; exact absurd this (by simp)
  · intro j d hj
    rw [merge_disp] at hj
    cases hbj : b.disp.get? j with
    | some d' => rw [hbj] at hj; simp at hj; subst hj; exact hb.decl j _ hbj
    | none => rw [hbj] at hj; simp at hj; exact ha.decl j d hj

theorem merge_typed {a b : Arena} (ha : a.Typed) (hb : b.Typed) : (a.merge b).Typed := by
  intro d j n hc
  have hc' : ((a.merge b).cont d).get? j = ((b.cont d).get? j <|> (a.cont d).get? j) := OrderMap.get?_append _ _ _
  rw [hc'] at hc
  cases hbj : (b.cont d).get? j with
  | some m => rw [hbj] at hc; simp at hc; subst hc; exact hb d j _ hbj
  | none => rw [hbj] at hc; simp at hc; exact ha d j n hc

/-! ### alloc, insert, fill_back -/

theorem alloc_ok {a : Arena} {cnt : Nat} {d : Ident} (h : a.disp.get? (cnt + 1) = none) :
    a.alloc cnt d = .ok (cnt + 1, { a with disp := a.disp.insert (cnt + 1) d }, cnt + 1) := by
  have : a.disp.contains (cnt + 1) = false := by simp [OrderMap.contains, h]
  simp [alloc, idAlloc, this]

theorem withDisp_inv {S : Schema} {a : Arena} (h : a.Inv S) {i : NodeIndex} {d : Ident} (hd : d ∈ S.discs)
    (hi : ∀ d', (a.cont d').get? i ≠ none → d' = d) : ({ a with disp := a.disp.insert i d } : Arena).Inv S := by
  constructor
  · intro d' j n hc
    simp only [OrderMap.get?_insert]
    split
    · rename_i h'; subst h'; simp only at hc; rw [hi d' (by simp [hc])]
    · exact h.home d' j n hc
  · intro j d' hj
    simp only [OrderMap.get?_insert] at hj
    split at hj
    · simp at hj; subst hj; exact hd
    · exact h.decl j d' hj

end Arena
end TTGraph
