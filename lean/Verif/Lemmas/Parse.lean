import Mathlib.Data.List.Forall2
import Verif.Spec.Grammar

/-!
# The parsers accept exactly the grammar
-/

set_option autoImplicit false

namespace TTGraph
open Spec
namespace Read

/-- The parser takes from the front of the input a text of what it returns, and accepts all texts. -/
structure Exact {α : Type} (p : Parser α) (R : α → List Tok → Prop) : Prop where
  iff : ∀ ts x r, p ts = some (x, r) ↔ ∃ us, ts = us ++ r ∧ R x us
  pos : ∀ x, ¬R x []

theorem one_iff {c : Char} {ts r : List Tok} {u : Unit} : punct [c] ts = some (u, r) ↔ ∃ t, ts = t :: r ∧ IsPunct c t := by
  cases ts with
  | nil => simp [punct]
  | cons t ts =>
    cases t with
    | punct d j =>
      constructor
      · intro h
        simp only [punct] at h
        split at h
        · next e => subst e; cases h; exact ⟨_, rfl, j, rfl⟩
        · cases h
      · rintro ⟨c, e, j', rfl⟩
        cases e
        simp [punct]
    | ident _ => simp [punct, IsPunct]
    | word _ => simp [punct, IsPunct]
    | lit => simp [punct, IsPunct]
    | group _ _ => simp [punct, IsPunct]

theorem more_iff {c c' : Char} {cs : List Char} {ts r : List Tok} {u : Unit} :
    punct (c :: c' :: cs) ts = some (u, r) ↔ ∃ us, ts = .punct c true :: us ∧ punct (c' :: cs) us = some (u, r) := by
  cases ts with
  | nil => simp [punct]
  | cons t ts =>
    cases t with
    | punct d j =>
      cases j with
      | false => simp [punct]
      | true =>
        constructor
        · intro h
          simp only [punct] at h
          split at h
          · next e => subst e; exact ⟨_, rfl, h⟩
          · cases h
        · rintro ⟨us, e, h⟩
          cases e
          simp [punct, h]
    | ident _ => simp [punct]
    | word _ => simp [punct]
    | lit => simp [punct]
    | group _ _ => simp [punct]

theorem ident_iff {ts r : List Tok} {n : Ident} : ident ts = some (n, r) ↔ ts = .ident n :: r := by
  cases ts with
  | nil => simp [ident]
  | cons t ts =>
    cases t <;> simp [ident]

theorem ident_exact : Exact ident WritesIdent := by
  refine ⟨fun ts x r => ident_iff.trans ⟨fun h => ⟨_, h, .mk⟩, ?_⟩, fun x h => by cases h⟩
  rintro ⟨us, rfl, h⟩
  cases h
  rfl

theorem metaIdent_exact : Exact metaIdent WritesAny := by
  refine ⟨fun ts x r => ⟨fun h => ?_, ?_⟩, fun x h => by cases h⟩
  · cases ts with
    | nil => simp [metaIdent] at h
    | cons t ts =>
      cases t <;> simp only [metaIdent] at h <;> cases h
      · exact ⟨_, rfl, .ident⟩
      · exact ⟨_, rfl, .word⟩
  · rintro ⟨us, rfl, h⟩
    cases h <;> rfl

variable {α : Type} {p : Parser α} {R : α → List Tok → Prop}

theorem items_sound (h : Exact p R) : ∀ (fuel : Nat) (ts : List Tok) (xs : List α), items p fuel ts = some xs → Listed R xs ts := by
  intro fuel
  induction fuel with
  | zero =>
    intro ts xs hi
    cases ts with
    | nil => simp only [items] at hi; cases hi; exact .nil
    | cons t ts => simp [items] at hi
  | succ fuel ih =>
    intro ts xs hi
    cases ts with
    | nil => simp only [items] at hi; cases hi; exact .nil
    | cons t ts =>
      simp only [items] at hi
      split at hi
      · cases hi
      · next x hx =>
        cases hi
        obtain ⟨us, e, hr⟩ := (h.iff _ _ _).1 hx
        rw [List.append_nil] at e
        exact e ▸ .last hr
      · next x u us hx =>
        obtain ⟨vs, e, hr⟩ := (h.iff _ _ _).1 hx
        split at hi
        · cases hi
        · next r hc =>
          obtain ⟨c, e', hc⟩ := one_iff.1 hc
          obtain ⟨ys, hy, rfl⟩ := Option.map_eq_some_iff.1 hi
          rw [e, e']
          exact .more hr hc (ih _ _ hy)

theorem items_complete (h : Exact p R) {xs : List α} {ts : List Tok} (hl : Listed R xs ts) :
    ∀ fuel, ts.length ≤ fuel → items p fuel ts = some xs := by
  induction hl with
  | nil => intro fuel _; cases fuel <;> rfl
  | @last x ts hr =>
    intro fuel hf
    cases ts with
    | nil => exact absurd hr (h.pos x)
    | cons t ts =>
      obtain ⟨fuel, rfl⟩ : ∃ n, fuel = n + 1 := ⟨fuel - 1, by simp only [List.length_cons] at hf; omega⟩
      have hp := (h.iff (t :: ts) x []).2 ⟨_, (List.append_nil _).symm, hr⟩
      simp only [items, hp]
  | @more x xs c ts us hr hc hl ih =>
    intro fuel hf
    cases ts with
    | nil => exact absurd hr (h.pos x)
    | cons t ts =>
      obtain ⟨fuel, rfl⟩ : ∃ n, fuel = n + 1 := ⟨fuel - 1, by simp only [List.cons_append, List.length_cons] at hf; omega⟩
      have hp := (h.iff (t :: ts ++ c :: us) x (c :: us)).2 ⟨_, rfl, hr⟩
      have hf' : us.length ≤ fuel := by simp only [List.cons_append, List.length_cons, List.length_append] at hf; omega
      rw [List.cons_append] at hp ⊢
      have h1 : punct [','] (c :: us) = some ((), us) := one_iff.2 ⟨c, rfl, hc⟩
      simp only [items, hp, h1, ih fuel hf', Option.map_some]

theorem terminated_iff (h : Exact p R) {ts : List Tok} {xs : List α} : terminated p ts = some xs ↔ Listed R xs ts :=
  ⟨items_sound h _ _ _, fun hl => items_complete h hl _ (Nat.le_refl _)⟩

theorem bidir_exact : Exact bidir WritesBidir := by
  refine ⟨fun ts x r => ⟨fun h => ?_, ?_⟩, fun x h => by cases h⟩
  · simp only [bidir, bind, Option.bind_eq_some_iff, Prod.exists, pure, Option.some.injEq, Prod.mk.injEq, ident_iff, one_iff, more_iff] at h
    obtain ⟨v, _, rfl, _, _, ⟨d, rfl, hd⟩, l, _, rfl, _, _, ⟨_, rfl, _, rfl, a, rfl, ha⟩, w, _, rfl, _, _, ⟨e, rfl, he⟩, m, _, rfl, rfl, rfl⟩ := h
    exact ⟨_, rfl, .mk hd he ha⟩
  · rintro ⟨us, rfl, ⟨hd, he, ha⟩⟩
    simp only [bidir, bind, Option.bind_eq_some_iff, Prod.exists, pure, Option.some.injEq, Prod.mk.injEq, ident_iff, one_iff, more_iff]
    exact ⟨_, _, rfl, (), _, ⟨_, rfl, hd⟩, _, _, rfl, (), _, ⟨_, rfl, _, rfl, _, rfl, ha⟩, _, _, rfl, (), _, ⟨_, rfl, he⟩, _, _, rfl, rfl, rfl⟩

theorem braced_iff {β : Type} {q : List Tok → Option β} {ts r : List Tok} {x : β} :
    braced q ts = some (x, r) ↔ ∃ inner, ts = .group .brace inner :: r ∧ q inner = some x := by
  cases ts with
  | nil => simp [braced]
  | cons t ts =>
    cases t with
    | group d inner =>
      cases d with
      | brace =>
        simp only [braced, Option.map_eq_some_iff, Prod.mk.injEq]
        constructor
        · rintro ⟨y, h, rfl, rfl⟩
          exact ⟨_, rfl, h⟩
        · rintro ⟨i, e, h⟩
          cases e
          exact ⟨_, h, rfl, rfl⟩
      | paren => simp [braced]
      | bracket => simp [braced]
    | ident _ => simp [braced]
    | word _ => simp [braced]
    | lit => simp [braced]
    | punct _ _ => simp [braced]

theorem namedGroup_exact : Exact namedGroup WritesGroup := by
  refine ⟨fun ts x r => ⟨fun h => ?_, ?_⟩, fun x h => by cases h⟩
  · simp only [namedGroup, bind, Option.bind_eq_some_iff, Prod.exists, pure, Option.some.injEq, Prod.mk.injEq, ident_iff, braced_iff] at h
    obtain ⟨g, _, rfl, vs, _, ⟨inner, rfl, hi⟩, rfl, rfl⟩ := h
    exact ⟨_, rfl, .mk ((terminated_iff ident_exact).1 hi)⟩
  · rintro ⟨us, rfl, ⟨h⟩⟩
    simp only [namedGroup, bind, Option.bind_eq_some_iff, Prod.exists, pure, Option.some.injEq, Prod.mk.injEq, ident_iff, braced_iff]
    exact ⟨_, _, rfl, _, _, ⟨_, rfl, (terminated_iff ident_exact).2 h⟩, ⟨rfl, rfl⟩, rfl⟩

theorem annoVars_iff {ts r : List Tok} {ws : List Ident} :
    annoVars ts = some (ws, r) ↔ (∃ w, ws = [w] ∧ ts = .ident w :: r) ∨ ∃ inner, ts = .group .brace inner :: r ∧ Listed WritesIdent ws inner := by
  unfold annoVars
  split
  · next i ts =>
    rw [braced_iff]
    constructor
    · rintro ⟨inner, e, h⟩
      exact Or.inr ⟨inner, e, (terminated_iff ident_exact).1 h⟩
    · rintro (⟨w, _, e⟩ | ⟨inner, e, h⟩)
      · cases e
      · exact ⟨inner, e, (terminated_iff ident_exact).2 h⟩
  · next ts hne =>
    simp only [Option.map_eq_some_iff, Prod.mk.injEq, Prod.exists, ident_iff]
    constructor
    · rintro ⟨w, _, rfl, rfl, rfl⟩
      exact Or.inl ⟨w, rfl, rfl⟩
    · rintro (⟨w, rfl, rfl⟩ | ⟨inner, e, h⟩)
      · exact ⟨w, r, rfl, rfl, rfl⟩
      · exact absurd e (hne inner r)

theorem anno_exact : Exact anno WritesAnno := by
  refine ⟨fun ts x r => ⟨fun h => ?_, ?_⟩, fun x h => by cases h⟩
  · simp only [anno, bind, Option.bind_eq_some_iff, Prod.exists, pure, Option.some.injEq, Prod.mk.injEq, ident_iff, one_iff, annoVars_iff] at h
    obtain ⟨v, _, rfl, _, _, ⟨d, rfl, hd⟩, l, _, rfl, _, _, ⟨c, rfl, hc⟩, ws, _, (⟨w, rfl, rfl⟩ | ⟨inner, rfl, hi⟩), rfl, rfl⟩ := h
    · exact ⟨_, rfl, .one hd hc⟩
    · exact ⟨_, rfl, .many hd hc hi⟩
  · rintro ⟨us, rfl, h⟩
    simp only [anno, bind, Option.bind_eq_some_iff, Prod.exists, pure, Option.some.injEq, Prod.mk.injEq, ident_iff, one_iff, annoVars_iff]
    cases h with
    | one hd hc => exact ⟨_, _, rfl, (), _, ⟨_, rfl, hd⟩, _, _, rfl, (), _, ⟨_, rfl, hc⟩, _, _, Or.inl ⟨_, rfl, rfl⟩, rfl, rfl⟩
    | many hd hc hi => exact ⟨_, _, rfl, (), _, ⟨_, rfl, hd⟩, _, _, rfl, (), _, ⟨_, rfl, hc⟩, _, _, Or.inr ⟨_, rfl, hi⟩, rfl, rfl⟩

theorem items_iff {rest : List SrcItem} : ∀ {c c' : Collected},
    rest.foldlM item c = some c' ↔ ∃ bs gs as, WritesBlocks rest bs gs as ∧ c' = ⟨c.bidirs ++ bs, c.groups ++ gs, c.annos ++ as⟩ := by
  induction rest with
  | nil =>
    intro c c'
    simp only [List.foldlM_nil, pure, Option.some.injEq]
    constructor
    · rintro rfl
      exact ⟨[], [], [], .nil, by simp⟩
    · rintro ⟨bs, gs, as, h, rfl⟩
      cases h
      simp
  | cons i rest ih =>
    intro c c'
    simp only [List.foldlM_cons, bind, Option.bind_eq_some_iff, ih]
    constructor
    · rintro ⟨c1, h1, bs, gs, as, h2, rfl⟩
      cases i with
      | enum _ => cases h1
      | other => cases h1
      | call name ts =>
        simp only [item] at h1
        split at h1
        · next e =>
          obtain ⟨x, hx, rfl⟩ := Option.map_eq_some_iff.1 h1
          exact ⟨x ++ bs, gs, as, e ▸ .bidirectional ((terminated_iff bidir_exact).1 hx) h2, by simp⟩
        · split at h1
          · next e =>
            obtain ⟨x, hx, rfl⟩ := Option.map_eq_some_iff.1 h1
            exact ⟨bs, x ++ gs, as, e ▸ .group ((terminated_iff namedGroup_exact).1 hx) h2, by simp⟩
          · split at h1
            · next e =>
              obtain ⟨x, hx, rfl⟩ := Option.map_eq_some_iff.1 h1
              exact ⟨bs, gs, x ++ as, e ▸ .linkType ((terminated_iff anno_exact).1 hx) h2, by simp⟩
            · cases h1
    · rintro ⟨bs, gs, as, h, rfl⟩
      cases h with
      | @bidirectional ts _ bs bs' _ _ h1 h2 =>
        refine ⟨⟨c.bidirs ++ bs, c.groups, c.annos⟩, ?_, bs', gs, as, h2, by simp⟩
        simp only [item, if_pos, bidirs, (terminated_iff bidir_exact).2 h1, Option.map_some]
      | @group ts _ _ gs gs' _ h1 h2 =>
        refine ⟨⟨c.bidirs, c.groups ++ gs, c.annos⟩, ?_, bs, gs', as, h2, by simp⟩
        rw [item, if_neg (by decide), if_pos rfl, groups, (terminated_iff namedGroup_exact).2 h1, Option.map_some]
      | @linkType ts _ _ _ as as' h1 h2 =>
        refine ⟨⟨c.bidirs, c.groups, c.annos ++ as⟩, ?_, bs, gs, as', h2, by simp⟩
        rw [item, if_neg (by decide), if_neg (by decide), if_pos rfl, annos, (terminated_iff anno_exact).2 h1, Option.map_some]

theorem mapM_iff {β γ : Type} {f : β → Option γ} {l : List β} : ∀ {m : List γ}, l.mapM f = some m ↔ List.Forall₂ (fun b c => f b = some c) l m := by
  induction l with
  | nil => intro m; simp [List.forall₂_nil_left_iff, eq_comm]
  | cons b l ih =>
    intro m
    simp only [List.mapM_cons, bind, Option.bind_eq_some_iff, pure, Option.some.injEq, ih, List.forall₂_cons_left_iff]
    constructor
    · rintro ⟨c, h1, cs, h2, rfl⟩
      exact ⟨c, cs, h1, h2, rfl⟩
    · rintro ⟨c, cs, h1, h2, rfl⟩
      exact ⟨c, h1, cs, h2, rfl⟩

theorem variant_iff {v : Ident × Option (List Ident)} {d ty : Ident} : variant v = some (d, ty) ↔ v = (d, some [ty]) := by
  obtain ⟨n, t⟩ := v
  match t with
  | none => simp [variant]
  | some [] => simp [variant]
  | some [t] => simp [variant]
  | some (_ :: _ :: _) => simp [variant]

theorem forall₂_comp {β γ δ : Type} {P : β → γ → Prop} {Q : γ → δ → Prop} : ∀ {l : List β} {n : List δ},
    (∃ m, List.Forall₂ P l m ∧ List.Forall₂ Q m n) ↔ List.Forall₂ (fun b d => ∃ c, P b c ∧ Q c d) l n := by
  intro l
  induction l with
  | nil =>
    intro n
    constructor
    · rintro ⟨m, h1, h2⟩
      cases h1; cases h2; exact .nil
    · intro h
      cases h
      exact ⟨[], .nil, .nil⟩
  | cons b l ih =>
    intro n
    constructor
    · rintro ⟨m, h1, h2⟩
      cases h1 with
      | cons h1 h1' => cases h2 with
        | cons h2 h2' => exact .cons ⟨_, h1, h2⟩ (ih.1 ⟨_, h1', h2'⟩)
    · intro h
      cases h with
      | cons h1 h2 =>
        obtain ⟨c, h3, h4⟩ := h1
        obtain ⟨m, h5, h6⟩ := ih.2 h2
        exact ⟨c :: m, .cons h3 h5, .cons h4 h6⟩

theorem forall₂_iff {β γ : Type} {P Q : β → γ → Prop} (h : ∀ b c, P b c ↔ Q b c) {l : List β} {m : List γ} :
    List.Forall₂ P l m ↔ List.Forall₂ Q l m := by
  have e : P = Q := funext fun b => funext fun c => propext (h b c)
  rw [e]

theorem nodeEnum_iff {structs : Ident → Option StructDecl} {its : List SrcItem} {S : Schema} :
    nodeEnum structs its = some S ↔ WritesEnum structs its S := by
  have hv : ∀ (vs : List (Ident × Option (List Ident))) (ds : List (Ident × StructDecl)),
      (∃ vars, vs.mapM variant = some vars ∧ (vars.mapM fun v => (structs v.2).map fun sd => (v.1, sd)) = some ds) ↔
      List.Forall₂ (fun v d => ∃ ty, v = (d.1, some [ty]) ∧ structs ty = some d.2) vs ds := by
    intro vs ds
    simp only [mapM_iff, forall₂_comp]
    refine forall₂_iff fun v d => ⟨?_, ?_⟩
    · rintro ⟨⟨n, ty⟩, h1, h2⟩
      obtain ⟨sd, h3, rfl⟩ := Option.map_eq_some_iff.1 h2
      exact ⟨ty, variant_iff.1 h1, h3⟩
    · rintro ⟨ty, h1, h2⟩
      exact ⟨(d.1, ty), variant_iff.2 h1, Option.map_eq_some_iff.2 ⟨d.2, h2, rfl⟩⟩
  constructor
  · intro h
    cases its with
    | nil => cases h
    | cons i rest =>
      cases i with
      | other => cases h
      | call _ _ => cases h
      | enum vs =>
        simp only [nodeEnum, bind, Option.bind_eq_some_iff, pure, Option.some.injEq] at h
        obtain ⟨vars, h1, c, h2, ds, h3, rfl⟩ := h
        obtain ⟨bs, gs, as, h4, rfl⟩ := items_iff.1 h2
        exact .mk ((hv vs ds).1 ⟨vars, h1, h3⟩) (by simpa using h4)
  · rintro ⟨h1, h2⟩
    obtain ⟨vars, h3, h4⟩ := (hv _ _).2 h1
    simp only [nodeEnum, bind, Option.bind_eq_some_iff, pure, Option.some.injEq]
    exact ⟨vars, h3, ⟨S.bidirs, S.groups, S.annos⟩, items_iff.2 ⟨_, _, _, h2, by simp⟩, _, h4, rfl⟩

theorem attrs_iff {name : String} {as : List AttrSrc} {gs : List (List Ident)} : attrs name as = some gs ↔ WritesAttrs name as gs := by
  refine mapM_iff.trans (forall₂_iff fun a g => ?_)
  simp only [nestedMeta, Option.bind_eq_some_iff, terminated_iff metaIdent_exact]

/-- A text of the list. -/
theorem text_listed {one : α → List Tok} (h : ∀ x, R x (one x)) : ∀ xs, Listed R xs (text one xs) := by
  intro xs
  induction xs with
  | nil => exact .nil
  | cons x xs ih =>
    have h1 : text one (x :: xs) = one x ++ .punct ',' false :: text one xs := by simp [text]
    rw [h1]
    exact .more (h x) ⟨false, rfl⟩ ih

end Read
end TTGraph
