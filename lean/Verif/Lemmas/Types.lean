import Verif.Lemmas.Schema
import Verif.Spec.Types

/-!
# The link-type table
-/

set_option autoImplicit false

namespace TTGraph
open Spec
namespace Schema
variable {S : Schema}

theorem lexMin_mem : ∀ {l : List (List Ident)} {m : List Ident}, lexMin l = some m → m ∈ l
  | [], _, h => by simp [lexMin] at h
  | a :: l, m, h => by
    simp only [lexMin] at h
    cases hl : lexMin l with
    | none => rw [hl] at h; simp only [Option.some.injEq] at h; subst h; exact List.mem_cons_self
    | some b =>
      rw [hl] at h
      simp only at h
      split at h
      · simp only [Option.some.injEq] at h; subst h; exact List.mem_cons_self
      · simp only [Option.some.injEq] at h; subst h; exact List.mem_cons_of_mem _ (lexMin_mem hl)

theorem lexMin_none {l : List (List Ident)} (h : lexMin l = none) : l = [] := by
  cases l with
  | nil => rfl
  | cons a l =>
    simp only [lexMin] at h
    cases hl : lexMin l with
    | none => rw [hl] at h; simp at h
    | some b => rw [hl] at h; simp only at h; split at h <;> simp at h

theorem lexLe_iff : ∀ (a b : List Ident), lexLe a b = true ↔ a ≤ b
  | [], b => by simp [lexLe]
  | a :: as, [] => by simp [lexLe]
  | a :: as, b :: bs => by
    rw [lexLe, List.cons_le_cons_iff]
    by_cases h : a < b
    · simp [h]
    · by_cases h' : b < a
      · have : a ≠ b := fun e => by subst e; exact h h'
        simp [h, h', this]
      · have e : a = b := by
          have h1 : ¬ @LT.lt Nat _ a b := h
          have h2 : ¬ @LT.lt Nat _ b a := h'
          exact Nat.le_antisymm (Nat.le_of_not_lt h2) (Nat.le_of_not_lt h1)
        subst e
        simp [lexLe_iff as bs]

theorem lexMin_le : ∀ {l : List (List Ident)} {m : List Ident}, lexMin l = some m → ∀ x ∈ l, m ≤ x
  | [], _, _ => by simp
  | a :: l, m, h => by
    simp only [lexMin] at h
    cases hl : lexMin l with
    | none =>
      rw [hl] at h
      simp only [Option.some.injEq] at h
      subst h
      rw [lexMin_none hl]
      simp
    | some b =>
      rw [hl] at h
      simp only at h
      have ih := lexMin_le hl
      intro x hx
      split at h
      · rename_i hab
        simp only [Option.some.injEq] at h
        subst h
        rcases List.mem_cons.1 hx with rfl | hx
        · exact List.le_refl _
        · exact List.le_trans ((lexLe_iff _ _).1 hab) (ih x hx)
      · rename_i hab
        simp only [Option.some.injEq] at h
        subst h
        rcases List.mem_cons.1 hx with rfl | hx
        · rcases List.le_total b x with h | h
          · exact h
          · exact absurd ((lexLe_iff _ _).2 h) hab
        · exact ih x hx

theorem stands_iff (hw : WellNamed S) {v : Ident} {l : List Ident} : Stands S v l ↔ l = S.expandVar v := by
  simp only [Stands, expandVar]
  cases hg : S.group? v with
  | none =>
    have hno : ∀ ds, (v, ds) ∉ S.groups := fun ds hds => by
      rw [(group?_iff hw).2 hds] at hg; exact absurd hg (by simp)
    simp [hno]
  | some ds =>
    have hm := (group?_iff hw).1 hg
    simp only [Option.getD_some]
    constructor
    · rintro (h | ⟨h, _⟩)
      · have := (group?_iff hw).2 h
        rw [hg] at this
        exact (Option.some.inj this).symm
      · exact absurd hm (h ds)
    · rintro rfl
      exact .inl hm

theorem targets_iff (hw : WellNamed S) {a : TypeAnno} {vs : List Ident} : Targets S a vs ↔ vs = a.var2.flatMap S.expandVar := by
  have key : ∀ (l : List Ident) (ls : List (List Ident)), List.Forall₂ (Stands S) l ls ↔ ls = l.map S.expandVar := by
    intro l
    induction l with
    | nil => intro ls; simp
    | cons a l ih =>
      intro ls
      cases ls with
      | nil => simp
      | cons b ls => simp [stands_iff hw, ih]
  simp only [Targets, key, exists_eq_left, List.flatMap_def]

theorem mem_expandedAnnos {e : TypeAnno} :
    e ∈ S.expandedAnnos ↔ ∃ a ∈ S.annos, e.var ∈ S.expandVar a.var ∧ e.link = a.link ∧ e.var2 = a.var2.flatMap S.expandVar := by
  simp only [expandedAnnos, List.mem_flatMap, List.mem_map]
  constructor
  · rintro ⟨a, ha, v, hv, rfl⟩
    exact ⟨a, ha, hv, rfl, rfl⟩
  · rintro ⟨a, ha, hv, h1, h2⟩
    exact ⟨a, ha, e.var, hv, by rw [← h1, ← h2]⟩

theorem mem_annosOf {d log : Ident} {vs : List Ident} :
    vs ∈ (S.expandedAnnos.filter (fun a => a.var = d ∧ a.link = log)).map TypeAnno.var2 ↔
      ∃ a ∈ S.annos, d ∈ S.expandVar a.var ∧ a.link = log ∧ vs = a.var2.flatMap S.expandVar := by
  simp only [List.mem_map, List.mem_filter, mem_expandedAnnos, decide_eq_true_eq]
  constructor
  · rintro ⟨e, ⟨⟨a, ha, h1, h2, h3⟩, h4, h5⟩, rfl⟩
    exact ⟨a, ha, h4 ▸ h1, by rw [← h2, h5], h3⟩
  · rintro ⟨a, ha, h1, h2, h3⟩
    exact ⟨⟨d, log, vs⟩, ⟨⟨a, ha, h1, h2.symm, h3⟩, rfl, rfl⟩, rfl⟩

/-- A target that every annotation allows is accepted. -/
theorem checkLinkType_of_accept (hw : WellNamed S) {m : Mirror} {d : Ident} (h : AllAccept S m d) : S.checkLinkType d m = true := by
  simp only [checkLinkType, List.all_eq_true]
  intro log hlog
  obtain ⟨sd, hsd, hf⟩ := (mem_toLog hw).1 hlog
  simp only [checkLinkTypeByLog]
  split
  · rfl
  · rename_i vs hvs
    obtain ⟨a, ha, h1, h2, h3⟩ := mem_annosOf.1 (lexMin_mem hvs)
    obtain ⟨v, hv, hv'⟩ := h a ha ⟨(mem_expandVar hw).1 ⟨h1, mem_discs.2 ⟨sd, hsd⟩⟩, sd, hsd, h2 ▸ hf⟩
    simp only [decide_eq_true_eq, h3, List.mem_flatMap]
    exact ⟨v, hv, ((mem_expandVar hw).2 hv').1⟩

/-- An accepted target is allowed by every annotation, if no name is annotated twice on one variant. -/
theorem accept_of_checkLinkType (hw : WellNamed S) (ho : AnnotatedOnce S) {m : Mirror} {d : Ident} (hd : d ∈ S.discs)
    (h : S.checkLinkType d m = true) : AllAccept S m d := by
  intro a ha ⟨hv, sd, hsd, hf⟩
  simp only [checkLinkType, List.all_eq_true] at h
  have h1 := h a.link ((mem_toLog hw).2 ⟨sd, hsd, hf⟩)
  have h2 := mem_annosOf.2 ⟨a, ha, ((mem_expandVar hw).2 hv).1, rfl, rfl⟩
  simp only [checkLinkTypeByLog] at h1
  split at h1
  · rename_i hn
    rw [lexMin_none hn] at h2
    exact absurd h2 (by simp)
  · rename_i vs hvs
    obtain ⟨b, hb, h3, h4, h5⟩ := mem_annosOf.1 (lexMin_mem hvs)
    obtain rfl := ho b hb a ha m.disc ((mem_expandVar hw).1 ⟨h3, mem_discs.2 ⟨sd, hsd⟩⟩) hv h4
    simp only [decide_eq_true_eq, h5, List.mem_flatMap] at h1
    obtain ⟨v, hv1, hv2⟩ := h1
    exact ⟨v, hv1, (mem_expandVar hw).1 ⟨hv2, hd⟩⟩

/-- What decides for a name on a variant. -/
theorem decisive_iff (hw : WellNamed S) {d log : Ident} (hd : d ∈ S.discs) {vs : List Ident} :
    Decisive S d log vs ↔ lexMin ((S.expandedAnnos.filter (fun a => a.var = d ∧ a.link = log)).map TypeAnno.var2) = some vs := by
  have hv : ∀ a : TypeAnno, VarNames S a.var d ↔ d ∈ S.expandVar a.var := fun a => by
    rw [← mem_expandVar hw]
    exact ⟨And.left, fun h => ⟨h, hd⟩⟩
  simp only [Decisive, targets_iff hw, hv]
  constructor
  · rintro ⟨⟨a, ha, h1, h2, h3⟩, hmin⟩
    have hm := mem_annosOf.2 ⟨a, ha, h1, h2, h3⟩
    cases e : lexMin ((S.expandedAnnos.filter (fun a => a.var = d ∧ a.link = log)).map TypeAnno.var2) with
    | none => rw [lexMin_none e] at hm; exact absurd hm (by simp)
    | some ws =>
      obtain ⟨b, hb, h4, h5, h6⟩ := mem_annosOf.1 (lexMin_mem e)
      rw [List.le_antisymm (hmin b hb h4 h5 ws h6) (lexMin_le e vs hm)]
  · intro e
    refine ⟨mem_annosOf.1 (lexMin_mem e), fun b hb h1 h2 vs' h3 => lexMin_le e vs' (mem_annosOf.2 ⟨b, hb, h1, h2, h3⟩)⟩

/-- The link-type table, for all declarations. -/
theorem checkLinkType_iff (hw : WellNamed S) {m : Mirror} {d : Ident} : S.checkLinkType d m = true ↔ Permitted S m d := by
  simp only [checkLinkType, List.all_eq_true, mem_toLog hw, Permitted]
  constructor
  · intro h sd log vs hsd hf hdec
    have := h log ⟨sd, hsd, hf⟩
    rw [checkLinkTypeByLog, (decisive_iff hw (mem_discs.2 ⟨sd, hsd⟩)).1 hdec] at this
    simpa using this
  · rintro h log ⟨sd, hsd, hf⟩
    rw [checkLinkTypeByLog]
    split
    · rfl
    · rename_i vs hvs
      simpa using h sd log vs hsd hf ((decisive_iff hw (mem_discs.2 ⟨sd, hsd⟩)).2 hvs)

theorem permitted_of_accept (hw : WellNamed S) {m : Mirror} {d : Ident} (h : AllAccept S m d) : Permitted S m d :=
  (checkLinkType_iff hw).1 (checkLinkType_of_accept hw h)

end Schema
end TTGraph
