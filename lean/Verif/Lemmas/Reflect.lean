import Verif.Lemmas.Schema
import Verif.Model.Bidir
import Verif.Model.Reflect

/-!
# The generated tables
-/

set_option autoImplicit false

namespace TTGraph
open Spec
variable {S : Schema}

/-- The entry of a link field. -/
def FieldDecl.entry (f : FieldDecl) : LinkEntry := .field f.name (f.kind?.getD .direct)

namespace StructDecl

theorem entries_eq (sd : StructDecl) : sd.entries = if sd.links.isEmpty then [.empty] else sd.links.map FieldDecl.entry := by
  have h : (sd.fields.flatMap fun f => match f.ty with | .link k => [LinkEntry.field f.name k] | .data .. => []) = sd.links.map FieldDecl.entry := by
    rw [links]
    generalize sd.fields = l
    induction l with
    | nil => rfl
    | cons f l ih =>
      rw [List.flatMap_cons, ih, List.filter_cons]
      cases hf : f.ty with
      | link k => simp [FieldDecl.isLink, hf, FieldDecl.entry, FieldDecl.kind?]
      | data t b => simp [FieldDecl.isLink, hf]
  rw [entries]
  refine (congrArg (fun l : List LinkEntry => if l.isEmpty then [LinkEntry.empty] else l) h).trans ?_
  simp only [List.isEmpty_map]

theorem entries_flatMap {α : Type} (sd : StructDecl) (g : LinkEntry → List α) (hg : g .empty = []) :
    sd.entries.flatMap g = sd.links.flatMap fun f => g f.entry := by
  rw [entries_eq]
  split
  · rename_i h
    rw [List.isEmpty_iff] at h
    simp [h, hg]
  · rw [List.flatMap_map]

theorem linkNameTable_eq (sd : StructDecl) : sd.linkNameTable = sd.links.map FieldDecl.name := by
  rw [linkNameTable, entries_flatMap _ _ rfl]
  induction sd.links with
  | nil => rfl
  | cons f l ih => rw [List.flatMap_cons, ih]; rfl

theorem linkTypes_eq (sd : StructDecl) : sd.linkTypes = sd.links.map fun f => f.kind?.getD .direct := by
  rw [linkTypes, entries_flatMap _ _ rfl]
  induction sd.links with
  | nil => rfl
  | cons f l ih => rw [List.flatMap_cons, ih]; rfl

theorem linkTypes_kinds (sd : StructDecl) : sd.linkTypes = sd.linkKinds := by
  rw [linkTypes_eq, links, linkKinds]
  induction sd.fields with
  | nil => rfl
  | cons f l ih =>
    rw [List.filter_cons, List.filterMap_cons]
    cases hf : f.ty with
    | link k => simp [FieldDecl.isLink, hf, FieldDecl.kind?, ← ih]
    | data t b => simp [FieldDecl.isLink, hf, FieldDecl.kind?, ← ih]

theorem linkMirrors_aux (d : Ident) : ∀ (l : List FieldDecl) (k : Nat), (((l.map FieldDecl.entry).zipIdx k).flatMap fun
      | (.field _ _, p) => [Mirror.mk d p]
      | (.empty, _) => []) = (List.range' k l.length).map (Mirror.mk d) := by
  intro l
  induction l with
  | nil => intro k; rfl
  | cons f l ih =>
    intro k
    rw [List.map_cons, List.zipIdx_cons, List.flatMap_cons, ih]
    rfl

theorem linkMirrors_eq (sd : StructDecl) (d : Ident) : sd.linkMirrors d = (List.range sd.links.length).map (Mirror.mk d) := by
  rw [linkMirrors, entries_eq]
  split
  · rename_i h
    rw [List.isEmpty_iff] at h
    rw [h]; rfl
  · rw [List.range_eq_range']
    exact linkMirrors_aux d sd.links 0

theorem mem_linkMirrors {sd : StructDecl} {d : Ident} {m : Mirror} : m ∈ sd.linkMirrors d ↔ m.disc = d ∧ m.pos < sd.links.length := by
  rw [linkMirrors_eq, List.mem_map]
  constructor
  · rintro ⟨p, hp, rfl⟩
    exact ⟨rfl, List.mem_range.1 hp⟩
  · rintro ⟨rfl, hp⟩
    exact ⟨m.pos, List.mem_range.2 hp, rfl⟩

theorem logByName_eq (sd : StructDecl) (name : Ident) : sd.logByName name = if name ∈ sd.linkNames ++ sd.groupKeys then some name else none := by
  have h : ∀ l : List Ident, l.find? (fun n => n = name) = if name ∈ l then some name else none := by
    intro l
    induction l with
    | nil => rfl
    | cons a l ih =>
      rw [List.find?_cons]
      by_cases ha : a = name
      · simp [ha]
      · have hne : ¬ name = a := fun h => ha h.symm
        simp [ha, ih, hne]
  rw [logByName]
  refine (h _).trans ?_
  have : (sd.entries.flatMap fun | .field n _ => [n] | .empty => []) = sd.linkNames := linkNameTable_eq sd
  exact congrArg (fun l => if name ∈ l ++ sd.groupKeys then some name else none) this

theorem links_length_kinds (sd : StructDecl) : sd.links.length = sd.linkKinds.length := by
  rw [← linkTypes_kinds, linkTypes_eq, List.length_map]

end StructDecl

theorem nextDisc_eq : ∀ {ds : List Ident}, ds.Nodup → ∀ {i : Nat} {d : Ident}, ds[i]? = some d → nextDisc ds d = ds[i + 1]? := by
  intro ds
  induction ds with
  | nil => intro _ i d h; simp at h
  | cons x ds ih =>
    intro hn i d h
    rw [List.nodup_cons] at hn
    cases i with
    | zero =>
      simp only [List.getElem?_cons_zero, Option.some.injEq] at h
      subst h
      simp [nextDisc, List.head?_eq_getElem?]
    | succ i =>
      rw [List.getElem?_cons_succ] at h
      have hne : x ≠ d := fun e => hn.1 (e ▸ List.mem_of_getElem? h)
      rw [nextDisc, if_neg hne, ih hn.2 h, List.getElem?_cons_succ]

theorem discLoop_eq (hn : S.discs.Nodup) : ∀ (fuel i : Nat), S.discs.length < fuel + i → S.discLoop fuel S.discs[i]? = S.discs.drop i := by
  intro fuel
  induction fuel with
  | zero =>
    intro i h
    rw [Schema.discLoop, List.drop_eq_nil_of_le (by omega)]
  | succ fuel ih =>
    intro i h
    cases hd : S.discs[i]? with
    | none => rw [Schema.discLoop, List.drop_eq_nil_of_le (List.getElem?_eq_none_iff.1 hd)]; simp
    | some d =>
      rw [Schema.discLoop, nextDisc_eq hn hd, ih (i + 1) (by omega)]
      have hlt := (List.getElem?_eq_some_iff.1 hd)
      rw [List.drop_eq_getElem_cons hlt.1, hlt.2]

theorem LinkVal.sources_fst (d : Ident) (p : Nat) (v : LinkVal) : (v.sources d p).map Prod.fst = v.iterLinks := by
  cases v with
  | direct i => simp only [sources, iterLinks]; split <;> rfl
  | set s => simp [sources, iterLinks, Function.comp_def]
  | vec l =>
    simp only [sources, iterLinks, List.map_map, Function.comp_def]
    suffices h : ∀ k, ((l.zipIdx k).filter fun p => decide (p.1 ≠ emptyIdx)).map (fun x => x.1) = l.filter fun i => decide (i ≠ emptyIdx) from h 0
    induction l with
    | nil => intro k; rfl
    | cons a l ih =>
      intro k
      rw [List.zipIdx_cons, List.filter_cons, List.filter_cons]
      dsimp only
      split
      · rw [List.map_cons, ih]
      · exact ih _

theorem mapE_eq {α β : Type} {f : α → Except Panic β} {g : α → β} : ∀ {l : List α}, (∀ a ∈ l, f a = .ok (g a)) → mapE f l = .ok (l.map g) := by
  intro l
  induction l with
  | nil => intro _; rfl
  | cons a l ih =>
    intro h
    rw [mapE, h a (List.mem_cons_self ..), ih fun b hb => h b (List.mem_cons_of_mem _ hb)]
    rfl

end TTGraph
