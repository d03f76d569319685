import Verif.Spec.Query
import Verif.Lemmas.Schema
import Verif.Lemmas.Node
import Verif.Lemmas.Types
import Verif.Demo.Decls

/-!
# C39 to C41: queries by name, by group and for data
-/

set_option autoImplicit false

namespace TTGraph

open Spec

variable {S : Schema}

/-! ## C39 -/

theorem iterLinks_targets {v : LinkVal} (h : ∀ s, v = .set s → emptyIdx ∉ s.elems) : v.iterLinks = targets v := by
  cases v with
  | direct i => by_cases hi : i = emptyIdx <;> simp [LinkVal.iterLinks, targets, hi]
  | set s =>
    refine (List.filter_eq_self.2 fun a ha => ?_).symm
    have : a ≠ emptyIdx := fun e => h s rfl (e ▸ ha)
    simpa using this
  | vec l => rfl

theorem groupExtend_targets {v : LinkVal} (h : ∀ s, v = .set s → emptyIdx ∉ s.elems) (hv : ∀ l, v = .vec l → emptyIdx ∉ l) :
    Node.groupExtend v = targets v := by
  cases v with
  | direct i => by_cases hi : i = emptyIdx <;> simp [Node.groupExtend, targets, hi]
  | set s => exact iterLinks_targets h
  | vec l =>
    refine (List.filter_eq_self.2 fun a ha => ?_).symm
    have : a ≠ emptyIdx := fun e => hv l rfl (e ▸ ha)
    simpa using this

theorem targets_mem {v : LinkVal} {y : NodeIndex} : y ∈ targets v ↔ y ≠ emptyIdx ∧ ∃ slot, v.Holds slot y := by
  cases v with
  | direct i =>
    simp only [targets, LinkVal.Holds, List.mem_filter, List.mem_singleton, decide_eq_true_eq]
    exact ⟨fun h => ⟨h.2, 0, rfl, h.1.symm, h.2⟩, fun ⟨h, _, _, h2, _⟩ => ⟨h2.symm, h⟩⟩
  | set s =>
    simp only [targets, LinkVal.Holds, List.mem_filter, decide_eq_true_eq]
    exact ⟨fun h => ⟨h.2, 0, rfl, h.1⟩, fun ⟨h, _, _, h2⟩ => ⟨h2, h⟩⟩
  | vec l =>
    simp only [targets, LinkVal.Holds, List.mem_filter, decide_eq_true_eq]
    constructor
    · rintro ⟨h1, h2⟩
      obtain ⟨k, hk⟩ := List.mem_iff_getElem?.1 h1
      exact ⟨h2, k, hk, h2⟩
    · rintro ⟨h, k, h1, _⟩
      exact ⟨List.mem_of_getElem? h1, h⟩

theorem iterLinks_mem {v : LinkVal} {y : NodeIndex} (hy : y ≠ emptyIdx) : y ∈ v.iterLinks ↔ y ∈ targets v := by
  cases v with
  | direct i =>
    by_cases hi : i = emptyIdx
    · simp [LinkVal.iterLinks, targets, hi]
    · simp [LinkVal.iterLinks, targets, hi]
  | set s => simp [LinkVal.iterLinks, targets, hy]
  | vec l => rfl

theorem groupExtend_mem {v : LinkVal} {y : NodeIndex} (hy : y ≠ emptyIdx) : y ∈ Node.groupExtend v ↔ y ∈ targets v := by
  cases v with
  | direct i =>
    by_cases hi : i = emptyIdx
    · simp [Node.groupExtend, targets, hi]
    · simp [Node.groupExtend, targets, hi]
  | set s => simp [Node.groupExtend, targets, hy]
  | vec l => simp [Node.groupExtend, targets, hy]

theorem getLinksByName_field (hw : WellNamed S) {n : Node} {p : Nat} {fd : FieldDecl} {v : LinkVal} (h : LinkField S n p fd v) :
    n.getLinksByName S fd.name = v.iterLinks := by
  obtain ⟨sd, h1, h2, h3⟩ := h
  have : sd.linkPos fd.name = some p := (StructDecl.linkPos_iff (hw.fields _ _ h1)).2 ⟨fd, h2, rfl⟩
  simp only [Node.getLinksByName, (Schema.struct?_iff hw).2 h1, Option.bind_some, this, h3]

/-- `get_links_by_name(f)` yields exactly the non-empty targets of the field `f` in order, for nodes without the empty index in their sets.

Full statement of the first part of C39: the same without the condition on sets.  That is false, see below. -/
theorem C39_name_partial (hw : WellNamed S) {n : Node} {p : Nat} {fd : FieldDecl} {v : LinkVal} (hn : NoEmptyInSets n) (h : LinkField S n p fd v) :
    n.getLinksByName S fd.name = targets v := by
  rw [getLinksByName_field hw h]
  refine iterLinks_targets ?_
  rintro s rfl
  obtain ⟨sd, _, _, h3⟩ := h
  exact hn s (List.mem_of_getElem? h3)

/-- Apart from the empty index, `get_links_by_name(f)` yields the targets of the field `f` for every node. -/
theorem C39_name_nonempty (hw : WellNamed S) {n : Node} {p : Nat} {fd : FieldDecl} {v : LinkVal} (h : LinkField S n p fd v) {y : NodeIndex}
    (hy : y ≠ emptyIdx) : y ∈ n.getLinksByName S fd.name ↔ ∃ slot, v.Holds slot y := by
  rw [getLinksByName_field hw h, iterLinks_mem hy, targets_mem]
  exact ⟨fun h => h.2, fun h => ⟨hy, h⟩⟩

/-- `get_links_by_name(f)` yields nothing if the node has no link field `f`. -/
theorem C39_name_unknown (hw : WellNamed S) {n : Node} {f : Ident} (h : ∀ p fd v, LinkField S n p fd v → fd.name ≠ f) : n.getLinksByName S f = [] := by
  simp only [Node.getLinksByName]
  cases hs : S.struct? n.disc with
  | none => rfl
  | some sd =>
    have hm := (Schema.struct?_iff hw).1 hs
    simp only [Option.bind_some]
    cases hp : sd.linkPos f with
    | none => rfl
    | some p =>
      obtain ⟨fd, h1, h2⟩ := (StructDecl.linkPos_iff (hw.fields _ _ hm)).1 hp
      simp only
      cases hv : n.links[p]? with
      | none => rfl
      | some v => exact absurd h2 (h p fd v ⟨sd, hm, h1, hv⟩)

theorem getLinksByGroup_eq (hw : WellNamed S) {n : Node} {sd : StructDecl} (hd : (n.disc, sd) ∈ S.variants) (g : Ident) :
    n.getLinksByGroup S g =
      ((sd.links.zip n.links).filter (fun p => p.1.groupAttrs.any (fun gs => decide (g ∈ gs)))).flatMap (fun p => Node.groupExtend p.2) := by
  simp only [Node.getLinksByGroup, (Schema.struct?_iff hw).2 hd, StructDecl.groupsVec_eq (hw.oneAttr _ _ hd)]
  have key : ∀ (fs : List FieldDecl), (∀ f ∈ fs, f.groupAttrs.length ≤ 1 ∧ ∀ gs ∈ f.groupAttrs, gs.Nodup) → ∀ (ls : List LinkVal),
      ((ls.zip (fs.map fun f => f.groupAttrs.flatten)).flatMap fun p => (p.2.filter (· = g)).flatMap fun _ => Node.groupExtend p.1) =
      ((fs.zip ls).filter (fun p => p.1.groupAttrs.any (fun gs => decide (g ∈ gs)))).flatMap (fun p => Node.groupExtend p.2) := by
    intro fs
    induction fs with
    | nil => intro _ ls; simp
    | cons f fs ih =>
      intro hf ls
      cases ls with
      | nil => simp
      | cons v ls =>
        have hrec := ih (fun f hf' => hf f (List.mem_cons_of_mem _ hf')) ls
        simp only [List.map_cons, List.zip_cons_cons, List.flatMap_cons, hrec]
        have hone : (f.groupAttrs.flatten.filter (· = g)) = if f.groupAttrs.any (fun gs => decide (g ∈ gs)) then [g] else [] := by
          obtain ⟨h1, h2⟩ := hf f List.mem_cons_self
          rcases hfa : f.groupAttrs with _ | ⟨gs, _ | ⟨_, _⟩⟩
          · simp
          · have hnd := h2 gs (by rw [hfa]; simp)
            simp only [List.flatten_cons, List.flatten_nil, List.append_nil, List.any_cons, List.any_nil, Bool.or_false, decide_eq_true_eq]
            rw [List.filter_eq, List.Nodup.count hnd]
            by_cases hg : g ∈ gs <;> simp [hg]
          · rw [hfa] at h1; simp at h1
        rw [hone]
        by_cases ha : f.groupAttrs.any (fun gs => decide (g ∈ gs)) = true
        · simp [ha]
        · simp [ha]
  exact key sd.links (fun f hf => ⟨hw.oneAttr _ _ hd f (List.mem_filter.1 hf).1, fun gs hgs => hw.groupOnce _ _ hd f (List.mem_filter.1 hf).1 gs hgs⟩) n.links

/-- `get_links_by_group(g)` yields exactly the non-empty targets of the fields declared in the group, field by field in the order of declaration,
for nodes without the empty index in their sets and `Vec`s.

Full statement of the second part of C39: the same without the condition on sets and `Vec`s.  That is false, see below. -/
theorem C39_group_partial (hw : WellNamed S) {n : Node} {sd : StructDecl} (hd : (n.disc, sd) ∈ S.variants) (hs : NoEmptyInSets n)
    (hv : NoEmptyInVecs n) (g : Ident) :
    n.getLinksByGroup S g =
      ((sd.links.zip n.links).filter (fun p => p.1.groupAttrs.any (fun gs => decide (g ∈ gs)))).flatMap (fun p => targets p.2) := by
  rw [getLinksByGroup_eq hw hd]
  refine List.flatMap_congr fun p hp => ?_
  have := (List.of_mem_zip (List.mem_filter.1 hp).1).2
  exact groupExtend_targets (fun s e => hs s (e ▸ this)) (fun l e => hv l (e ▸ this))

/-- Apart from the empty index, `get_links_by_group(g)` yields the targets of the fields declared in the group for every node.  In particular
it yields nothing else for unknown names. -/
theorem C39_group_nonempty (hw : WellNamed S) {n : Node} {g : Ident} {y : NodeIndex} (hy : y ≠ emptyIdx) :
    y ∈ n.getLinksByGroup S g ↔ ∃ p fd v, LinkField S n p fd v ∧ FieldDecl.InGroup fd g ∧ ∃ slot, v.Holds slot y := by
  cases hs : S.struct? n.disc with
  | none =>
    simp only [Node.getLinksByGroup, hs]
    constructor
    · intro h; exact absurd h (by simp)
    · rintro ⟨p, fd, v, ⟨sd, h1, _⟩, _⟩
      rw [(Schema.struct?_iff hw).2 h1] at hs
      exact absurd hs (by simp)
  | some sd =>
    have hm := (Schema.struct?_iff hw).1 hs
    rw [getLinksByGroup_eq hw hm]
    simp only [List.mem_flatMap, List.mem_filter, groupExtend_mem hy, targets_mem, List.any_eq_true, decide_eq_true_eq]
    constructor
    · rintro ⟨⟨fd, v⟩, ⟨h1, gs, h2, h3⟩, _, h4⟩
      obtain ⟨p, hp⟩ := List.mem_iff_getElem?.1 h1
      rw [List.getElem?_zip_eq_some] at hp
      exact ⟨p, fd, v, ⟨sd, hm, hp.1, hp.2⟩, ⟨gs, h2, h3⟩, h4⟩
    · rintro ⟨p, fd, v, ⟨sd', h1, h2, h3⟩, ⟨gs, h4, h5⟩, h6⟩
      have := (Schema.struct?_iff hw).2 h1
      rw [hs, Option.some.injEq] at this
      subst this
      exact ⟨(fd, v), ⟨List.mem_of_getElem? (List.getElem?_zip_eq_some.2 ⟨h2, h3⟩), gs, h4, h5⟩, hy, h6⟩

/-- `get_links_by_group(g)` yields nothing if no field of the node is declared in the group. -/
theorem C39_group_unknown (hw : WellNamed S) {n : Node} {g : Ident} (h : ∀ p fd v, LinkField S n p fd v → ¬ FieldDecl.InGroup fd g) :
    n.getLinksByGroup S g = [] := by
  cases hs : S.struct? n.disc with
  | none => simp only [Node.getLinksByGroup, hs]
  | some sd =>
    have hm := (Schema.struct?_iff hw).1 hs
    rw [getLinksByGroup_eq hw hm, List.filter_eq_nil_iff.2, List.flatMap_nil]
    rintro ⟨fd, v⟩ h1 h2
    simp only [List.any_eq_true, decide_eq_true_eq] at h2
    obtain ⟨p, hp⟩ := List.mem_iff_getElem?.1 h1
    rw [List.getElem?_zip_eq_some] at hp
    obtain ⟨gs, h3, h4⟩ := h2
    exact h p fd v ⟨sd, hm, hp.1, hp.2⟩ ⟨gs, h3, h4⟩

/-! ## C40 -/

/-- A link field belongs to the groups listed in its `#[group(..)]` attribute, and to no others, for `get_links_by_group`: an index that only
this field holds is in the result iff the field lists the group.

Full statement of C40: this, `C40_bidirectional_partial` and `C40_link_type_partial` also for fields with several `#[group(..)]` attributes.
That is false, see below.  All three assume `WellNamed`, which allows one attribute per field. -/
theorem C40_query_partial (hw : WellNamed S) {n : Node} {p : Nat} {fd : FieldDecl} {v : LinkVal} (h : LinkField S n p fd v) {y : NodeIndex}
    (hy : y ≠ emptyIdx) (hv : ∃ slot, v.Holds slot y) (ho : ∀ q fd' v', LinkField S n q fd' v' → (∃ slot, v'.Holds slot y) → q = p) (g : Ident) :
    y ∈ n.getLinksByGroup S g ↔ FieldDecl.InGroup fd g := by
  rw [C39_group_nonempty hw hy]
  constructor
  · rintro ⟨q, fd', v', h1, h2, h3⟩
    obtain rfl := ho q fd' v' h1 h3
    obtain ⟨sd, a1, a2, _⟩ := h
    obtain ⟨sd', b1, b2, _⟩ := h1
    have := (Schema.struct?_iff hw).2 a1
    rw [(Schema.struct?_iff hw).2 b1, Option.some.injEq] at this
    subst this
    rw [a2, Option.some.injEq] at b2
    rw [b2]
    exact h2
  · exact fun h2 => ⟨p, fd, v, h, h2, hv⟩

/-- The table behind `bidirectional!`: `m'` is offered as an opposite of `m` iff a line connects them, where a name in a line stands for the
field of that name and for the fields that list it as a group. -/
theorem C40_bidirectional_partial (hw : WellNamed S) (m m' : Mirror) : m' ∈ S.mirrorsOf m ↔ Opposite S m m' := Schema.mem_mirrorsOf hw

/-- The table behind `link_type!`: the field `m` may link to a node of variant `d` iff all annotations of its name and of its groups allow it. -/
theorem C40_link_type_partial (hw : WellNamed S) (ha : AnnotatedOnce S) (m : Mirror) {d : Ident} (hd : d ∈ S.discs) :
    S.checkLinkType d m = true ↔ AllAccept S m d :=
  ⟨Schema.accept_of_checkLinkType hw ha hd, Schema.checkLinkType_of_accept hw⟩

/-! ## C41 -/

/-- `data_ref_by_name::<T>(f)` returns only a data field `f` of type `T`. -/
theorem C41_sound (hw : WellNamed S) {n : Node} {f : Ident} {ty : Nat} {v : DataVal} (h : n.dataRefByName S f ty = some v) :
    ∃ p fd, DataField S n p fd v ∧ fd.name = f ∧ FieldDecl.IsPath fd ∧ v.ty = ty := by
  simp only [Node.dataRefByName] at h
  split at h
  · rename_i sd hs
    have hm := (Schema.struct?_iff hw).1 hs
    split at h
    · rename_i q hq
      split at h
      · rename_i hty
        rw [Option.some.injEq] at h
        subst h
        obtain ⟨p, hp⟩ := List.mem_iff_getElem?.1 (List.mem_of_find?_eq_some hq)
        obtain ⟨h1, h2⟩ := List.getElem?_zip_eq_some.1 hp
        have h3 := List.find?_some hq
        simp only [Bool.and_eq_true, decide_eq_true_eq] at h3
        refine ⟨p, q.1, ⟨sd, hm, h1, h2⟩, h3.1, ?_, hty⟩
        have h4 := h3.2
        cases ht : q.1.ty with
        | link k => rw [ht] at h4; exact absurd h4 (by simp)
        | data t b => rw [ht] at h4; exact ⟨t, by rw [ht]; simpa using h4⟩
      · exact absurd h (by simp)
    · exact absurd h (by simp)
  · exact absurd h (by simp)

theorem dataFields_inj {sd : StructDecl} (h : (sd.fields.map FieldDecl.name).Nodup) {p q : Nat} {f g : FieldDecl} (hp : sd.dataFields[p]? = some f)
    (hq : sd.dataFields[q]? = some g) (hn : f.name = g.name) : p = q := by
  have hnd : (sd.dataFields.map FieldDecl.name).Nodup := h.sublist ((List.filter_sublist (l := sd.fields)).map _)
  refine (List.getElem?_inj (by simpa using (List.getElem?_eq_some_iff.1 hp).1) hnd).1 ?_
  rw [List.getElem?_map, List.getElem?_map, hp, hq]
  simp [hn]

/-- `data_ref_by_name::<T>(f)` returns every data field `f` of type `T` whose type is written as a path.

Full statement of C41: the same without the condition on how the type is written.  That is false, see below. -/
theorem C41_complete_partial (hw : WellNamed S) {n : Node} {p : Nat} {fd : FieldDecl} {v : DataVal} (h : DataField S n p fd v) (hp : FieldDecl.IsPath fd) :
    n.dataRefByName S fd.name v.ty = some v := by
  obtain ⟨sd, h1, h2, h3⟩ := h
  obtain ⟨t, ht⟩ := hp
  have hmem : (fd, v) ∈ sd.dataFields.zip n.data := List.mem_of_getElem? (List.getElem?_zip_eq_some.2 ⟨h2, h3⟩)
  simp only [Node.dataRefByName, (Schema.struct?_iff hw).2 h1]
  cases hq : (sd.dataFields.zip n.data).find? (fun p => decide (p.1.name = fd.name) && (match p.1.ty with | .data _ b => b | .link _ => false)) with
  | none =>
    have := List.find?_eq_none.1 hq (fd, v) hmem
    simp [ht] at this
  | some q =>
    have h4 := List.find?_some hq
    simp only [Bool.and_eq_true, decide_eq_true_eq] at h4
    obtain ⟨k, hk⟩ := List.mem_iff_getElem?.1 (List.mem_of_find?_eq_some hq)
    obtain ⟨h5, h6⟩ := List.getElem?_zip_eq_some.1 hk
    have := dataFields_inj (hw.fields _ _ h1) h5 h2 h4.1
    subst this
    rw [h3, Option.some.injEq] at h6
    simp only [← h6, if_true]

/-- It returns `None` for names and types for which the node has no such field. -/
theorem C41_none (hw : WellNamed S) {n : Node} {f : Ident} {ty : Nat} (h : ∀ p fd v, DataField S n p fd v → fd.name = f → v.ty ≠ ty) :
    n.dataRefByName S f ty = none := by
  cases hr : n.dataRefByName S f ty with
  | none => rfl
  | some v =>
    obtain ⟨p, fd, h1, h2, _, h3⟩ := C41_sound hw hr
    exact absurd h3 (h p fd v h1 h2)

/-- Fields whose type is not written as a path are never found. -/
theorem C41_no_path_fails (hw : WellNamed S) {n : Node} {p : Nat} {fd : FieldDecl} {v : DataVal} (h : DataField S n p fd v)
    (hp : ¬ FieldDecl.IsPath fd) (ty : Nat) : n.dataRefByName S fd.name ty = none := by
  cases hr : n.dataRefByName S fd.name ty with
  | none => rfl
  | some v' =>
    obtain ⟨q, fd', ⟨sd', h1', h2', _⟩, h2, h3, _⟩ := C41_sound hw hr
    obtain ⟨sd, h1, h4, _⟩ := h
    have := (Schema.struct?_iff hw).2 h1'
    rw [(Schema.struct?_iff hw).2 h1, Option.some.injEq] at this
    subst this
    have := dataFields_inj (hw.fields _ _ h1) h2' h4 h2
    subst this
    rw [h4, Option.some.injEq] at h2'
    subst h2'
    exact absurd h3 hp

end TTGraph

namespace TTGraph
namespace Demo
open Spec

/-- Variant A with groups 50 = {10, 11} and 51 = {12} of link fields, and two data fields, the second one with a type that is no path. -/
def tagged : Schema :=
  { variants := [(1, ⟨[lnk 10 .direct [[50]], lnk 11 .set [[50, 52]], lnk 12 .vec [[51]], dat 13 100, dat 14 101 false], []⟩),
                 (2, ⟨[lnk 20 .set], []⟩)] }

theorem tagged_named : WellNamed tagged := wellNamed_sound (by decide)

/-- A node of variant A. -/
def gA (f : NodeIndex) (s v : List NodeIndex) (d e : Nat) : Node := ⟨1, [.direct f, .set (setOf s), .vec v], [⟨100, d⟩, ⟨101, e⟩]⟩

theorem gA_field {p : Nat} {fd : FieldDecl} {v : LinkVal} {f : NodeIndex} {s l : List NodeIndex} {d e : Nat}
    (h : LinkField tagged (gA f s l d e) p fd v) : fd.name = 10 ∨ fd.name = 11 ∨ fd.name = 12 := by
  obtain ⟨sd, h1, h2, _⟩ := h
  have := (Schema.struct?_iff tagged_named).2 h1
  rw [show tagged.struct? (gA f s l d e).disc = some _ from rfl, Option.some.injEq] at this
  subst this
  have := List.mem_map_of_mem (f := FieldDecl.name) (List.mem_of_getElem? h2)
  revert this
  rw [show List.map FieldDecl.name _ = [10, 11, 12] from rfl]
  simp

/-- C39: the hypotheses are met. -/
example : WellNamed tagged ∧ NoEmptyInSets (gA 2 [3, 4] [5, 2, 5] 7 8) ∧ NoEmptyInVecs (gA 2 [3, 4] [5, 2, 5] 7 8) ∧
    LinkField tagged (gA 2 [3, 4] [5, 2, 5] 7 8) 2 (lnk 12 .vec [[51]]) (.vec [5, 2, 5]) ∧ targets (.vec [5, 2, 5]) = [5, 2, 5] ∧
    (gA 2 [3, 4] [5, 2, 5] 7 8).getLinksByGroup tagged 50 = [2, 3, 4] ∧
    ∀ p fd v, LinkField tagged (gA 2 [3, 4] [5, 2, 5] 7 8) p fd v → fd.name ≠ 13 := by
  refine ⟨tagged_named, ?_, ?_, ⟨_, List.mem_cons_self, rfl, rfl⟩, by decide, by decide, ?_⟩
  · intro s hs
    simp only [gA, List.mem_cons, LinkVal.set.injEq, reduceCtorEq, false_or, or_false, List.not_mem_nil] at hs
    subst hs
    decide
  · intro s hs
    simp only [gA, List.mem_cons, LinkVal.vec.injEq, reduceCtorEq, false_or, or_false, List.not_mem_nil] at hs
    subst hs
    decide
  · intro p fd v h e
    rcases gA_field h with h | h | h <;> rw [h] at e <;> exact absurd e (by decide)

/-- C39 fails: a set may contain the empty index, which `get_links_by_name` then yields. -/
theorem C39_name_fails : LinkField tagged (gA 2 [0, 3] [] 7 8) 1 (lnk 11 .set [[50, 52]]) (.set (setOf [0, 3])) ∧
    targets (.set (setOf [0, 3])) = [3] ∧ (gA 2 [0, 3] [] 7 8).getLinksByName tagged 11 = [0, 3] :=
  ⟨⟨_, List.mem_cons_self, rfl, rfl⟩, by decide, by decide⟩

/-- C39 fails: `get_links_by_group` yields the empty positions of a `Vec`, which `get_links_by_name` leaves out. -/
theorem C39_group_fails : NoEmptyInSets (gA 2 [] [5, 0, 6] 7 8) ∧ (gA 2 [] [5, 0, 6] 7 8).getLinksByName tagged 12 = [5, 6] ∧
    (gA 2 [] [5, 0, 6] 7 8).getLinksByGroup tagged 51 = [5, 0, 6] := by
  refine ⟨?_, by decide, by decide⟩
  intro s hs
  simp only [gA, List.mem_cons, LinkVal.set.injEq, reduceCtorEq, false_or, or_false, List.not_mem_nil] at hs
  subst hs
  decide

/-- C40: the hypotheses of `C40_query_partial` are met. -/
example : LinkField tagged (gA 2 [3] [5] 7 8) 1 (lnk 11 .set [[50, 52]]) (.set (setOf [3])) ∧ (∃ slot, (LinkVal.set (setOf [3])).Holds slot 3) ∧
    (∀ q fd' v', LinkField tagged (gA 2 [3] [5] 7 8) q fd' v' → (∃ slot, v'.Holds slot 3) → q = 1) ∧
    FieldDecl.InGroup (lnk 11 .set [[50, 52]]) 52 ∧ ¬ FieldDecl.InGroup (lnk 11 .set [[50, 52]]) 51 := by
  refine ⟨⟨_, List.mem_cons_self, rfl, rfl⟩, ⟨0, rfl, by decide⟩, ?_, ⟨_, List.mem_cons_self, by decide⟩, ?_⟩
  · rintro q fd' v' ⟨_, _, _, h⟩ ⟨slot, hh⟩
    match q with
    | 0 =>
      rw [show (gA 2 [3] [5] 7 8).links[0]? = some (.direct 2) from rfl, Option.some.injEq] at h
      subst h
      exact absurd hh.2.1 (by decide)
    | 1 => rfl
    | 2 =>
      rw [show (gA 2 [3] [5] 7 8).links[2]? = some (.vec [5]) from rfl, Option.some.injEq] at h
      subst h
      have := List.mem_of_getElem? hh.1
      exact absurd this (by decide)
    | k + 3 => exact absurd h (by simp [gA])
  · rintro ⟨gs, h1, h2⟩
    simp only [lnk, List.mem_singleton] at h1
    subst h1
    exact absurd h2 (by decide)

/-- The field 10 has the two attributes `#[group(50)] #[group(51)]`, the field 11 has none.  Group 51 of A is opposite to the field 20 of B, and
may link only to B. -/
def twoAttrs : Schema :=
  { variants := [(1, ⟨[lnk 10 .direct [[50], [51]], lnk 11 .set], []⟩), (2, ⟨[lnk 20 .set], []⟩)], bidirs := [⟨1, 51, 2, 20⟩], annos := [⟨1, 51, [2]⟩] }

def tA (f : NodeIndex) (s : List NodeIndex) : Node := ⟨1, [.direct f, .set (setOf s)], []⟩
def tB (h : List NodeIndex) : Node := ⟨2, [.set (setOf h)], []⟩

/-- C40 fails for two attributes: `get_links_by_group` takes the second attribute for that of the next field. -/
theorem C40_query_fails : FieldDecl.InGroup (lnk 10 .direct [[50], [51]]) 51 ∧ ¬ FieldDecl.InGroup (lnk 11 .set) 51 ∧
    LinkField twoAttrs (tA 2 [3]) 0 (lnk 10 .direct [[50], [51]]) (.direct 2) ∧ LinkField twoAttrs (tA 2 [3]) 1 (lnk 11 .set) (.set (setOf [3])) ∧
    (tA 2 [3]).getLinksByGroup twoAttrs 51 = [3] :=
  ⟨⟨[51], by decide, by decide⟩, fun ⟨gs, h, _⟩ => absurd h (by simp [lnk]), ⟨_, List.mem_cons_self, rfl, rfl⟩, ⟨_, List.mem_cons_self, rfl, rfl⟩, by decide⟩

/-- 1 links to 2 in its field 10, which is declared opposite to the field 20 of B. -/
def twoAttrs3 : List Step :=
  [.call (.newContext 0 77), .call (.newGraph 0 0), .call (.newTrans 0 0), .call (.op 0 (.insert (tA 2 []))), .call (.op 0 (.insert (tB []))),
   .call (.commit 0 0)]

/-- 1 links to 2 in its field 11, which is declared to have no opposite. -/
def twoAttrs4 : List Step :=
  [.call (.newContext 0 77), .call (.newGraph 0 0), .call (.newTrans 0 0), .call (.op 0 (.insert (tA 0 [2]))), .call (.op 0 (.insert (tB []))),
   .call (.commit 0 0)]

theorem twoAttrs_opposite : Opposite twoAttrs ⟨1, 0⟩ ⟨2, 0⟩ :=
  ⟨⟨1, 51, 2, 20⟩, List.mem_cons_self, Or.inl ⟨⟨Or.inl ⟨rfl, by decide⟩, _, List.mem_cons_self, _, rfl, Or.inr ⟨[51], by decide, by decide⟩⟩,
    ⟨Or.inl ⟨rfl, by decide⟩, _, List.mem_cons_of_mem _ List.mem_cons_self, _, rfl, Or.inl rfl⟩⟩⟩

/-- C40 fails for two attributes: a link in the field that is declared bidirectional gets no opposite, and a link in the other field gets one. -/
theorem C40_bidirectional_fails : (∃ g, Reachable twoAttrs true AnyCall g ∧ g.get? 1 = some (tA 2 []) ∧ g.get? 2 = some (tB [])) ∧
    Opposite twoAttrs ⟨1, 0⟩ ⟨2, 0⟩ ∧
    ∃ g, Reachable twoAttrs true AnyCall g ∧ g.get? 1 = some (tA 0 [2]) ∧ g.get? 2 = some (tB [1]) :=
  ⟨⟨_, reachable_of (reaches twoAttrs3 (by decide +kernel)) 0 (by decide +kernel), by decide +kernel, by decide +kernel⟩, twoAttrs_opposite,
   ⟨_, reachable_of (reaches twoAttrs4 (by decide +kernel)) 0 (by decide +kernel), by decide +kernel, by decide +kernel⟩⟩

/-- C40 fails for two attributes: the field 10 may link only to B, and links to A. -/
theorem C40_link_type_fails : ∃ g, Reachable twoAttrs true AnyCall g ∧ g.get? 1 = some (tA 1 []) ∧ ¬ AllAccept twoAttrs ⟨1, 0⟩ 1 := by
  refine ⟨_, reachable_of (reaches [.call (.newContext 0 77), .call (.newGraph 0 0), .call (.newTrans 0 0), .call (.op 0 (.insert (tA 1 []))),
    .call (.commit 0 0)] (by decide +kernel)) 0 (by decide +kernel), by decide +kernel, fun h => ?_⟩
  obtain ⟨v, hv, h | ⟨ds, hm, _⟩⟩ := h ⟨1, 51, [2]⟩ List.mem_cons_self
    ⟨Or.inl ⟨rfl, by decide⟩, _, List.mem_cons_self, _, rfl, Or.inr ⟨[51], by decide, by decide⟩⟩
  · simp only [List.mem_singleton] at hv
    rw [hv] at h
    exact absurd h.1 (by decide)
  · exact absurd hm (by simp [twoAttrs])

/-- C41: the hypotheses are met. -/
example : DataField tagged (gA 2 [3] [] 7 8) 0 (dat 13 100) ⟨100, 7⟩ ∧ FieldDecl.IsPath (dat 13 100) ∧
    (gA 2 [3] [] 7 8).dataRefByName tagged 13 100 = some ⟨100, 7⟩ ∧ (gA 2 [3] [] 7 8).dataRefByName tagged 13 101 = none :=
  ⟨⟨_, List.mem_cons_self, rfl, rfl⟩, ⟨100, rfl⟩, by decide, by decide⟩

/-- C41 fails: a field whose type is not written as a path, like `(u32, u32)` or `[u8; 4]`, is not found. -/
theorem C41_fails : DataField tagged (gA 2 [3] [] 7 8) 1 (dat 14 101 false) ⟨101, 8⟩ ∧ ¬ FieldDecl.IsPath (dat 14 101 false) ∧
    (gA 2 [3] [] 7 8).dataRefByName tagged 14 101 = none :=
  ⟨⟨_, List.mem_cons_self, rfl, rfl⟩, fun ⟨t, h⟩ => by simp [dat] at h, by decide⟩

end Demo
end TTGraph
