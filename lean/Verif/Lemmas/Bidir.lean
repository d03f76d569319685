import Verif.Lemmas.RedirectVec


set_option autoImplicit false
namespace TTGraph

namespace Schema

theorem struct_linkKinds_length (sd : StructDecl) : sd.linkKinds.length = sd.linkNames.length := by
  simp only [StructDecl.linkKinds, StructDecl.linkNames, StructDecl.links, List.length_map]
  induction sd.fields with
  | nil => rfl
  | cons f fs ih =>
    cases hf : f.ty with
    | link k => simp [FieldDecl.kind?, FieldDecl.isLink, hf, ih]
    | data t b => simp [FieldDecl.kind?, FieldDecl.isLink, hf, ih]

theorem linkPos_lt {sd : StructDecl} {name : Ident} {p : Nat} (h : sd.linkPos name = some p) : p < sd.linkKinds.length := by
  rw [struct_linkKinds_length]
  simp only [StructDecl.linkPos, List.idxOf?] at h
  exact (List.findIdx?_eq_some_iff_findIdx_eq.1 h).1

theorem logToLinks_lt {sd : StructDecl} {log : Ident} {p : Nat} (h : p ∈ sd.logToLinks log) : p < sd.linkKinds.length := by
  unfold StructDecl.logToLinks at h
  split at h
  · rename_i q hq; simp at h; subst h; exact linkPos_lt hq
  · simp only [List.mem_filterMap] at h
    obtain ⟨a, _, ha⟩ := h
    exact linkPos_lt ha

theorem expandLog_kind {S : Schema} {d log : Ident} {m : Mirror} (h : m ∈ S.expandLog d log) : ∃ k, S.kind? m = some k := by
  unfold expandLog at h
  split at h
  · rename_i sd hsd
    simp only [List.mem_map] at h
    obtain ⟨p, hp, rfl⟩ := h
    have := logToLinks_lt hp
    refine ⟨sd.linkKinds[p], ?_⟩
    simp [kind?, hsd]
  · simp at h

theorem mirrorsOf_kind {S : Schema} {m m' : Mirror} (h : m' ∈ S.mirrorsOf m) : ∃ k, S.kind? m' = some k := by
  simp only [mirrorsOf, mirrorsOfLog, List.mem_flatMap] at h
  obtain ⟨_, _, _, _, h⟩ := h
  exact expandLog_kind h

theorem mem_opposites {S : Schema} {m m' : Mirror} {d : Ident} : m' ∈ S.opposites m d ↔ m' ∈ S.mirrorsOf m ∧ m'.disc = d := by
  simp [opposites, matchBd]

/-- No declared opposite is a `Vec` field. -/
def NoVecBd (S : Schema) : Prop := ∀ m m', m' ∈ S.mirrorsOf m → S.kind? m' ≠ some .vec

theorem opposite_link {S : Schema} {m m' : Mirror} {n : Node} (hnv : S.kind? m' ≠ some .vec) (hw : S.WT n) (h : m' ∈ S.opposites m n.disc) :
    m'.disc = n.disc ∧ ∃ v, n.links[m'.pos]? = some v ∧ v.kind ≠ .vec := by
  rw [mem_opposites] at h
  refine ⟨h.2, ?_⟩
  obtain ⟨k, hk⟩ := mirrorsOf_kind h.1
  have hka := Node.kindAt_wt hw m'.pos
  have : (⟨n.disc, m'.pos⟩ : Mirror) = m' := by rw [← h.2]
  rw [this, hk] at hka
  rw [hk] at hnv
  simp only [Node.kindAt, Option.map_eq_some_iff] at hka
  obtain ⟨v, hv1, hv2⟩ := hka
  exact ⟨v, hv1, by rw [hv2]; simpa using hnv⟩

theorem opposite_vec {S : Schema} {m m' : Mirror} {n : Node} (hk : S.kind? m' = some .vec) (hw : S.WT n) (h : m' ∈ S.opposites m n.disc) :
    m'.disc = n.disc ∧ ∃ l, n.links[m'.pos]? = some (.vec l) := by
  rw [mem_opposites] at h
  refine ⟨h.2, ?_⟩
  have hka := Node.kindAt_wt hw m'.pos
  have : (⟨n.disc, m'.pos⟩ : Mirror) = m' := by rw [← h.2]
  rw [this, hk] at hka
  simp only [Node.kindAt, Option.map_eq_some_iff] at hka
  obtain ⟨v, hv1, hv2⟩ := hka
  cases v with
  | vec l => exact ⟨l, hv1⟩
  | direct i => exact absurd hv2 (by simp [LinkVal.kind])
  | set t => exact absurd hv2 (by simp [LinkVal.kind])

theorem toSource_ok {S : Schema} {m : Mirror} (h : S.kind? m ≠ some .vec) : S.toSource m = .ok ⟨m.disc, m.pos, 0⟩ := by
  unfold toSource
  split
  · rename_i h'; exact absurd h' h
  · rfl

end Schema

/-- Both ends of the change exist and `m` is a possible opposite. -/
def View.Opp (S : Schema) (v : View) (c : Change) (m : Mirror) : Prop :=
  v c.1 ≠ none ∧ ∃ n, v c.2.1 = some n ∧ m ∈ S.opposites c.2.2 n.disc

/-- Both ends of the change exist and `m` is the only possible opposite. -/
def View.OnlyOpp (S : Schema) (v : View) (c : Change) (m : Mirror) : Prop :=
  v c.1 ≠ none ∧ ∃ n, v c.2.1 = some n ∧ S.opposites c.2.2 n.disc = [m]

theorem Schema.NoVecBd.only {S : Schema} (hv : S.NoVecBd) {v : View} {c : Change} {m : Mirror} (h : View.OnlyOpp S v c m) : S.kind? m ≠ some .vec := by
  obtain ⟨_, n, _, h1⟩ := h
  exact hv _ _ (Schema.mem_opposites.1 (by rw [h1]; simp : m ∈ S.opposites c.2.2 n.disc)).1

theorem View.SameShape.exists {v v' : View} (h : View.SameShape v v') (x : NodeIndex) : v' x ≠ .none ↔ v x ≠ .none := not_congr (h.none x)

theorem View.SameShape.disc {v v' : View} (h : View.SameShape v v') (x : NodeIndex) (P : Ident → Prop) :
    (∃ n, v' x = .some n ∧ P n.disc) ↔ ∃ n, v x = .some n ∧ P n.disc := by
  constructor
  · rintro ⟨n, hn, hp⟩
    obtain ⟨n0, h0, hs⟩ := h.some hn
    refine ⟨n0, h0, ?_⟩
    have : n.disc = n0.disc := by simp only [Node.shape, Prod.mk.injEq] at hs; exact hs.1
    rw [← this]; exact hp
  · rintro ⟨n, hn, hp⟩
    obtain ⟨n0, h0, hs⟩ := h.some' hn
    refine ⟨n0, h0, ?_⟩
    have : n0.disc = n.disc := by simp only [Node.shape, Prod.mk.injEq] at hs; exact hs.1
    rw [this]; exact hp

theorem View.SameShape.opp {S : Schema} {v v' : View} (h : View.SameShape v v') (c : Change) (m : Mirror) : v'.Opp S c m ↔ v.Opp S c m := by
  unfold View.Opp
  rw [h.exists, h.disc c.2.1 (fun d => m ∈ S.opposites c.2.2 d)]

theorem View.SameShape.onlyOpp {S : Schema} {v v' : View} (h : View.SameShape v v') (c : Change) (m : Mirror) :
    v'.OnlyOpp S c m ↔ v.OnlyOpp S c m := by
  unfold View.OnlyOpp
  rw [h.exists, h.disc c.2.1 (fun d => S.opposites c.2.2 d = [m])]

namespace Graph

/-- What an in-place edit of the links of one node keeps. -/
structure Kept (S : Schema) (e0 : Prop) (g g' : Graph) : Prop where
  inv : g'.Inv S e0
  ctx : g'.ctxId = g.ctxId
  disp : g'.nodes.disp = g.nodes.disp
  shape : View.SameShape g.get? g'.get?
  known : ∀ y, g'.back.Known y ↔ g.back.Known y
  typed : g.nodes.Typed → g'.nodes.Typed

theorem Kept.refl {S : Schema} {e0 : Prop} {g : Graph} (h : g.Inv S e0) : Kept S e0 g g :=
  ⟨h, rfl, rfl, View.SameShape.refl _, fun _ => Iff.rfl, id⟩

theorem Kept.trans {S : Schema} {e0 : Prop} {g g' g'' : Graph} (h : Kept S e0 g g') (h' : Kept S e0 g' g'') : Kept S e0 g g'' :=
  ⟨h'.inv, h'.ctx.trans h.ctx, h'.disp.trans h.disp, h.shape.trans h'.shape, fun y => (h'.known y).trans (h.known y),
    fun ht => h'.typed (h.typed ht)⟩

/-- Editing one node and the back links accordingly. -/
theorem edit_kept {S : Schema} {e0 : Prop} {g : Graph} {y : NodeIndex} {n n' : Node} {a' : Arena} {b' : Back} (h : g.Inv S e0)
    (hn : g.get? y = some n) (hs : n'.shape = n.shape) (hget : ∀ j, a'.get? j = if y = j then some n' else g.get? j)
    (hdisp : a'.disp = g.nodes.disp) (hai : a'.Inv S) (hat : g.nodes.Typed → a'.Typed)
    (hk : ∀ z, b'.Known z ↔ g.back.Known z)
    (hrec : ∀ z e, b'.Rec z e ↔ (e.1 ≠ y ∧ g.back.Rec z e) ∨ (e.1 = y ∧ ((g.back.Rec z e ∧ ¬ (n.Holds e.2 z ∧ ¬ n'.Holds e.2 z)) ∨ n'.Holds e.2 z))) :
    Kept S e0 g { g with nodes := a', back := b' } ∧
      ∀ z t w, View.Holds ({ g with nodes := a', back := b' } : Graph).get? z t w ↔ if y = z then n'.Holds t w else View.Holds g.get? z t w := by
  have hget' : ∀ j, ({ g with nodes := a', back := b' } : Graph).get? j = if y = j then some n' else g.get? j := hget
  have hH : ∀ z t w, View.Holds ({ g with nodes := a', back := b' } : Graph).get? z t w ↔
      if y = z then n'.Holds t w else View.Holds g.get? z t w := by
    intro z t w
    simp only [View.Holds, hget']
    split
    · simp
    · rfl
  refine ⟨⟨⟨hai, ?_, ?_, ?_, ?_, ?_⟩, rfl, hdisp, ?_, hk, hat⟩, hH⟩
  · intro x m hx
    show b'.Known x
    rw [hk]
    rw [hget'] at hx
    split at hx
    · rename_i hxy; subst hxy; exact h.known _ _ hn
    · exact h.known _ _ hx
  · intro x s z hx
    show b'.Rec z (x, s)
    rw [hrec]
    rw [hH] at hx
    split at hx
    · rename_i hxy; subst hxy
      exact Or.inr ⟨rfl, Or.inr hx⟩
    · rename_i hxy
      exact Or.inl ⟨fun e => hxy e.symm, h.recd _ _ _ hx⟩
  · intro x s z hz hr
    have hr : b'.Rec z (x, s) := hr
    rw [hrec] at hr
    rw [hH]
    rcases hr with ⟨h1, h2⟩ | ⟨h1, h2⟩
    · have h1 : x ≠ y := h1
      rw [if_neg (fun e => h1 e.symm)]
      exact h.exact _ _ _ hz h2
    · have h1 : x = y := h1
      subst h1
      rw [if_pos rfl]
      rcases h2 with ⟨h2, h3⟩ | h2
      · obtain ⟨m, hm, hmh⟩ := h.exact _ _ _ hz h2
        rw [hn] at hm; cases hm
        by_contra hc
        exact h3 ⟨hmh, hc⟩
      · exact h2
  · rw [hget']
    split
    · rename_i hy; subst hy; rw [h.noEmpty] at hn; exact absurd hn (by simp)
    · exact h.noEmpty
  · intro x m hx
    rw [hget'] at hx
    split at hx
    · cases hx; exact Schema.wt_of_shape hs (h.wt _ _ hn)
    · exact h.wt _ _ hx
  · intro x
    rw [hget']
    split
    · rename_i hxy; subst hxy; rw [hn]; simp [hs]
    · rfl

section
variable [SetImpl] {S : Schema} {e0 : Prop}

theorem bdRemoveOne_ok {g : Graph} (h : g.Inv S e0) {x y : NodeIndex} {n : Node} {l m : Mirror}
    (hx : g.get? x ≠ none) (hy : g.get? y = some n) (hm : m ∈ S.opposites l n.disc)
    (hnv : S.kind? m ≠ some .vec) :
    ∃ g', bdRemoveOne S x y g m = .ok g' ∧ Kept S e0 g g' ∧
      ∀ z t w, View.Holds g'.get? z t w ↔ View.Holds g.get? z t w ∧ ¬ (z = y ∧ w = x ∧ t.mirror = m) := by
  have hx0 : x ≠ emptyIdx := fun e => hx (e ▸ h.noEmpty)
  have hwt := h.wt _ _ hy
  obtain ⟨hd, v, hv1, hv2⟩ := Schema.opposite_link hnv hwt hm
  obtain ⟨n', rem, e1, e2, e3, e4⟩ := Node.removeLink_spec (y := x) hx0 hd hv1 hv2
  obtain ⟨a', f1, f2, f3, f4, f5⟩ := Arena.modifyAt_ok (S := S) (f := fun n => n.removeLink m x) hy e1
  have hdisc : n'.disc = n.disc := by simp only [Node.shape, Prod.mk.injEq] at e2; exact e2.1
  have hkx : g.back.Known x := by
    cases hgx : g.get? x with
    | none => exact absurd hgx hx
    | some nx => exact h.known _ _ hgx
  have hslot : ∀ t w, n.Holds t w → t.mirror = m → t = ⟨m.disc, m.pos, 0⟩ := by
    intro t w ht htm
    obtain ⟨_, v', hv', hh⟩ := ht
    have hp : t.pos = m.pos := by rw [← htm]; rfl
    have hdd : t.disc = m.disc := by rw [← htm]; rfl
    rw [hp, hv1] at hv'; cases hv'
    have hs := LinkVal.holds_slot_zero hh hv2
    cases t; simp_all
  have hfinal : ∀ t w, n'.Holds t w ↔ n.Holds t w ∧ ¬ (w = x ∧ t.mirror = m) := by
    intro t w
    rw [e3]
    constructor
    · rintro ⟨h1, h2⟩
      exact ⟨h1, fun ⟨h3, h4⟩ => h2 ⟨hslot t w h1 h4, h3⟩⟩
    · rintro ⟨h1, h2⟩
      refine ⟨h1, ?_⟩
      rintro ⟨rfl, h4⟩
      exact h2 ⟨h4, rfl⟩
  have hview : ∀ z t w, (if y = z then n'.Holds t w else View.Holds g.get? z t w) ↔
      View.Holds g.get? z t w ∧ ¬ (z = y ∧ w = x ∧ t.mirror = m) := by
    intro z t w
    by_cases hz : y = z
    · subst hz
      have : View.Holds g.get? y t w ↔ n.Holds t w := by simp [View.Holds, hy]
      rw [if_pos rfl, this, hfinal]; simp
    · have hz' : ¬ z = y := fun e => hz e.symm
      rw [if_neg hz]; simp [hz']
  cases rem with
  | false =>
    have hno : ¬ n.Holds ⟨m.disc, m.pos, 0⟩ x := by rw [← e4]; simp
    have hsame : ∀ t w, n'.Holds t w ↔ n.Holds t w := by
      intro t w; rw [e3]
      constructor
      · exact fun h => h.1
      · intro h1; refine ⟨h1, ?_⟩; rintro ⟨rfl, rfl⟩; exact hno h1
    obtain ⟨hk, hH⟩ := edit_kept (b' := g.back) h hy e2 f2 f3 (f4 h.arena) (fun ht => f5 ht hdisc) (fun _ => Iff.rfl) (by
      intro z e
      constructor
      · intro hr
        by_cases he : e.1 = y
        · refine Or.inr ⟨he, Or.inl ⟨hr, ?_⟩⟩
          rintro ⟨h1, h2⟩; exact h2 ((hsame _ _).2 h1)
        · exact Or.inl ⟨he, hr⟩
      · rintro (⟨_, hr⟩ | ⟨he, ⟨hr, _⟩ | hr⟩)
        · exact hr
        · exact hr
        · have := h.recd y e.2 z ⟨n, hy, (hsame _ _).1 hr⟩
          rw [← he] at this; exact this)
    refine ⟨{ g with nodes := a' }, ?_, hk, fun z t w => (hH z t w).trans (hview z t w)⟩
    simp only [bdRemoveOne, f1]
  | true =>
    have hyes : n.Holds ⟨m.disc, m.pos, 0⟩ x := by rw [← e4]
    obtain ⟨b', u1, u2, u3⟩ := Back.unlink_ok hkx (y, (⟨m.disc, m.pos, 0⟩ : Source))
    obtain ⟨hk, hH⟩ := edit_kept (b' := b') h hy e2 f2 f3 (f4 h.arena) (fun ht => f5 ht hdisc) u3 (by
      intro z e
      rw [u2]
      obtain ⟨e1', e2'⟩ := e
      simp only [Prod.mk.injEq]
      constructor
      · rintro ⟨hr, hne⟩
        by_cases he : e1' = y
        · subst he
          refine Or.inr ⟨rfl, Or.inl ⟨hr, ?_⟩⟩
          rintro ⟨h1, h2⟩
          rw [e3] at h2
          apply h2
          refine ⟨h1, ?_⟩
          rintro ⟨h3, h4⟩
          exact hne ⟨h4, rfl, h3⟩
        · exact Or.inl ⟨he, hr⟩
      · rintro (⟨he, hr⟩ | ⟨he, ⟨hr, hh⟩ | hr⟩)
        · exact ⟨hr, fun hc => he hc.2.1⟩
        · refine ⟨hr, ?_⟩
          rintro ⟨rfl, _, rfl⟩
          apply hh
          refine ⟨hyes, ?_⟩
          rw [e3]; simp
        · subst he
          rw [e3] at hr
          refine ⟨h.recd _ _ _ ⟨n, hy, hr.1⟩, ?_⟩
          rintro ⟨rfl, _, rfl⟩
          exact hr.2 ⟨rfl, rfl⟩)
    refine ⟨{ g with nodes := a', back := b' }, ?_, hk, fun z t w => (hH z t w).trans (hview z t w)⟩
    simp only [bdRemoveOne, f1, Schema.toSource_ok hnv, u1]

theorem bdRemove_ok {g : Graph} (h : g.Inv S e0) (c : Change) (hv : ∀ m, View.Opp S g.get? c m → S.kind? m ≠ some .vec) :
    ∃ g', bdRemove S g c = .ok g' ∧ Kept S e0 g g' ∧
      ∀ z t w, View.Holds g'.get? z t w ↔ View.Holds g.get? z t w ∧ ¬ (z = c.2.1 ∧ w = c.1 ∧ View.Opp S g.get? c t.mirror) := by
  obtain ⟨x, y, l⟩ := c
  have triv : (∀ m, ¬ View.Opp S g.get? (x, y, l) m) → ∃ g', Except.ok g = (Except.ok g' : Except Panic Graph) ∧ Kept S e0 g g' ∧
      ∀ z t w, View.Holds g'.get? z t w ↔ View.Holds g.get? z t w ∧ ¬ (z = y ∧ w = x ∧ View.Opp S g.get? (x, y, l) t.mirror) := by
    intro hno
    exact ⟨g, rfl, Kept.refl h, fun z t w => by simp [hno]⟩
  cases hx : g.nodes.get? x with
  | none =>
    have hx' : g.get? x = none := hx
    simpa only [bdRemove, hx] using triv (fun m hm => hm.1 hx')
  | some nx =>
    cases hy : g.nodes.get? y with
    | none =>
      have hy' : g.get? y = none := hy
      simp only [bdRemove, hx, hy]
      refine triv (fun m hm => ?_)
      obtain ⟨_, n, hn, _⟩ := hm
      simp [hy'] at hn
    | some ny =>
      have hx' : g.get? x = some nx := hx
      have hy' : g.get? y = some ny := hy
      simp only [bdRemove, hx, hy]
      have := foldE_total (f := bdRemoveOne S x y) (l := S.opposites l ny.disc) (s := g)
        (P := fun P (g' : Graph) => Kept S e0 g g' ∧ ∀ z t w, View.Holds g'.get? z t w ↔ View.Holds g.get? z t w ∧ ¬ (z = y ∧ w = x ∧ t.mirror ∈ P))
        ⟨Kept.refl h, by simp⟩ ?_
      · obtain ⟨g', h1, h2, h3⟩ := this
        refine ⟨g', h1, h2, ?_⟩
        intro z t w
        rw [h3]
        simp [View.Opp, hx', hy']
      · intro pre m post g1 hsplit ⟨hk, hH⟩
        obtain ⟨ny1, hy1, hs1⟩ := hk.shape.some' hy'
        have hd1 : ny1.disc = ny.disc := by simp only [Node.shape, Prod.mk.injEq] at hs1; exact hs1.1
        have hx1 : g1.get? x ≠ none := (hk.shape.exists x).2 (by rw [hx']; simp)
        have hm : m ∈ S.opposites l ny1.disc := by rw [hd1, hsplit]; simp
        obtain ⟨g2, e1, e2, e3⟩ := bdRemoveOne_ok hk.inv hx1 hy1 hm (hv m ⟨by rw [hx']; simp, ny, hy', hd1 ▸ hm⟩)
        refine ⟨g2, e1, hk.trans e2, ?_⟩
        intro z t w
        rw [e3, hH]
        simp only [List.mem_append, List.mem_singleton, not_and, and_assoc]
        constructor
        · rintro ⟨h1, h2, h3⟩
          refine ⟨h1, ?_⟩
          rintro hz hw (hp | hp)
          · exact h2 hz hw hp
          · exact h3 hz hw hp
        · rintro ⟨h1, h2⟩
          exact ⟨h1, fun hz hw hp => h2 hz hw (Or.inl hp), fun hz hw hp => h2 hz hw (Or.inr hp)⟩

/-- Outcomes of one completion step. -/
theorem bdAdd_cases {g : Graph} (h : g.Inv S e0) (c : Change) (hv : ∀ m, View.OnlyOpp S g.get? c m → S.kind? m ≠ some .vec) :
    (∃ g', bdAdd S g c = .ok g' ∧ Kept S e0 g g' ∧
      (∀ z t w, View.Holds g'.get? z t w ↔ View.Holds g.get? z t w ∨ (z = c.2.1 ∧ w = c.1 ∧ t.slot = 0 ∧ View.OnlyOpp S g.get? c t.mirror)) ∧
      ((∃ m, View.Opp S g.get? c m) → ∃ m, View.Opp S g.get? c m ∧ View.Link g'.get? c.2.1 m c.1)) ∨
    (bdAdd S g c = .error .multiChoice ∧ (∃ m, View.Opp S g.get? c m) ∧ (∀ m, ¬ View.OnlyOpp S g.get? c m) ∧
      ∀ m, View.Opp S g.get? c m → ¬ View.Link g.get? c.2.1 m c.1) ∨
    (bdAdd S g c = .error .addOnExisting ∧ ∃ m i, View.OnlyOpp S g.get? c m ∧ S.kind? m = some .direct ∧ View.Link g.get? c.2.1 m i ∧ i ≠ c.1) := by
  obtain ⟨x, y, l⟩ := c
  have triv : (∀ m, ¬ View.Opp S g.get? (x, y, l) m) → ∃ g', (Except.ok g : Except Panic Graph) = .ok g' ∧ Kept S e0 g g' ∧
      (∀ z t w, View.Holds g'.get? z t w ↔ View.Holds g.get? z t w ∨ (z = y ∧ w = x ∧ t.slot = 0 ∧ View.OnlyOpp S g.get? (x, y, l) t.mirror)) ∧
      ((∃ m, View.Opp S g.get? (x, y, l) m) → ∃ m, View.Opp S g.get? (x, y, l) m ∧ View.Link g'.get? y m x) := by
    intro hno
    refine ⟨g, rfl, Kept.refl h, fun z t w => ?_, fun ⟨m, hm⟩ => absurd hm (hno m)⟩
    constructor
    · exact Or.inl
    · rintro (h1 | ⟨_, _, _, h1, n, h2, h3⟩)
      · exact h1
      · exact absurd ⟨h1, n, h2, by rw [h3]; simp⟩ (hno t.mirror)
  cases hx : g.nodes.get? x with
  | none =>
    have hx' : g.get? x = none := hx
    refine Or.inl ?_
    simpa only [bdAdd, hx] using triv (fun m hm => hm.1 hx')
  | some nx =>
    cases hy : g.nodes.get? y with
    | none =>
      have hy' : g.get? y = none := hy
      refine Or.inl ?_
      simp only [bdAdd, hx, hy]
      refine triv (fun m hm => ?_)
      obtain ⟨_, n, hn, _⟩ := hm
      simp [hy'] at hn
    | some ny =>
      have hx' : g.get? x = some nx := hx
      have hy' : g.get? y = some ny := hy
      have hx0 : x ≠ emptyIdx := by rintro rfl; rw [h.noEmpty] at hx'; simp at hx'
      have hopp : ∀ m, View.Opp S g.get? (x, y, l) m ↔ m ∈ S.opposites l ny.disc := by intro m; simp [View.Opp, hx', hy']
      have honly : ∀ m, View.OnlyOpp S g.get? (x, y, l) m ↔ S.opposites l ny.disc = [m] := by intro m; simp [View.OnlyOpp, hx', hy']
      have hlink : ∀ m w, View.Link g.get? y m w ↔ ny.HasLink m w := by intro m w; simp [View.Link, hy']
      cases hb : S.opposites l ny.disc with
      | nil =>
        refine Or.inl ?_
        simp only [bdAdd, hx, hy, hb]
        exact triv (fun m hm => by rw [hopp, hb] at hm; simp at hm)
      | cons m rest =>
        by_cases hfound : (m :: rest).any (fun m => ny.containsLink m x) = true
        · refine Or.inl ⟨g, ?_, Kept.refl h, ?_, ?_⟩
          · simp only [bdAdd, hx, hy, hb, hfound, if_true]
          · simp only [List.any_eq_true] at hfound
            obtain ⟨m', hm', hc⟩ := hfound
            rw [Node.containsLink_iff hx0] at hc
            intro z t w
            constructor
            · exact Or.inl
            · rintro (h1 | ⟨rfl, rfl, h3, h4⟩)
              · exact h1
              · rw [honly, hb] at h4
                have : m' = t.mirror := by
                  simp only [List.cons.injEq] at h4
                  rw [h4.1, h4.2] at hm'
                  simpa using hm'
                subst this
                obtain ⟨k, hk⟩ := hc
                have hnv : S.kind? t.mirror ≠ some .vec := hv _ ((honly _).2 (by rw [hb, h4]))
                have hz := View.slot_zero h.wt (s := ⟨t.mirror.disc, t.mirror.pos, k⟩) ⟨ny, hy', hk⟩ hnv
                simp only at hz
                subst hz
                refine ⟨ny, hy', ?_⟩
                have : t = ⟨t.mirror.disc, t.mirror.pos, 0⟩ := by cases t; simp_all [Source.mirror]
                rw [this]; exact hk
          · intro _
            simp only [List.any_eq_true] at hfound
            obtain ⟨m', hm', hc⟩ := hfound
            rw [Node.containsLink_iff hx0] at hc
            exact ⟨m', by rw [hopp, hb]; exact hm', (hlink _ _).2 hc⟩
        · have hnone : ∀ m', m' ∈ m :: rest → ¬ ny.HasLink m' x := by
            intro m' hm' hc
            apply hfound
            simp only [List.any_eq_true]
            exact ⟨m', hm', (Node.containsLink_iff hx0).2 hc⟩
          cases rest with
          | cons m2 rest2 =>
            refine Or.inr (Or.inl ⟨?_, ⟨m, by rw [hopp, hb]; simp⟩, ?_, ?_⟩)
            · simp only [bdAdd, hx, hy, hb]
              rw [if_neg hfound, if_pos (by simp)]
            · intro m'; rw [honly, hb]; simp
            · intro m' hm'
              rw [hopp, hb] at hm'
              rw [hlink]; exact hnone m' hm'
          | nil =>
            have hm : m ∈ S.opposites l ny.disc := by rw [hb]; simp
            have hwt := h.wt _ _ hy'
            have hnv : S.kind? m ≠ some .vec := hv m ((honly m).2 hb)
            obtain ⟨hd, v, hv1, hv2⟩ := Schema.opposite_link hnv hwt hm
            by_cases hfree : ∀ i, v = .direct i → i = emptyIdx ∨ i = x
            · obtain ⟨n', added, e1, e2, e3, e4⟩ := Node.addLink_spec (y := x) hx0 hd hv1 hv2 hfree
              have hadd : added = true := by
                rw [e4]; intro hc; exact hnone m (by simp) ⟨0, hc⟩
              subst hadd
              obtain ⟨a', f1, f2, f3, f4, f5⟩ := Arena.modifyAt_ok (S := S) (f := fun n => n.addLink m x) hy e1
              have hdisc : n'.disc = ny.disc := by simp only [Node.shape, Prod.mk.injEq] at e2; exact e2.1
              obtain ⟨hk, hH⟩ := edit_kept (b' := g.back.link x (y, ⟨m.disc, m.pos, 0⟩)) h hy' e2 f2 f3 (f4 h.arena) (fun ht => f5 ht hdisc) (by
                intro z
                rw [Back.known_link]
                constructor
                · rintro (rfl | hz)
                  · exact h.known _ _ hx'
                  · exact hz
                · exact Or.inr) (by
                intro z e
                rw [Back.rec_link]
                obtain ⟨ea, es⟩ := e
                simp only [Prod.mk.injEq]
                constructor
                · rintro (hr | ⟨rfl, rfl, rfl⟩)
                  · by_cases he : ea = y
                    · subst he
                      refine Or.inr ⟨rfl, Or.inl ⟨hr, ?_⟩⟩
                      rintro ⟨h1, h2⟩
                      exact h2 ((e3 _ _).2 (Or.inl h1))
                    · exact Or.inl ⟨he, hr⟩
                  · exact Or.inr ⟨rfl, Or.inr ((e3 _ _).2 (Or.inr ⟨rfl, rfl⟩))⟩
                · rintro (⟨_, hr⟩ | ⟨rfl, ⟨hr, _⟩ | hr⟩)
                  · exact Or.inl hr
                  · exact Or.inl hr
                  · rcases (e3 _ _).1 hr with h1 | ⟨h1, h2⟩
                    · exact Or.inl (h.recd _ _ _ ⟨ny, hy', h1⟩)
                    · exact Or.inr ⟨h2, rfl, h1⟩)
              have hbd : bdAdd S g (x, y, l) = .ok { g with nodes := a', back := g.back.link x (y, ⟨m.disc, m.pos, 0⟩) } := by
                simp only [bdAdd, hx, hy, hb]
                rw [if_neg hfound, if_neg (by simp)]
                simp only [f1, Schema.toSource_ok hnv]
              refine Or.inl ⟨_, hbd, hk, ?_, ?_⟩
              · intro z t w
                rw [hH]
                by_cases hz : y = z
                · subst hz
                  have : View.Holds g.get? y t w ↔ ny.Holds t w := by simp [View.Holds, hy']
                  rw [if_pos rfl, this, e3]
                  simp only [honly, hb, List.cons.injEq, and_true, true_and]
                  constructor
                  · rintro (h1 | ⟨rfl, rfl⟩)
                    · exact Or.inl h1
                    · exact Or.inr ⟨rfl, rfl, rfl⟩
                  · rintro (h1 | ⟨rfl, h2, h3⟩)
                    · exact Or.inl h1
                    · refine Or.inr ⟨?_, rfl⟩
                      subst h3
                      cases t; simp_all [Source.mirror]
                · have hz' : ¬ z = y := fun e => hz e.symm
                  rw [if_neg hz]; simp [hz']
              · intro _
                refine ⟨m, (hopp m).2 hm, n', ?_, 0, (e3 _ _).2 (Or.inr ⟨rfl, rfl⟩)⟩
                have : Graph.get? { g with nodes := a', back := g.back.link x (y, ⟨m.disc, m.pos, 0⟩) } y = some n' := by
                  show a'.get? y = some n'
                  rw [f2]; simp
                exact this
            · have : ∃ i, v = .direct i ∧ i ≠ emptyIdx ∧ i ≠ x := by
                by_contra hc
                apply hfree
                intro i hi
                by_contra hn
                exact hc ⟨i, hi, fun e => hn (Or.inl e), fun e => hn (Or.inr e)⟩
              obtain ⟨i, rfl, hi0, hix⟩ := this
              refine Or.inr (Or.inr ⟨?_, m, i, (honly m).2 hb, ?_, (hlink _ _).2 ⟨0, hd, _, hv1, ?_⟩, hix⟩)
              · simp only [bdAdd, hx, hy, hb]
                rw [if_neg hfound, if_neg (by simp)]
                have : ny.addLink m x = .error .addOnExisting := Node.addLink_conflict hd hv1 hi0 hix
                simp only [Arena.modifyAt_err (f := fun n => n.addLink m x) hy this]
              · have hka := Node.kindAt_wt hwt m.pos
                have hmm : (⟨ny.disc, m.pos⟩ : Mirror) = m := by rw [← hd]
                rw [hmm] at hka
                rw [← hka]
                simp [Node.kindAt, hv1, LinkVal.kind]
              · exact ⟨rfl, rfl, hi0⟩

omit [SetImpl] in
theorem foldE_cases {σ α : Type} {f : σ → α → Except Panic σ} {l : List α} {s : σ} (P : List α → σ → Prop) (E : Panic → Prop)
    (h0 : P [] s) (hstep : ∀ pre a post s1, l = pre ++ a :: post → P pre s1 →
      (∃ s2, f s1 a = .ok s2 ∧ P (pre ++ [a]) s2) ∨ ∃ e, f s1 a = .error e ∧ E e) :
    (∃ s', foldE f s l = .ok s' ∧ P l s') ∨ ∃ e, foldE f s l = .error e ∧ E e := by
  suffices ∀ post pre s1, l = pre ++ post → P pre s1 →
      (∃ s', foldE f s1 post = .ok s' ∧ P l s') ∨ ∃ e, foldE f s1 post = .error e ∧ E e from this l [] s rfl h0
  intro post
  induction post with
  | nil => intro pre s1 hl hp; rw [List.append_nil] at hl; subst hl; exact Or.inl ⟨s1, rfl, hp⟩
  | cons a as ih =>
    intro pre s1 hl hp
    rcases hstep pre a as s1 hl hp with ⟨s2, h1, h2⟩ | ⟨e, h1, h2⟩
    · simp only [foldE, h1]
      exact ih (pre ++ [a]) s2 (by rw [hl]; simp) h2
    · exact Or.inr ⟨e, by simp only [foldE, h1], h2⟩

/-- Some direct field would have to hold two nodes: what the change `c` asks for, and `i`, which the field holds or another change
asks for. -/
def Conflict (S : Schema) (v : View) (l : List Change) : Prop :=
  ∃ c ∈ l, ∃ m i, View.OnlyOpp S v c m ∧ S.kind? m = some .direct ∧ i ≠ c.1 ∧
    (View.Link v c.2.1 m i ∨ ∃ c' ∈ l, c'.1 = i ∧ c'.2.1 = c.2.1 ∧ View.OnlyOpp S v c' m)

/-- A change has several possible opposites and none of them is there. -/
def Undecided (S : Schema) (v : View) (l : List Change) : Prop :=
  ∃ c ∈ l, (∃ m, View.Opp S v c m) ∧ (∀ m, ¬ View.OnlyOpp S v c m) ∧ ∀ m, View.Opp S v c m → ¬ View.Link v c.2.1 m c.1

omit [SetImpl] in
theorem _root_.TTGraph.View.Link.of_holds {v : View} {x : NodeIndex} {t : Source} {y : NodeIndex} (h : v.Holds x t y) : v.Link x t.mirror y := by
  obtain ⟨n, hn, hh⟩ := h
  exact ⟨n, hn, t.slot, hh⟩

omit [SetImpl] in
theorem _root_.TTGraph.View.link_iff {v : View} {x : NodeIndex} {m : Mirror} {y : NodeIndex} : v.Link x m y ↔ ∃ k, v.Holds x ⟨m.disc, m.pos, k⟩ y := by
  constructor
  · rintro ⟨n, hn, k, hh⟩; exact ⟨k, n, hn, hh⟩
  · rintro ⟨k, n, hn, hh⟩; exact ⟨n, hn, k, hh⟩

omit [SetImpl] in
/-- A direct field holds at most one node. -/
theorem direct_unique {v : View} (hw : ∀ x n, v x = some n → S.WT n) {x : NodeIndex} {m : Mirror} (hk : S.kind? m = some .direct)
    {i j : NodeIndex} (hi : v.Link x m i) (hj : v.Link x m j) : i = j := by
  obtain ⟨n, hn, k, hd, u, hu, hh⟩ := hi
  obtain ⟨n', hn', k', hd', u', hu', hh'⟩ := hj
  rw [hn] at hn'; cases hn'
  rw [hu] at hu'; cases hu'
  have hka := Node.kindAt_wt (hw _ _ hn) m.pos
  have hmm : (⟨n.disc, m.pos⟩ : Mirror) = m := by
    have hd : m.disc = n.disc := hd
    rw [← hd]
  rw [hmm, hk] at hka
  have hu : n.links[m.pos]? = some u := hu
  simp only [Node.kindAt, hu, Option.map_some, Option.some.injEq] at hka
  cases u with
  | direct a =>
    obtain ⟨_, h1, _⟩ := hh
    obtain ⟨_, h2, _⟩ := hh'
    exact h1.symm.trans h2
  | set s => simp [LinkVal.kind] at hka
  | vec l => simp [LinkVal.kind] at hka

/-- The view between the two loops of the completion: every opposite of a removed link is gone. -/
def Cleared (S : Schema) (v v1 : View) (rem : List Change) : Prop :=
  View.SameShape v v1 ∧ ∀ z t w, v1.Holds z t w ↔ v.Holds z t w ∧ ¬ ∃ c ∈ rem, z = c.2.1 ∧ w = c.1 ∧ View.Opp S v c t.mirror

/-- The view after the completion. -/
def Completed (S : Schema) (v v' : View) (rem add : List Change) : Prop :=
  View.SameShape v v' ∧ ∀ z t w, v'.Holds z t w ↔
    (v.Holds z t w ∧ ¬ ∃ c ∈ rem, z = c.2.1 ∧ w = c.1 ∧ View.Opp S v c t.mirror) ∨
      ∃ c ∈ add, z = c.2.1 ∧ w = c.1 ∧ t.slot = 0 ∧ View.OnlyOpp S v c t.mirror

/-! ### Without conditions on the declarations -/

/-- What completion keeps: as `Kept`, and the fields that are no opposites.  New links lead to nodes. -/
structure Edited (S : Schema) (e0 : Prop) (g g' : Graph) : Prop where
  kept : Kept S e0 g g'
  only : ∀ z t w, (∀ m, t.mirror ∉ S.mirrorsOf m) → (View.Holds g'.get? z t w ↔ View.Holds g.get? z t w)
  gain : ∀ z t w, View.Holds g'.get? z t w → View.Holds g.get? z t w ∨ g.get? w ≠ none

omit [SetImpl] in
theorem Edited.refl {g : Graph} (h : g.Inv S e0) : Edited S e0 g g := ⟨Kept.refl h, fun _ _ _ _ => Iff.rfl, fun _ _ _ => Or.inl⟩

omit [SetImpl] in
theorem Edited.trans {g g' g'' : Graph} (h : Edited S e0 g g') (h' : Edited S e0 g' g'') : Edited S e0 g g'' :=
  ⟨h.kept.trans h'.kept, fun z t w hm => (h'.only z t w hm).trans (h.only z t w hm), fun z t w hh =>
    (h'.gain z t w hh).elim (h.gain z t w) fun hw => Or.inr ((h.kept.shape.exists w).1 hw)⟩

/-- Removing an opposite keeps the invariant, whatever the kind of the field. -/
theorem bdRemoveOne_kept {g : Graph} (h : g.Inv S e0) {x y : NodeIndex} {n : Node} {l m : Mirror}
    (hx : g.get? x ≠ none) (hy : g.get? y = some n) (hm : m ∈ S.opposites l n.disc) :
    (∃ g', bdRemoveOne S x y g m = .ok g' ∧ Edited S e0 g g') ∨ (bdRemoveOne S x y g m = .error .removeOnVec ∧ S.kind? m = some .vec) := by
  by_cases hk : S.kind? m = some .vec
  · right
    obtain ⟨hd, l, hl⟩ := Schema.opposite_vec hk (h.wt _ _ hy) hm
    have : n.removeLink m x = .error .removeOnVec := by simp only [Node.removeLink, if_pos hd, hl, LinkVal.remove]
    exact ⟨by simp only [bdRemoveOne, Arena.modifyAt_err (f := fun n => n.removeLink m x) hy this], hk⟩
  · obtain ⟨g', h1, h2, h3⟩ := bdRemoveOne_ok h hx hy hm hk
    refine Or.inl ⟨g', h1, h2, fun z t w ht => ?_, fun z t w hh => Or.inl ((h3 z t w).1 hh).1⟩
    rw [h3]
    constructor
    · exact fun h => h.1
    · intro h
      refine ⟨h, fun hc => ht l ?_⟩
      rw [hc.2.2]
      exact (Schema.mem_opposites.1 hm).1

theorem bdRemove_kept {g : Graph} (h : g.Inv S e0) (c : Change) :
    (∃ g', bdRemove S g c = .ok g' ∧ Edited S e0 g g') ∨ (bdRemove S g c = .error .removeOnVec ∧ ∃ m, View.Opp S g.get? c m ∧ S.kind? m = some .vec) := by
  obtain ⟨x, y, l⟩ := c
  cases hx : g.nodes.get? x with
  | none => exact Or.inl ⟨g, by simp only [bdRemove, hx], Edited.refl h⟩
  | some nx =>
    cases hy : g.nodes.get? y with
    | none => exact Or.inl ⟨g, by simp only [bdRemove, hx, hy], Edited.refl h⟩
    | some ny =>
      have hx' : g.get? x = some nx := hx
      have hy' : g.get? y = some ny := hy
      simp only [bdRemove, hx, hy]
      rcases foldE_cases (f := bdRemoveOne S x y) (l := S.opposites l ny.disc) (s := g) (P := fun _ (g' : Graph) => Edited S e0 g g')
        (E := fun e => e = .removeOnVec ∧ ∃ m, View.Opp S g.get? (x, y, l) m ∧ S.kind? m = some .vec) (Edited.refl h) (by
          intro pre m post g1 hsplit hk
          obtain ⟨ny1, hy1, hs1⟩ := hk.kept.shape.some' hy'
          have hd1 : ny1.disc = ny.disc := by simp only [Node.shape, Prod.mk.injEq] at hs1; exact hs1.1
          have hx1 : g1.get? x ≠ none := (hk.kept.shape.exists x).2 (by rw [hx']; simp)
          have hm : m ∈ S.opposites l ny1.disc := by rw [hd1, hsplit]; simp
          rcases bdRemoveOne_kept hk.kept.inv hx1 hy1 hm with ⟨g2, h1, h2⟩ | ⟨h1, h2⟩
          · exact Or.inl ⟨g2, h1, hk.trans h2⟩
          · exact Or.inr ⟨_, h1, rfl, m, ⟨by rw [hx']; simp, ny, hy', hd1 ▸ hm⟩, h2⟩) with ⟨g', h1, h2⟩ | ⟨e, h1, rfl, h2⟩
      · exact Or.inl ⟨g', h1, h2⟩
      · exact Or.inr ⟨h1, h2⟩

theorem bdAdd_kept {g : Graph} (h : g.Inv S e0) (c : Change) :
    (∃ g', bdAdd S g c = .ok g' ∧ Edited S e0 g g') ∨
    ∃ e, bdAdd S g c = .error e ∧ (e = .multiChoice ∨ e = .addOnExisting ∨ (e = .addOnVec ∧ ∃ m, View.OnlyOpp S g.get? c m ∧ S.kind? m = some .vec)) := by
  by_cases hv : ∀ m, View.OnlyOpp S g.get? c m → S.kind? m ≠ some .vec
  · rcases bdAdd_cases h c hv with ⟨g', h1, h2, h3, _⟩ | ⟨h1, _⟩ | ⟨h1, _⟩
    · refine Or.inl ⟨g', h1, h2, fun z t w ht => ?_, fun z t w hh => ?_⟩
      swap
      · rcases (h3 z t w).1 hh with h | ⟨_, rfl, _, hx, _⟩
        · exact Or.inl h
        · exact Or.inr hx
      rw [h3]
      constructor
      · rintro (h | ⟨_, _, _, _, n, _, h⟩)
        · exact h
        · exact absurd (Schema.mem_opposites.1 (by rw [h]; simp : t.mirror ∈ S.opposites c.2.2 n.disc)).1 (ht _)
      · exact Or.inl
    · exact Or.inr ⟨_, h1, Or.inl rfl⟩
    · exact Or.inr ⟨_, h1, Or.inr (Or.inl rfl)⟩
  · have : ∃ m, View.OnlyOpp S g.get? c m ∧ S.kind? m = some .vec := by
      by_contra hc
      exact hv fun m hm hk => hc ⟨m, hm, hk⟩
    obtain ⟨m, ⟨hx, n, hy, ho⟩, hk⟩ := this
    obtain ⟨x, y, l⟩ := c
    obtain ⟨nx, hx'⟩ := Option.ne_none_iff_exists'.1 hx
    have hx1 : g.nodes.get? x = some nx := hx'
    have hy1 : g.nodes.get? y = some n := hy
    have ho' : S.opposites l n.disc = [m] := ho
    by_cases hf : ([m].any fun m => n.containsLink m x) = true
    · exact Or.inl ⟨g, by simp only [bdAdd, hx1, hy1, ho', if_pos hf], Edited.refl h⟩
    · right
      obtain ⟨hd, l', hl⟩ := Schema.opposite_vec (m := l) hk (h.wt _ _ hy) (by rw [ho']; simp)
      have : n.addLink m x = .error .addOnVec := by simp only [Node.addLink, if_pos hd, hl, LinkVal.add]
      refine ⟨.addOnVec, ?_, Or.inr (Or.inr ⟨rfl, m, ⟨hx, n, hy, ho⟩, hk⟩)⟩
      simp only [bdAdd, hx1, hy1, ho', if_neg hf, Arena.modifyAt_err (f := fun n => n.addLink m x) hy this]
      simp

/-- Completion keeps the invariant, whatever the kinds of the fields. -/
theorem applyBidirectional_kept {g : Graph} (h : g.Inv S e0) (r : Lcr) :
    (∃ g', applyBidirectional S g r = .ok g' ∧ Edited S e0 g g') ∨
    ∃ e, applyBidirectional S g r = .error e ∧ (e = .multiChoice ∨ e = .addOnExisting ∨ ((e = .addOnVec ∨ e = .removeOnVec) ∧ ¬ S.NoVecBd)) := by
  have hopp : ∀ {v : View} {c : Change} {m : Mirror}, View.Opp S v c m → S.kind? m = some .vec → ¬ S.NoVecBd := fun h hk hv => by
    obtain ⟨_, n, _, h1⟩ := h
    exact hv _ _ (Schema.mem_opposites.1 h1).1 hk
  have h1 := foldE_cases (f := bdRemove S) (l := r.removes.elems) (s := g) (P := fun _ (g' : Graph) => Edited S e0 g g')
    (E := fun e => e = .removeOnVec ∧ ¬ S.NoVecBd) (Edited.refl h) (by
      intro pre c post g1 _ hk
      rcases bdRemove_kept hk.kept.inv c with ⟨g2, h1, h2⟩ | ⟨h1, m, h2, h3⟩
      · exact Or.inl ⟨g2, h1, hk.trans h2⟩
      · exact Or.inr ⟨_, h1, rfl, hopp h2 h3⟩)
  rcases h1 with ⟨g1, h1, hk1⟩ | ⟨e, h1, h2⟩
  · have h2 := foldE_cases (f := bdAdd S) (l := r.adds.elems) (s := g1) (P := fun _ (g' : Graph) => Edited S e0 g1 g')
      (E := fun e => e = .multiChoice ∨ e = .addOnExisting ∨ (e = .addOnVec ∧ ¬ S.NoVecBd)) (Edited.refl hk1.kept.inv) (by
        intro pre c post g1 _ hk
        rcases bdAdd_kept hk.kept.inv c with ⟨g2, h1, h2⟩ | ⟨e, h1, h2 | h2 | ⟨h2, m, h3, h4⟩⟩
        · exact Or.inl ⟨g2, h1, hk.trans h2⟩
        · exact Or.inr ⟨_, h1, Or.inl h2⟩
        · exact Or.inr ⟨_, h1, Or.inr (Or.inl h2)⟩
        · exact Or.inr ⟨_, h1, Or.inr (Or.inr ⟨h2, fun hv => hv.only h3 h4⟩)⟩)
    rcases h2 with ⟨g2, h2, hk2⟩ | ⟨e, h2, h3⟩
    · exact Or.inl ⟨g2, by simp only [applyBidirectional, h1, h2], hk1.trans hk2⟩
    · refine Or.inr ⟨e, by simp only [applyBidirectional, h1, h2], ?_⟩
      rcases h3 with h3 | h3 | ⟨h3, h4⟩
      · exact Or.inl h3
      · exact Or.inr (Or.inl h3)
      · exact Or.inr (Or.inr ⟨Or.inl h3, h4⟩)
  · exact Or.inr ⟨e, by simp only [applyBidirectional, h1], Or.inr (Or.inr ⟨Or.inr h2.1, h2.2⟩)⟩

end
end Graph
end TTGraph
