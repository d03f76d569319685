import Verif.Spec.WrapThreads
import Verif.Lemmas.Interleaved
import Verif.Lemmas.Wrap
import Verif.Props.Wrap

/-!
# Threads on a machine with a word size do what they do with unbounded counters
-/

set_option autoImplicit false

namespace TTGraph
open Spec
variable [SetImpl] {S : Schema} {dbg : Bool} {R : World → Call → Prop}

omit [SetImpl] in
theorem zip_snoc {α β : Type} {l : List α} {k : List β} {a : α} {b : β} (h : l[k.length]? = some a) : l.zip (k ++ [b]) = l.zip k ++ [(a, b)] := by
  induction k generalizing l with
  | nil =>
    cases l with
    | nil => simp at h
    | cons c l =>
      simp only [List.length_nil, List.getElem?_cons_zero, Option.some.injEq] at h
      simp [h]
  | cons d k ih =>
    cases l with
    | nil => simp at h
    | cons c l =>
      simp only [List.length_cons, List.getElem?_cons_succ] at h
      simp [ih h]

omit [SetImpl] in
theorem zip_fst_sublist {α β : Type} (l : List α) (k : List β) : ((l.zip k).map Prod.fst).Sublist l := by
  induction k generalizing l with
  | nil => simp
  | cons d k ih =>
    cases l with
    | nil => simp
    | cons c l => simpa using (ih l)

omit [SetImpl] in
theorem zip_snd_sublist {α β : Type} (l : List α) (k : List β) : ((l.zip k).map Prod.snd).Sublist k := by
  induction k generalizing l with
  | nil => simp
  | cons d k ih =>
    cases l with
    | nil => simp
    | cons c l => simpa using (ih l)

/-- The next insertion of a `switch_context`. -/
theorem draw_next (hS : S.discs.Nodup) {g : Graph} (h : g.Inv S False) {ds : List Nat} {cnt : Nat} (hn : (ds ++ [cnt]).Nodup)
    {st : Arena × OrderMap NodeIndex NodeIndex} (hst : g.switchInsertDraws S ds = .ok st) {e : NodeIndex × Node} {l : List (NodeIndex × Node)}
    (hl : e :: l = (g.iter S).drop ds.length) :
    ∃ a, st.1.insert cnt e.2 = .ok (cnt + 1, a, cnt + 1) ∧ g.switchInsertDraws S (ds ++ [cnt]) = .ok (a, st.2.insert e.1 (cnt + 1)) := by
  have he : (g.iter S)[ds.length]? = some e := by
    have := congrArg (·[0]?) hl
    simpa using this.symm
  have hz : (g.nodes.entries S).zip (ds ++ [cnt]) = (g.nodes.entries S).zip ds ++ [(e, cnt)] := zip_snoc he
  have hE : ∀ i n, (i, n) ∈ g.iter S ↔ g.get? i = some n := fun i n => Arena.mem_entries h.arena
  have hEn : ((g.iter S).map Prod.fst).Nodup := Arena.entries_nodup hS h.arena
  obtain ⟨st', h1, _⟩ := Graph.drawIn_total (S := S) ((g.nodes.entries S).zip (ds ++ [cnt]))
    (by
      have : (((g.iter S).zip (ds ++ [cnt])).map fun q => q.1.1) = (((g.iter S).zip (ds ++ [cnt])).map Prod.fst).map Prod.fst := by
        rw [List.map_map]; rfl
      rw [show (g.nodes.entries S) = g.iter S from rfl, this]
      exact hEn.sublist ((zip_fst_sublist _ _).map _))
    (hn.sublist (zip_snd_sublist _ _))
    (by
      intro e he
      have := (List.of_mem_zip he).1
      exact (h.wt _ _ ((hE e.1.1 e.1.2).1 this)).disc)
  have h2 : g.switchInsertDraws S (ds ++ [cnt]) = .ok st' := h1
  have h3 := h2
  simp only [Graph.switchInsertDraws] at hst h3
  rw [hz, foldE_append, hst] at h3
  simp only [foldE] at h3
  cases hi : st.1.insert cnt e.2 with
  | error p => rw [hi] at h3; exact absurd h3 (by simp)
  | ok r =>
    obtain ⟨new, a, c'⟩ := r
    rw [hi] at h3
    simp only [Except.ok.injEq] at h3
    obtain ⟨rfl, rfl⟩ : new = cnt + 1 ∧ c' = cnt + 1 := by
      by_cases hc : st.1.disp.contains (cnt + 1) = true
      · simp only [Arena.insert, Arena.alloc, idAlloc, hc, if_true] at hi
        exact absurd hi (by simp)
      · simp only [Arena.insert, Arena.alloc, idAlloc, hc] at hi
        simp only [Bool.false_eq_true, if_false] at hi
        split at hi
        · exact absurd hi (by simp)
        · simp only [Except.ok.injEq, Prod.mk.injEq] at hi
          exact ⟨hi.1.symm, hi.2.2.symm⟩
    exact ⟨a, rfl, by rw [h2, ← h3]⟩

/-- A context does not forget the indices it has handed out. -/
theorem World.exec_issued_le (w : World) (call : Call) (c : Nat) : (w.issued c).length ≤ ((w.exec S dbg call).issued c).length := by
  have hissue : ∀ c0 x0 cnt l, (w.issued c).length ≤ ((w.issue c0 x0 cnt l).issued c).length := by
    intro c0 x0 cnt l
    simp only [World.issue, World.put]
    split
    · rename_i e
      subst e
      simp
    · exact Nat.le_refl _
  cases call with
  | op k o =>
    simp only [World.exec]
    split
    · split
      · split
        · rename_i x0 _ _ _ cnt _ _
          exact hissue _ x0 cnt _
        · exact Nat.le_refl _
      · exact Nat.le_refl _
    · exact Nat.le_refl _
  | switchContext g c0 =>
    simp only [World.exec]
    split
    · split
      · exact Nat.le_refl _
      · rename_i x0 _ _ _ _ _ cnt _
        split <;> exact hissue _ x0 cnt _
    · exact Nat.le_refl _
  | _ => simp only [World.exec] <;> (repeat' split) <;> exact Nat.le_refl _

omit [SetImpl] in
/-- The tables of the threads agree after the same thread has gone on in both. -/
theorem Spec.SameMove.put {mv : Nat → Option MovingW} {mv' : Nat → Option Moving} {a : Option MovingW} {b : Option Moving}
    (h : ∀ m, SameMove S (mv m) (mv' m)) (hab : SameMove S a b) (m m' : Nat) : SameMove S (World.put mv m a m') (World.put mv' m b m') := by
  simp only [World.put]
  split
  · exact hab
  · exact h m'

/-- The rest of a `switch_context` after its draws. -/
theorem Graph.switchContextDraws_rest {g : Graph} {ds : List Nat} {st : Arena × OrderMap NodeIndex NodeIndex} {u : Nat}
    (h : g.switchInsertDraws S ds = .ok st) : g.switchContextDraws S u ds = g.switchRest S u st := by
  obtain ⟨a, m⟩ := st
  simp only [Graph.switchContextDraws, h, Graph.switchRest]
  cases foldE (Graph.switchNode g.back m) a m.entries with
  | error e => rfl
  | ok nodes =>
    simp only
    cases Graph.applyBidirectional S (Graph.mergeNodes S (Graph.new u) nodes Lcr.new).1 (Graph.mergeNodes S (Graph.new u) nodes Lcr.new).2 with
    | error e => rfl
    | ok g2 =>
      simp only
      cases Graph.checkLinkType S g2 (Graph.mergeNodes S (Graph.new u) nodes Lcr.new).2 <;> rfl

/-- What the two notions of programs with threads have in common: `P` is closed under their steps and has their invariant. -/
structure Steps (S : Schema) (dbg : Bool) (R : World → Call → Prop) (P : World → (Nat → Option Moving) → Prop) : Prop where
  inv : ∀ {w mv}, P w mv → MInv S w mv
  init : P World.init fun _ => none
  call : ∀ {w mv c}, P w mv → c.Allowed S w → R w c → P (w.exec S dbg c) mv
  start : ∀ {w mv} {m gh c c' : Nat} {g : Graph} {x : Ctx}, P w mv → mv m = none → w.graph gh = some (c', g) → w.ctx c = some x →
    P (w.setGraph gh none) (World.put mv m (some ⟨c, g, []⟩))
  draw : ∀ {w mv} {m c : Nat} {g : Graph} {ds : List Nat} {x : Ctx}, P w mv → mv m = some ⟨c, g, ds⟩ → w.ctx c = some x → ds.length < g.len S →
    P (w.issue c x (x.cnt + 1) [x.cnt + 1]) (World.put mv m (some ⟨c, g, ds ++ [x.cnt]⟩))
  finish : ∀ {w mv} {m gh c : Nat} {g g' : Graph} {ds : List Nat} {x : Ctx}, P w mv → mv m = some ⟨c, g, ds⟩ → w.ctx c = some x →
    ds.length = g.len S → g.switchContextDraws S x.uuid ds = .ok g' → P (w.setGraph gh (some (c, g'))) (World.put mv m none)
  panic : ∀ {w mv} {m c : Nat} {g : Graph} {ds : List Nat} {x : Ctx} {e : Panic}, P w mv → mv m = some ⟨c, g, ds⟩ → w.ctx c = some x →
    ds.length = g.len S → g.switchContextDraws S x.uuid ds = .error e → P w (World.put mv m none)

/-- Programs on the machine are matched by executions with unbounded counters. -/
theorem threadedW_matched (hw : WellNamed S) {W M : Nat} {chk : Bool} {K : World → World → Prop} {P : World → (Nat → Option Moving) → Prop}
    (hP : Steps S dbg (fun w c => R w c ∧ Fits W M S w c) P)
    (hK : ∀ {w w' mv}, P w mv → (∀ c x, w.ctx c = some x → x.cnt ≤ M + (w.issued c).length) → K w w' → P w' mv ∧ w'.ctx = w.ctx ∧ w'.issued = w.issued)
    {w : World} {mv : Nat → Option MovingW} (h : ThreadedW W chk S dbg (fun w c => R w c ∧ Fits W M S w c) (DrawFits W M) K w mv) :
    ∃ mv', P w mv' ∧ ∀ m, SameMove S (mv m) (mv' m) := by
  have lenE : ∀ g : Graph, g.len S = (g.iter S).length := fun g => Arena.len_eq S g.nodes
  have find : ∀ {mv : Nat → Option MovingW} {mv' : Nat → Option Moving} {m : Nat} {a : MovingW}, (∀ m, SameMove S (mv m) (mv' m)) → mv m = some a →
      ∃ ds, mv' m = some ⟨a.ctx, a.graph, ds⟩ ∧ ds.length ≤ a.graph.len S ∧ a.left = (a.graph.iter S).drop ds.length ∧
        a.graph.switchInsertDraws S ds = .ok a.done := by
    intro mv mv' m a h ha
    have := h m
    rw [ha] at this
    cases e : mv' m with
    | none => rw [e] at this; exact this.elim
    | some b =>
      rw [e] at this
      obtain ⟨bc, bg, bd⟩ := b
      obtain ⟨rfl, rfl, h3, h4, h5⟩ := this
      exact ⟨bd, rfl, h3, h4, h5⟩
  have full : ∀ {g : Graph} {ds : List Nat}, ds.length ≤ g.len S → [] = (g.iter S).drop ds.length → ds.length = g.len S := by
    intro g ds h1 h2
    have := congrArg List.length h2
    rw [List.length_nil, List.length_drop] at this
    rw [lenE] at h1 ⊢
    omega
  have key : ∃ mv', P w mv' ∧ (∀ m, SameMove S (mv m) (mv' m)) ∧
      ∀ c x, w.ctx c = some x → x.cnt ≤ M + (w.issued c).length := by
    induction h with
    | init => exact ⟨fun _ => none, hP.init, fun _ => trivial, fun c x hx => absurd hx (by simp [World.init])⟩
    | @call w mv c _ ha hr ih =>
      obtain ⟨mv', h1, h2, h3⟩ := ih
      have hi := (hP.inv h1).world
      have e : w.execW W chk S dbg c = w.exec S dbg c := World.execW_eq hw W chk hi ha fun c0 x hx => by
        have := h3 c0 x hx
        have := hr.2.2 c0
        omega
      rw [e]
      exact ⟨mv', hP.call h1 ha hr, h2, World.exec_used hw hi ha hr.2.1 h3⟩
    | @caught w w' mv _ hc ih =>
      obtain ⟨mv', h1, h2, h3⟩ := ih
      obtain ⟨k1, k2, k3⟩ := hK h1 h3 hc
      exact ⟨mv', k1, h2, fun c x hx => by rw [k3]; exact h3 c x (k2 ▸ hx)⟩
    | @start w mv m gh c c' g x _ hm hg hx ih =>
      obtain ⟨mv', h1, h2, h3⟩ := ih
      have hm' : mv' m = none := by
        have := h2 m
        rw [hm] at this
        cases e : mv' m with
        | none => rfl
        | some b => rw [e] at this; exact this.elim
      refine ⟨_, hP.start h1 hm' hg hx, SameMove.put (a := some ⟨c, g, (Arena.new, OrderMap.empty), g.nodes.entries S⟩) (b := some ⟨c, g, []⟩) h2 ⟨rfl, rfl, Nat.zero_le _, rfl, ?_⟩ m, h3⟩
      simp only [Graph.switchInsertDraws, List.zip_nil_right, foldE]
    | @draw w mv m c cnt g st e l x new a _ hm hx hd hin ih =>
      obtain ⟨mv', h1, h2, h3⟩ := ih
      obtain ⟨ds, k1, k2, k3, k4⟩ := find h2 hm
      simp only at k1 k2 k3 k4
      have hlt : ds.length < g.len S := by
        have := congrArg List.length k3
        rw [List.length_drop, List.length_cons] at this
        rw [lenE]
        omega
      have hdr := hP.draw h1 k1 hx hlt
      have hi := hP.inv hdr
      have hn : (ds ++ [x.cnt]).Nodup := hi.nodup m c g _ (by simp [World.put])
      obtain ⟨a', k5, k6⟩ := draw_next hw.variants (hi.graph m c g (ds ++ [x.cnt]) (by simp [World.put])) hn k4 k3
      have hfit : x.cnt + 1 < W := by
        have := h3 c x hx
        have : M + (w.issued c).length + 1 < W := hd
        omega
      have := (Arena.insertW_eq chk hfit k5).1
      rw [hin] at this
      simp only [Prod.mk.injEq, Except.ok.injEq] at this
      obtain ⟨rfl, rfl, rfl⟩ := this
      refine ⟨_, hdr, SameMove.put (a := some ⟨c, g, (a, st.2.insert e.1 (x.cnt + 1)), l⟩) (b := some ⟨c, g, ds ++ [x.cnt]⟩) h2 ⟨rfl, rfl, ?_, ?_, k6⟩ m, ?_⟩
      · simp only [List.length_append, List.length_singleton]
        omega
      · simp only [List.length_append, List.length_singleton]
        rw [← List.drop_drop, ← k3]
        rfl
      · intro c0 x0 hx0
        simp only [World.issue, World.put] at hx0 ⊢
        split at hx0
        · rename_i e0
          subst e0
          simp only [Option.some.injEq] at hx0
          subst hx0
          have := h3 c0 x hx
          simp only [if_true, List.length_append, List.length_singleton]
          omega
        · rename_i e0
          rw [if_neg e0]
          exact h3 c0 x0 hx0
    | @drawPanic w mv m c cnt g st e l x p _ hm hx hd hin ih =>
      obtain ⟨mv', h1, h2, h3⟩ := ih
      obtain ⟨ds, k1, k2, k3, k4⟩ := find h2 hm
      simp only at k1 k2 k3 k4
      have hlt : ds.length < g.len S := by
        have := congrArg List.length k3
        rw [List.length_drop, List.length_cons] at this
        rw [lenE]
        omega
      have hi := hP.inv (hP.draw h1 k1 hx hlt)
      have hn : (ds ++ [x.cnt]).Nodup := hi.nodup m c g _ (by simp [World.put])
      obtain ⟨a', k5, k6⟩ := draw_next hw.variants (hi.graph m c g (ds ++ [x.cnt]) (by simp [World.put])) hn k4 k3
      have hfit : x.cnt + 1 < W := by
        have := h3 c x hx
        have : M + (w.issued c).length + 1 < W := hd
        omega
      have := (Arena.insertW_eq chk hfit k5).1
      rw [hin] at this
      exact absurd (congrArg Prod.snd this) (by simp)
    | @finish w mv m gh c g g' st x _ hm hx hs ih =>
      obtain ⟨mv', h1, h2, h3⟩ := ih
      obtain ⟨ds, k1, k2, k3, k4⟩ := find h2 hm
      exact ⟨_, hP.finish h1 k1 hx (full k2 k3) ((Graph.switchContextDraws_rest k4).trans hs), SameMove.put (a := none) (b := none) h2 trivial m, h3⟩
    | @panic w mv m c g st x e _ hm hx hs ih =>
      obtain ⟨mv', h1, h2, h3⟩ := ih
      obtain ⟨ds, k1, k2, k3, k4⟩ := find h2 hm
      exact ⟨_, hP.panic h1 k1 hx (full k2 k3) ((Graph.switchContextDraws_rest k4).trans hs), SameMove.put (a := none) (b := none) h2 trivial m, h3⟩
  obtain ⟨mv', h1, h2, _⟩ := key
  exact ⟨mv', h1, h2⟩

/-- A panic that is caught on the machine, if the indices that the method draws fit, is one that is caught with unbounded counters. -/
theorem Spec.CatchesW.catches {W M : Nat} {chk : Bool} {w w' : World} (h : CatchesW W M chk S dbg w w') (hi : World.WInv S w)
    (hb : ∀ c x, w.ctx c = some x → x.cnt ≤ M + (w.issued c).length) : Catches S dbg w w' := by
  cases h with
  | merge ht hg hm => exact .merge ht hg hm
  | commit ht hg hd hne hl => exact .commit ht hg hd hne hl
  | @method k c cnt t x o e part ht hx ho hfit hrun hp =>
    obtain ⟨_, _, _, hr⟩ := hi.trans k c t ht
    have hown : ∀ i : Nat, t.Owns i → i ≤ x.cnt := by
      intro i ho
      obtain ⟨x', hx', _, h2⟩ := hi.bound (.inr k) c i ⟨t, ht, ho⟩
      rw [hx] at hx'
      simp only [Option.some.injEq] at hx'
      subst hx'
      exact h2
    have hd : x.cnt + o.draws < W := by
      have := hb c x hx
      omega
    have key : o.runW W chk t x.cnt = (x.cnt, (o.run t x.cnt).map fun r => (r.1, r.2.2)) →
        Catches S dbg w ((w.issue c x cnt []).setTrans k (some (c, o.left part t))) := by
      intro h1
      rw [hrun, Prod.mk.injEq] at h1
      obtain ⟨rfl, h2⟩ := h1
      rw [World.issue_nil hx]
      cases h3 : o.run t x.cnt with
      | error e' => exact .method ht hx ho h3 hp
      | ok r => rw [h3] at h2; exact absurd h2 (by simp [Except.map])
    cases o with
    | insert n =>
      have h1 := Trans.insert_ok hr hown n
      simp [TOp.runW, (Trans.insertW_eq chk hd h1).1, Except.map] at hrun
    | extend l =>
      have ha : TOp.Allowed S t (.extend l) := by
        rcases ho with ho | ⟨i, n, ho, _⟩
        · exact ho
        · exact absurd ho (by simp)
      obtain ⟨t', cnt', l', h1, _⟩ := Trans.extend_ok hr hown ha
      simp [TOp.runW, Trans.extendW_eq chk hd h1] at hrun
    | alloc d =>
      have h1 := Trans.alloc_ok hr hown d
      simp [TOp.runW, Trans.allocW_eq chk hd h1, Except.map] at hrun
    | allocUntyped => simp [TOp.runW, Trans.allocUntypedW, idAllocW_eq chk hd, Except.map] at hrun
    | fillBack i n => exact key rfl
    | fillBackUntyped i n => exact key rfl
    | remove i => exact key rfl
    | mutate i f => exact key rfl
    | update i f => exact key rfl
    | redirectAllLinks a b => exact key rfl
    | redirectLinks a b => exact key rfl

/-- The matching executions on the machine: what is closed under the steps with unbounded counters is reached on the machine, too. -/
theorem Steps.machine (hw : WellNamed S) {W M : Nat} {chk : Bool} {K : World → World → Prop} {P : World → (Nat → Option Moving) → Prop}
    (hP : Steps S dbg (fun w c => R w c ∧ Fits W M S w c) P) :
    Steps S dbg (fun w c => R w c ∧ Fits W M S w c) fun w mv' => P w mv' ∧ (∀ c x, w.ctx c = some x → x.cnt ≤ M + (w.issued c).length) ∧
      ((∀ c, M + (w.issued c).length < W) →
        ∃ mv, ThreadedW W chk S dbg (fun w c => R w c ∧ Fits W M S w c) (DrawFits W M) K w mv ∧ ∀ m, SameMove S (mv m) (mv' m)) := by
  have lenE : ∀ g : Graph, g.len S = (g.iter S).length := fun g => Arena.len_eq S g.nodes
  have find : ∀ {mv : Nat → Option MovingW} {mv' : Nat → Option Moving} {m c : Nat} {g : Graph} {ds : List Nat}, (∀ m, SameMove S (mv m) (mv' m)) →
      mv' m = some ⟨c, g, ds⟩ → ∃ st, mv m = some ⟨c, g, st, (g.iter S).drop ds.length⟩ ∧ g.switchInsertDraws S ds = .ok st := by
    intro mv mv' m c g ds h ha
    have := h m
    rw [ha] at this
    cases e : mv m with
    | none => rw [e] at this; exact this.elim
    | some a =>
      rw [e] at this
      obtain ⟨ac, ag, ad, al⟩ := a
      obtain ⟨rfl, rfl, _, h4, h5⟩ := this
      simp only at h4
      subst h4
      exact ⟨ad, rfl, h5⟩
  refine ⟨fun h => hP.inv h.1, ?init, ?call, ?start, ?draw, ?finish, ?panic⟩
  case init => exact ⟨hP.init, fun c x hx => absurd hx (by simp [World.init]), fun _ => ⟨fun _ => none, .init, fun _ => trivial⟩⟩
  case call =>
    intro w mv' c ⟨h0, h3, ih⟩ ha hr
    have hi := (hP.inv h0).world
    refine ⟨hP.call h0 ha hr, World.exec_used hw hi ha hr.2.1 h3, fun hf => ?_⟩
    obtain ⟨mv, h1, h2⟩ := ih fun c0 => Nat.lt_of_le_of_lt (Nat.add_le_add_left (World.exec_issued_le w c c0) M) (hf c0)
    have e : w.execW W chk S dbg c = w.exec S dbg c := World.execW_eq hw W chk hi ha fun c0 x hx => by
      have := h3 c0 x hx
      have := hr.2.2 c0
      omega
    exact ⟨mv, e ▸ h1.call ha hr, h2⟩
  case start =>
    intro w mv' m gh c c' g x ⟨h0, h3, ih⟩ hm hg hx
    refine ⟨hP.start h0 hm hg hx, h3, fun hf => ?_⟩
    obtain ⟨mv, h1, h2⟩ := ih hf
    have hm' : mv m = none := by
      have := h2 m
      rw [hm] at this
      cases e : mv m with
      | none => rfl
      | some b => rw [e] at this; exact this.elim
    refine ⟨_, h1.start hm' hg hx, SameMove.put (a := some ⟨c, g, (Arena.new, OrderMap.empty), g.nodes.entries S⟩) (b := some ⟨c, g, []⟩) h2
      ⟨rfl, rfl, Nat.zero_le _, rfl, ?_⟩ m⟩
    simp only [Graph.switchInsertDraws, List.zip_nil_right, foldE]
  case draw =>
    intro w mv' m c g ds x ⟨h0, h3, ih⟩ hm hx hlt
    have len : ∀ c0, ((w.issue c x (x.cnt + 1) [x.cnt + 1]).issued c0).length = (w.issued c0).length + if c0 = c then 1 else 0 := by
      intro c0
      simp only [World.issue, World.put]
      split
      · rename_i e0
        subst e0
        simp
      · rfl
    refine ⟨hP.draw h0 hm hx hlt, ?_, fun hf => ?_⟩
    · intro c0 x0 hx0
      rw [len]
      simp only [World.issue, World.put] at hx0
      split at hx0
      · rename_i e0
        subst e0
        simp only [Option.some.injEq] at hx0
        subst hx0
        have := h3 c0 x hx
        simp only [if_true]
        omega
      · rename_i e0
        rw [if_neg e0]
        exact h3 c0 x0 hx0
    · obtain ⟨mv, h1, h2⟩ := ih fun c0 => by
        have := hf c0
        rw [len] at this
        omega
      obtain ⟨st, k1, k4⟩ := find h2 hm
      have hi := hP.inv (hP.draw h0 hm hx hlt)
      have hn : (ds ++ [x.cnt]).Nodup := hi.nodup m c g _ (by simp [World.put])
      have hd : DrawFits W M w c := by
        have := hf c
        rw [len, if_pos rfl] at this
        simp only [DrawFits]
        omega
      cases k3 : (g.iter S).drop ds.length with
      | nil =>
        have := congrArg List.length k3
        rw [List.length_drop, List.length_nil, ← lenE] at this
        omega
      | cons e l =>
        obtain ⟨a, k5, k6⟩ := draw_next hw.variants (hi.graph m c g (ds ++ [x.cnt]) (by simp [World.put])) hn k4 k3.symm
        have hfit : x.cnt + 1 < W := by
          have := h3 c x hx
          have : M + (w.issued c).length + 1 < W := hd
          omega
        rw [k3] at k1
        refine ⟨_, h1.draw k1 hx hd (Arena.insertW_eq chk hfit k5).1, SameMove.put (a := some ⟨c, g, (a, st.2.insert e.1 (x.cnt + 1)), l⟩)
          (b := some ⟨c, g, ds ++ [x.cnt]⟩) h2 ⟨rfl, rfl, ?_, ?_, k6⟩ m⟩
        · simp only [List.length_append, List.length_singleton]
          omega
        · simp only [List.length_append, List.length_singleton]
          rw [← List.drop_drop, k3]
          rfl
  case finish =>
    intro w mv' m gh c g g' ds x ⟨h0, h3, ih⟩ hm hx hlen hs
    refine ⟨hP.finish h0 hm hx hlen hs, h3, fun hf => ?_⟩
    obtain ⟨mv, h1, h2⟩ := ih hf
    obtain ⟨st, k1, k4⟩ := find h2 hm
    rw [List.drop_eq_nil_of_le (by rw [hlen, lenE]; exact Nat.le_refl _)] at k1
    exact ⟨_, h1.finish k1 hx ((Graph.switchContextDraws_rest k4).symm.trans hs), SameMove.put (a := none) (b := none) h2 trivial m⟩
  case panic =>
    intro w mv' m c g ds x e ⟨h0, h3, ih⟩ hm hx hlen hs
    refine ⟨hP.panic h0 hm hx hlen hs, h3, fun hf => ?_⟩
    obtain ⟨mv, h1, h2⟩ := ih hf
    obtain ⟨st, k1, k4⟩ := find h2 hm
    rw [List.drop_eq_nil_of_le (by rw [hlen, lenE]; exact Nat.le_refl _)] at k1
    exact ⟨_, h1.panic k1 hx ((Graph.switchContextDraws_rest k4).symm.trans hs), SameMove.put (a := none) (b := none) h2 trivial m⟩

/-- A closed property holds of all programs with threads. -/
theorem Spec.Interleaves.closed {P : World → (Nat → Option Moving) → Prop} (hP : Steps S dbg R P) {w : World} {mv : Nat → Option Moving}
    (h : Interleaves S dbg R w mv) : P w mv := by
  induction h with
  | init => exact hP.init
  | call _ ha hr ih => exact hP.call ih ha hr
  | start _ hm hg hx ih => exact hP.start ih hm hg hx
  | draw _ hm hx hl ih => exact hP.draw ih hm hx hl
  | finish _ hm hx hl hs ih => exact hP.finish ih hm hx hl hs
  | panic _ hm hx hl hs ih => exact hP.panic ih hm hx hl hs

theorem Spec.Threaded.closed {P : World → (Nat → Option Moving) → Prop} (hP : Steps S dbg R P) (hc : ∀ w w' mv, P w mv → Catches S dbg w w' → P w' mv)
    {w : World} {mv : Nat → Option Moving} (h : Threaded S dbg R w mv) : P w mv := by
  induction h with
  | init => exact hP.init
  | call _ ha hr ih => exact hP.call ih ha hr
  | caught _ h ih => exact hc _ _ _ ih h
  | start _ hm hg hx ih => exact hP.start ih hm hg hx
  | draw _ hm hx hl ih => exact hP.draw ih hm hx hl
  | finish _ hm hx hl hs ih => exact hP.finish ih hm hx hl hs
  | panic _ hm hx hl hs ih => exact hP.panic ih hm hx hl hs

/-- A panic that is caught with unbounded counters is caught on the machine: methods that draw do not panic. -/
theorem Spec.Catches.machine {W M : Nat} (chk : Bool) {w w' : World} (h : Catches S dbg w w') (hi : World.WInv S w)
    (hf : ∀ c, M + (w.issued c).length < W) : CatchesW W M chk S dbg w w' := by
  cases h with
  | merge ht hg hm => exact .merge ht hg hm
  | commit ht hg hd hne hl => exact .commit ht hg hd hne hl
  | @method k c t x o e part ht hx ho hrun hp =>
    obtain ⟨_, _, _, hr⟩ := hi.trans k c t ht
    have hown : ∀ i : Nat, t.Owns i → i ≤ x.cnt := by
      intro i ho
      obtain ⟨x', hx', _, h2⟩ := hi.bound (.inr k) c i ⟨t, ht, ho⟩
      rw [hx] at hx'
      simp only [Option.some.injEq] at hx'
      subst hx'
      exact h2
    have key : o.runW W chk t x.cnt = (x.cnt, (o.run t x.cnt).map fun r => (r.1, r.2.2)) → o.draws = 0 →
        CatchesW W M chk S dbg w (w.setTrans k (some (c, o.left part t))) := by
      intro h1 h2
      rw [hrun] at h1
      have := CatchesW.method (M := M) (dbg := dbg) ht hx ho (by rw [h2]; exact hf c) h1 hp
      rwa [World.issue_nil hx] at this
    cases o with
    | insert n => simp [TOp.run, Trans.insert_ok hr hown n, Except.map] at hrun
    | extend l =>
      have ha : TOp.Allowed S t (.extend l) := by
        rcases ho with ho | ⟨i, n, ho, _⟩
        · exact ho
        · exact absurd ho (by simp)
      obtain ⟨t', cnt', l', h1, _⟩ := Trans.extend_ok hr hown ha
      simp [TOp.run, h1] at hrun
    | alloc d => simp [TOp.run, Trans.alloc_ok hr hown d, Except.map] at hrun
    | allocUntyped => simp [TOp.run, Except.map] at hrun
    | fillBack i n => exact key rfl rfl
    | fillBackUntyped i n => exact key rfl rfl
    | remove i => exact key rfl rfl
    | mutate i f => exact key rfl rfl
    | update i f => exact key rfl rfl
    | redirectAllLinks a b => exact key rfl rfl
    | redirectLinks a b => exact key rfl rfl

end TTGraph
