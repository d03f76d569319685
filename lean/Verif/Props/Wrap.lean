import Verif.Lemmas.Wrap

/-!
# C87: programs on a machine with a word size
-/

set_option autoImplicit false

namespace TTGraph
open Spec
variable [SetImpl] {S : Schema} {dbg : Bool} {R : World → Call → Prop}

/-- The counter of a context is at most the largest index in the files and the number of indices that it has handed out, together. -/
theorem World.exec_used (hw : WellNamed S) {M : Nat} {w : World} (hi : World.WInv S w) {call : Call} (ha : call.Allowed S w) (hM : call.FilesUpTo M)
    (h : ∀ c x, w.ctx c = some x → x.cnt ≤ M + (w.issued c).length) :
    ∀ c x, (w.exec S dbg call).ctx c = some x → x.cnt ≤ M + ((w.exec S dbg call).issued c).length := by
  have hissue : ∀ c0 x0 cnt l, w.ctx c0 = some x0 → cnt = x0.cnt + l.length → ∀ c x, (w.issue c0 x0 cnt l).ctx c = some x →
      x.cnt ≤ M + ((w.issue c0 x0 cnt l).issued c).length := by
    intro c0 x0 cnt l h0 hl c x hx
    simp only [World.issue, World.put] at hx ⊢
    split at hx
    · rename_i e
      subst e
      simp only [Option.some.injEq] at hx
      subst hx
      have := h c x0 h0
      simp only [if_true, List.length_append]
      omega
    · rename_i e
      rw [if_neg e]
      exact h c x hx
  have hadd : ∀ c0 u cnt, cnt ≤ M → ∀ c x, (w.addCtx c0 u cnt).ctx c = some x → x.cnt ≤ M + ((w.addCtx c0 u cnt).issued c).length := by
    intro c0 u cnt hc c x hx
    simp only [World.addCtx, World.put] at hx ⊢
    split at hx
    · simp only [Option.some.injEq] at hx
      subst hx
      simp only
      omega
    · exact h c x hx
  cases call with
  | newContext c0 u => exact hadd c0 u 0 (Nat.zero_le _)
  | defaultContext c0 => exact hadd c0 0 0 (Nat.zero_le _)
  | newGraph g c0 => simp only [World.exec]; split <;> exact h
  | newTrans k c0 => simp only [World.exec]; split <;> exact h
  | op k o =>
    simp only [World.exec]
    cases ht : w.trans k with
    | none => exact h
    | some q =>
      obtain ⟨c0, t⟩ := q
      obtain ⟨x0, hx0, _, hrd⟩ := hi.trans k c0 t ht
      simp only [hx0]
      cases hr : o.run t x0.cnt with
      | error e => exact h
      | ok r =>
        obtain ⟨t', cnt, l⟩ := r
        have hg := Trans.run_grown hrd (fun i hi' => by
          obtain ⟨x2, hx2, h2⟩ := hi.bound (.inr k) c0 i ⟨t, ht, hi'⟩
          rw [hx0] at hx2
          exact (Option.some.inj hx2) ▸ h2) (ha c0 t ht) hr
        refine hissue c0 x0 cnt l hx0 ?_
        have := hg.le
        rw [hg.list, List.length_range']
        omega
  | merge k g => simp only [World.exec]; split <;> first | exact h | (split <;> exact h)
  | commit g k => simp only [World.exec]; split <;> first | exact h | (split <;> exact h)
  | commitChecked g k checks => simp only [World.exec]; split <;> first | exact h | (split <;> exact h)
  | commitCaught g k => simp only [World.exec]; split <;> exact h
  | dropTrans k => exact h
  | dropGraph g => exact h
  | switchContext g c0 =>
    simp only [World.exec]
    cases hg : w.graph g with
    | none => exact h
    | some q =>
      obtain ⟨c', gr⟩ := q
      cases hx : w.ctx c0 with
      | none => exact h
      | some x0 =>
        obtain ⟨_, _, _, hgi⟩ := hi.graph g c' gr hg
        obtain ⟨a0, idMap, a, h1, h2, _⟩ := Graph.switchNodes_ok hw.variants hgi x0.cnt
        have hl : (idMap.entries.map Prod.snd).length = (gr.iter S).length := by
          have : idMap.entries = (gr.iter S).zipIdx.map fun q => (q.1.1, Graph.newIndex x0.cnt q.2) := h2.map
          rw [this]
          simp
        have := hissue c0 x0 (x0.cnt + (gr.iter S).length) (idMap.entries.map Prod.snd) hx (by rw [hl])
        simp only [h1]
        cases gr.switchContext S x0.uuid x0.cnt <;> exact this
  | deserialize g c0 input =>
    simp only [World.exec]
    cases hd : Graph.deserializeGraph S input with
    | error e => exact h
    | ok r =>
      obtain ⟨cnt, gr⟩ := r
      refine hadd c0 input.ctxId cnt ?_
      simp only [Graph.deserializeGraph] at hd
      split at hd
      · exact absurd hd (by simp)
      · simp only [Except.ok.injEq, Prod.mk.injEq] at hd
        rw [← hd.1]
        have key : ∀ (l : List (NodeIndex × Node)) (m : Nat), m ≤ M → (∀ e ∈ l, e.1 ≤ M) → l.foldl (fun m e => max m e.1) m ≤ M := by
          intro l
          induction l with
          | nil => exact fun m hm _ => hm
          | cons e l ih =>
            intro m hm hl
            exact ih _ (Nat.max_le.2 ⟨hm, hl e (by simp)⟩) fun e he => hl e (by simp [he])
        exact key input.nodes 0 (Nat.zero_le _) hM

theorem execW_same (hw : WellNamed S) {W M : Nat} {chk : Bool} {w : World} {c : Call} (h : Reaches S dbg R w)
    (hu : ∀ c x, w.ctx c = some x → x.cnt ≤ M + (w.issued c).length) (ha : c.Allowed S w) (hf : Fits W M S w c) :
    w.execW W chk S dbg c = w.exec S dbg c := by
  refine World.execW_eq hw W chk (h.inv hw) ha fun c0 x hx => ?_
  have := hu c0 x hx
  have := hf.2 c0
  omega

theorem reachesW_used (hw : WellNamed S) {W M : Nat} {chk : Bool} {w : World} (h : ReachesW W chk S dbg (fun w c => R w c ∧ Fits W M S w c) w) :
    Reaches S dbg (fun w c => R w c ∧ Fits W M S w c) w ∧ ∀ c x, w.ctx c = some x → x.cnt ≤ M + (w.issued c).length := by
  induction h with
  | init => exact ⟨.init, fun c x hx => absurd hx (by simp [World.init])⟩
  | step _ ha hr ih =>
    rw [execW_same hw ih.1 ih.2 ha hr.2]
    exact ⟨ih.1.step ha hr, World.exec_used hw (ih.1.inv hw) ha hr.2.1 ih.2⟩

/-- A program that draws so few indices that the largest index in the files it reads and the number of indices drawn stay below `W` behaves on
a machine with `W` values of `usize` exactly as if counters were unbounded: it reaches the same worlds.  So everything that is proved about programs
holds for it.

Full statement of C87: the same for every program that draws fewer than `W` indices.  That is false for programs that read files, see below. -/
theorem C87_same_partial (hw : WellNamed S) {W M : Nat} {chk : Bool} {w : World} :
    ReachesW W chk S dbg (fun w c => R w c ∧ Fits W M S w c) w ↔ Reaches S dbg (fun w c => R w c ∧ Fits W M S w c) w := by
  refine ⟨fun h => (reachesW_used hw h).1, fun h => ?_⟩
  have : ReachesW W chk S dbg (fun w c => R w c ∧ Fits W M S w c) w ∧ ∀ c x, w.ctx c = some x → x.cnt ≤ M + (w.issued c).length := by
    induction h with
    | init => exact ⟨.init, fun c x hx => absurd hx (by simp [World.init])⟩
    | step h0 ha hr ih =>
      refine ⟨?_, World.exec_used hw (h0.inv hw) ha hr.2.1 ih.2⟩
      rw [← execW_same hw h0 ih.2 ha hr.2]
      exact ih.1.step ha hr
  exact this.1

/-- In such a program every single call has the effect that it has with unbounded counters, whatever it is. -/
theorem C87_call_partial (hw : WellNamed S) {W M : Nat} {chk : Bool} {w : World}
    (h : ReachesW W chk S dbg (fun w c => R w c ∧ Fits W M S w c) w) {call : Call} (ha : call.Allowed S w) (hf : Fits W M S w call) :
    w.execW W chk S dbg call = w.exec S dbg call :=
  execW_same hw (reachesW_used hw h).1 (reachesW_used hw h).2 ha hf

omit [SetImpl] in
theorem TOp.run_draws {t t' : Trans} {cnt cnt' : Nat} {l : List NodeIndex} {o : TOp} (h : o.run t cnt = .ok (t', cnt', l)) : l.length = o.draws := by
  have one : ∀ e : Except Panic (NodeIndex × Trans × Nat), (e.map fun r => (r.2.1, r.2.2, [r.1])) = .ok (t', cnt', l) → l.length = 1 := by
    intro e he
    cases e with
    | error e => exact absurd he (by simp [Except.map])
    | ok r =>
      simp only [Except.map, Except.ok.injEq, Prod.mk.injEq] at he
      rw [← he.2.2]
      rfl
  have zero : ∀ e : Except Panic Trans, (e.map fun t => (t, cnt, ([] : List NodeIndex))) = .ok (t', cnt', l) → l.length = 0 := by
    intro e he
    cases e with
    | error e => exact absurd he (by simp [Except.map])
    | ok r =>
      simp only [Except.map, Except.ok.injEq, Prod.mk.injEq] at he
      rw [← he.2.2]
      rfl
  have ok : ∀ t1 : Trans, (Except.ok (t1, cnt, ([] : List NodeIndex)) : Except Panic _) = .ok (t', cnt', l) → l.length = 0 := by
    intro t1 he
    simp only [Except.ok.injEq, Prod.mk.injEq] at he
    rw [← he.2.2]
    rfl
  cases o with
  | insert n => exact one _ h
  | alloc d => exact one _ h
  | allocUntyped =>
    simp only [TOp.run, Except.ok.injEq, Prod.mk.injEq] at h
    rw [← h.2.2]
    rfl
  | fillBack i n => exact zero _ h
  | fillBackUntyped i n => exact zero _ h
  | mutate i f => exact zero _ h
  | update i f => exact zero _ h
  | remove i => exact ok _ h
  | redirectAllLinks a b => exact ok _ h
  | redirectLinks a b => exact ok _ h
  | extend ns =>
    have key : ∀ (ns : List Node) (t : Trans) (cnt : Nat) (acc : List NodeIndex), foldE (fun (st : Trans × Nat × List NodeIndex) n =>
        match st.1.insert st.2.1 n with
        | .error e => .error e
        | .ok (i, t', cnt') => .ok (t', cnt', st.2.2 ++ [i])) (t, cnt, acc) ns = .ok (t', cnt', l) → l.length = acc.length + ns.length := by
      intro ns
      induction ns with
      | nil =>
        intro t cnt acc h
        simp only [foldE, Except.ok.injEq, Prod.mk.injEq] at h
        rw [h.2.2]
        rfl
      | cons n ns ih =>
        intro t cnt acc h
        simp only [foldE] at h
        cases hi : t.insert cnt n with
        | error e => simp only [hi] at h; exact absurd h (by simp)
        | ok r =>
          obtain ⟨i, t1, c1⟩ := r
          simp only [hi] at h
          have := ih _ _ _ h
          simp only [List.length_append, List.length_cons, List.length_nil] at this ⊢
          omega
    have := key ns t cnt [] h
    simpa [TOp.draws] using this

/-- A context hands out as many indices as the calls draw. -/
theorem C87_draws (hw : WellNamed S) {w : World} (h : Reaches S dbg R w) {call : Call} (ha : call.Allowed S w) (c : Nat) :
    ((w.exec S dbg call).issued c).length = (w.issued c).length + call.draws S w c := by
  have hi := h.inv hw
  cases call with
  | op k o =>
    simp only [World.exec, Call.draws]
    cases ht : w.trans k with
    | none => rfl
    | some q =>
      obtain ⟨c0, t⟩ := q
      obtain ⟨x0, hx0, _, hrd⟩ := hi.trans k c0 t ht
      simp only [hx0, Option.map_some, Option.some.injEq]
      have hb : ∀ i : Nat, t.Owns i → i ≤ x0.cnt := by
        intro i ho
        obtain ⟨x', hx', _, h2⟩ := hi.bound (.inr k) c0 i ⟨t, ht, ho⟩
        rw [hx0] at hx'
        simp only [Option.some.injEq] at hx'
        subst hx'
        exact h2
      have hao := ha c0 t ht
      cases hr : o.run t x0.cnt with
      | error e =>
        have : o.draws = 0 := by
          cases o with
          | insert n => simp [TOp.run, Trans.insert_ok hrd hb n, Except.map] at hr
          | alloc d => simp [TOp.run, Trans.alloc_ok hrd hb d, Except.map] at hr
          | allocUntyped => simp [TOp.run] at hr
          | extend l =>
            obtain ⟨t', cnt', l', h1, _⟩ := Trans.extend_ok hrd hb hao
            simp [TOp.run, h1] at hr
          | _ => rfl
        simp [this, World.setTrans]
      | ok r =>
        obtain ⟨t', cnt, l⟩ := r
        rw [← TOp.run_draws hr]
        simp only [World.setTrans, World.issue, World.put]
        by_cases e : c = c0
        · subst e; simp
        · rw [if_neg e, if_neg (fun h => e h.symm)]; rfl
  | switchContext g c0 =>
    simp only [World.exec, Call.draws]
    cases hg : w.graph g with
    | none => rfl
    | some q =>
      obtain ⟨c', gr⟩ := q
      cases hx : w.ctx c0 with
      | none => rfl
      | some x0 =>
        obtain ⟨_, _, _, hgi⟩ := hi.graph g c' gr hg
        obtain ⟨a0, idMap, a, h1, h2, _⟩ := Graph.switchNodes_ok hw.variants hgi x0.cnt
        have hl : (idMap.entries.map Prod.snd).length = gr.len S := by
          have : idMap.entries = (gr.iter S).zipIdx.map fun q => (q.1.1, Graph.newIndex x0.cnt q.2) := h2.map
          rw [this, show gr.len S = (gr.iter S).length from Arena.len_eq S gr.nodes]
          simp
        have key : ((w.issue c0 x0 (x0.cnt + (gr.iter S).length) (idMap.entries.map Prod.snd)).issued c).length =
            (w.issued c).length + if c0 = c then gr.len S else 0 := by
          simp only [World.issue, World.put]
          by_cases e : c = c0
          · subst e; simp only [if_true, List.length_append, hl]
          · rw [if_neg e, if_neg (fun h => e h.symm)]; rfl
        simp only [h1]
        cases gr.switchContext S x0.uuid x0.cnt <;> exact key
  | newContext => rfl
  | defaultContext => rfl
  | newGraph => simp only [World.exec, Call.draws]; split <;> rfl
  | newTrans => simp only [World.exec, Call.draws]; split <;> rfl
  | merge => simp only [World.exec, Call.draws]; split <;> first | rfl | (split <;> rfl)
  | commit => simp only [World.exec, Call.draws]; split <;> first | rfl | (split <;> rfl)
  | commitChecked => simp only [World.exec, Call.draws]; split <;> first | rfl | (split <;> rfl)
  | commitCaught => simp only [World.exec, Call.draws]; split <;> rfl
  | dropTrans => rfl
  | dropGraph => rfl
  | deserialize => simp only [World.exec, Call.draws]; split <;> rfl

/-- When the counter is at its largest value, a method that draws one index panics (debug build) or hands out the empty index (release build);
in both cases the context starts again with 1. -/
theorem C87_end (hw : WellNamed S) {W : Nat} {w : World} (h : Reaches S dbg R w) {k c : Nat} {t : Trans} {x : Ctx} {o : TOp}
    (ht : w.trans k = some (c, t)) (hx : w.ctx c = some x) (hc : x.cnt + 1 = W) (ho : (∃ n, o = .insert n) ∨ (∃ d, o = .alloc d) ∨ o = .allocUntyped) :
    w.execW W true S dbg (.op k o) = (w.issue c x 0 []).setTrans k none ∧
    ∃ t', w.execW W false S dbg (.op k o) = (w.issue c x 0 [emptyIdx]).setTrans k (some (c, t')) ∧ (t'.pending.unfilled emptyIdx ∨
      ∃ n, o = .insert n ∧ t'.pending.new emptyIdx = some n) := by
  subst hc
  obtain ⟨_, _, _, hrd⟩ := (h.inv hw).trans k c t ht
  have hd : t.inc.disp.get? emptyIdx = none := by
    by_contra hne
    obtain ⟨_, _, h1, _⟩ := (h.inv hw).bound (.inr k) c emptyIdx ⟨t, ht, .inl hne⟩
    exact h1 rfl
  have hd' : t.inc.disp.contains (0 : Nat) = false := by
    have : t.inc.disp.get? (0 : Nat) = none := hd
    simp [OrderMap.contains, this]
  have e1 : idAllocW (x.cnt + 1) true x.cnt = (0, .error .overflow) := by simp [idAllocW]
  have e2 : idAllocW (x.cnt + 1) false x.cnt = (0, .ok 0) := by simp [idAllocW]
  rcases ho with ⟨n, rfl⟩ | ⟨d, rfl⟩ | rfl
  · have hcn : ∀ d, ((t.inc.cont d).contains (0 : Nat)) = false := by
      intro d
      have : (t.inc.cont d).get? (0 : Nat) = none := hrd.good.inv.cont_none hd d
      simp [OrderMap.contains, this]
    refine ⟨by simp [World.execW, ht, hx, TOp.runW, Trans.insertW, Arena.insertW, Arena.allocW, e1, Except.map], ?_⟩
    refine ⟨{ t with inc := t.inc.store emptyIdx n }, ?_, .inr ⟨n, rfl, ?_⟩⟩
    · simp [World.execW, ht, hx, TOp.runW, Trans.insertW, Arena.insertW, Arena.allocW, e2, Except.map, hd', hcn, Arena.store, Arena.setCont, emptyIdx]
    · simp [Trans.pending, Arena.store_get?]
  · refine ⟨by simp [World.execW, ht, hx, TOp.runW, Trans.allocW, Arena.allocW, e1, Except.map], ?_⟩
    refine ⟨{ t with inc := { t.inc with disp := t.inc.disp.insert emptyIdx d }, allocs := t.allocs.insert emptyIdx }, ?_, .inl ?_⟩
    · simp [World.execW, ht, hx, TOp.runW, Trans.allocW, Arena.allocW, e2, Except.map, hd', emptyIdx]
    · exact OrderSet.mem_insert.2 (.inl rfl)
  · refine ⟨by simp [World.execW, ht, hx, TOp.runW, Trans.allocUntypedW, e1, Except.map], ?_⟩
    refine ⟨{ t with allocs := t.allocs.insert emptyIdx }, ?_, .inl ?_⟩
    · simp [World.execW, ht, hx, TOp.runW, Trans.allocUntypedW, e2, Except.map, emptyIdx]
    · exact OrderSet.mem_insert.2 (.inl rfl)

omit [SetImpl] in
/-- One draw on a 64-bit machine is that of the model of single `fetch_add`s (`Model/Ids.lean`). -/
theorem C87_word (cnt : Word) : (idAllocW (2 ^ 64) false cnt.toNat).1 = (fetchAdd cnt).2.toNat ∧
    (idAllocW (2 ^ 64) false cnt.toNat).2 = .ok (plusOne (fetchAdd cnt).1).toNat := by
  simp [idAllocW, fetchAdd, plusOne, BitVec.toNat_add]

end TTGraph

namespace TTGraph.Demo
open Spec

/-- A file with a node under the largest index of a 64-bit machine. -/
def bigFile : GraphSerializer := ⟨77, [(1, nB 0), (2 ^ 64 - 1, nB 1)]⟩

/-- A program. -/
def runW [SetImpl] (W : Nat) (chk : Bool) (S : Schema) (dbg : Bool) (w : World) (l : List Call) : World := l.foldl (fun w c => w.execW W chk S dbg c) w

/-- All calls are allowed. -/
def AllowedW [SetImpl] (W : Nat) (chk : Bool) (S : Schema) (dbg : Bool) (w : World) : List Call → Prop
  | [] => True
  | c :: l => c.Allowed S w ∧ AllowedW W chk S dbg (w.execW W chk S dbg c) l

theorem reachesW_of [SetImpl] {W : Nat} {chk : Bool} {S : Schema} {dbg : Bool} {w : World} (l : List Call) (h : ReachesW W chk S dbg AnyCall w)
    (hl : AllowedW W chk S dbg w l) : ReachesW W chk S dbg AnyCall (runW W chk S dbg w l) := by
  induction l generalizing w with
  | nil => exact h
  | cons c l ih => exact ih (h.step hl.1 trivial) hl.2

/-- The program reads the file and inserts two nodes. -/
def bigCalls : List Call := [.deserialize 0 0 bigFile, .newTrans 0 0, .op 0 (.insert (nB 5)), .op 0 (.insert (nB 6)), .commit 0 0]

/-- The program goes on with a new transaction after the first `insert` has panicked. -/
def bigCalls2 : List Call :=
  [.deserialize 0 0 bigFile, .newTrans 0 0, .op 0 (.insert (nB 5)), .newTrans 0 0, .op 0 (.insert (nB 6)), .commit 0 0]

theorem same_ctx {w : World} {k g : Nat} {c0 : Nat} (h1 : (w.trans k).map Prod.fst = some c0) (h2 : (w.graph g).map Prod.fst = some c0) :
    ∀ c t c' gr, w.trans k = some (c, t) → w.graph g = some (c', gr) → c = c' := by
  intro c t c' gr e1 e2
  rw [e1] at h1
  rw [e2] at h2
  simp only [Option.map_some, Option.some.injEq] at h1 h2
  rw [h1, h2]

theorem bigFile_ok : ∀ e ∈ bigFile.nodes, e.1 ≠ emptyIdx ∧ plain.WT e.2 := by
  intro e he
  simp only [bigFile, List.mem_cons, List.not_mem_nil, or_false] at he
  rcases he with rfl | rfl
  · exact ⟨by decide, wt_sound (by decide +kernel)⟩
  · exact ⟨by decide +kernel, wt_sound (by decide +kernel)⟩

/-- C87 fails for programs that read files: the file has a node under the largest index, the program draws two indices.  In a release build the
first is the empty index, and the second is the index of a node of the file, which is overwritten by the commit. -/
theorem C87_loaded_fails : ∃ w, ReachesW (2 ^ 64) false plain false AnyCall w ∧ w.issued 0 = [emptyIdx, 1] ∧ (1, nB 0) ∈ bigFile.nodes ∧
    (w.graph 0).map (fun q => q.2.iter plain) = some [(1, nB 6), (2 ^ 64 - 1, nB 1), (emptyIdx, nB 5)] :=
  ⟨runW (2 ^ 64) false plain false World.init bigCalls,
    reachesW_of _ .init ⟨⟨rfl, rfl, bigFile_ok⟩, rfl, fun _ _ _ => wt_sound (by decide +kernel), fun _ _ _ => wt_sound (by decide +kernel),
      same_ctx (c0 := 0) (by decide +kernel) (by decide +kernel), trivial⟩,
    by decide +kernel, by decide +kernel, by decide +kernel⟩

/-- In a debug build the first `insert` panics, but the counter has wrapped around all the same; a program that goes on overwrites the node. -/
theorem C87_debug_fails : ∃ w, ReachesW (2 ^ 64) true plain true AnyCall w ∧ w.issued 0 = [1] ∧ (1, nB 0) ∈ bigFile.nodes ∧
    (w.graph 0).map (fun q => q.2.iter plain) = some [(1, nB 6), (2 ^ 64 - 1, nB 1)] :=
  ⟨runW (2 ^ 64) true plain true World.init bigCalls2,
    reachesW_of _ .init ⟨⟨rfl, rfl, bigFile_ok⟩, rfl, fun _ _ _ => wt_sound (by decide +kernel), Option.isNone_iff_eq_none.1 (by decide +kernel),
      fun _ _ _ => wt_sound (by decide +kernel), same_ctx (c0 := 0) (by decide +kernel) (by decide +kernel), trivial⟩,
    by decide +kernel, by decide +kernel, by decide +kernel⟩

/-- C87: after the file is read, the counter is at its largest value: for `C87_end`. -/
example : let w := (World.init.exec plain true (.deserialize 0 0 bigFile)).exec plain true (.newTrans 0 0)
    Reaches plain true AnyCall w ∧ (w.trans 0).map Prod.fst = some 0 ∧ (w.ctx 0).map Ctx.cnt = some (2 ^ 64 - 1) :=
  ⟨.step (.step .init ⟨rfl, rfl, bigFile_ok⟩ trivial) rfl trivial, by decide +kernel, by decide +kernel⟩

/-- A file with small indices. -/
def smallFile : GraphSerializer := ⟨77, [(1, nB 0), (7, nB 1)]⟩

/-- C87: a program that reads a file with indices up to 7 and draws two indices fits into any machine with at least ten values of `usize`. -/
example (W : Nat) (hW : 10 ≤ W) : ∃ w, ReachesW W true plain true (fun w c => AnyCall w c ∧ Fits W 7 plain w c) w ∧ w.issued 0 = [8, 9] ∧
    (w.graph 0).map (fun q => q.2.iter plain) = some [(1, nB 0), (7, nB 1), (8, nB 5), (9, nB 6)] := by
  have hd : ∀ (w : World) (k : Nat) (o : TOp) c, (Call.op k o).draws plain w c ≤ o.draws := by
    intro w k o c
    simp only [Call.draws]
    split <;> omega
  have hwt : ∀ i, i < 9 → plain.WT (nB i) := fun i hi => (by decide +kernel : ∀ i, i < 9 → wt plain (nB i) = true) i hi |> wt_sound
  have hsm : ∀ e ∈ smallFile.nodes, e.1 ≠ emptyIdx ∧ plain.WT e.2 := by
    intro e he
    simp only [smallFile, List.mem_cons, List.not_mem_nil, or_false] at he
    rcases he with rfl | rfl
    · exact ⟨by decide, hwt 0 (by decide)⟩
    · exact ⟨by decide, hwt 1 (by decide)⟩
  let w1 := World.init.exec plain true (.deserialize 0 0 smallFile)
  let w2 := w1.exec plain true (.newTrans 0 0)
  let w3 := w2.exec plain true (.op 0 (.insert (nB 5)))
  let w4 := w3.exec plain true (.op 0 (.insert (nB 6)))
  let w5 := w4.exec plain true (.commit 0 0)
  have r1 : Reaches plain true (fun w c => AnyCall w c ∧ Fits W 7 plain w c) w1 :=
    .step .init ⟨rfl, rfl, hsm⟩
      ⟨trivial, (by decide : ∀ e ∈ smallFile.nodes, e.1 ≤ 7), fun c => by simp only [World.init, Call.draws, List.length_nil]; omega⟩
  have i1 : ∀ c, (w1.issued c).length = 0 := fun c => C87_draws plain_named (R := AnyCall) .init (call := .deserialize 0 0 smallFile) ⟨rfl, rfl, hsm⟩ c
  have r2 : Reaches plain true (fun w c => AnyCall w c ∧ Fits W 7 plain w c) w2 :=
    r1.step rfl ⟨trivial, trivial, fun c => by rw [i1 c]; simp only [Call.draws]; omega⟩
  have i2 : ∀ c, (w2.issued c).length = 0 := fun c => (C87_draws plain_named r1 (call := .newTrans 0 0) rfl c).trans (i1 c)
  have r3 : Reaches plain true (fun w c => AnyCall w c ∧ Fits W 7 plain w c) w3 :=
    r2.step (fun _ _ _ => hwt 5 (by decide)) ⟨trivial, trivial, fun c => by
      have := hd w2 0 (.insert (nB 5)) c
      simp only [TOp.draws] at this
      rw [i2 c]; omega⟩
  have i3 : ∀ c, (w3.issued c).length ≤ 1 := fun c => by
    have h1 := C87_draws plain_named r2 (call := .op 0 (.insert (nB 5))) (fun _ _ _ => hwt 5 (by decide)) c
    have h2 := hd w2 0 (.insert (nB 5)) c
    simp only [TOp.draws] at h2
    rw [i2 c] at h1
    exact h1 ▸ (by omega)
  have r4 : Reaches plain true (fun w c => AnyCall w c ∧ Fits W 7 plain w c) w4 :=
    r3.step (fun _ _ _ => hwt 6 (by decide)) ⟨trivial, trivial, fun c => by
      have h1 := hd w3 0 (.insert (nB 6)) c
      simp only [TOp.draws] at h1
      have h2 := i3 c
      omega⟩
  have i4 : ∀ c, (w4.issued c).length ≤ 2 := fun c => by
    have h1 := C87_draws plain_named r3 (call := .op 0 (.insert (nB 6))) (fun _ _ _ => hwt 6 (by decide)) c
    have h2 := hd w3 0 (.insert (nB 6)) c
    simp only [TOp.draws] at h2
    have h3 := i3 c
    exact h1 ▸ (by omega)
  have r5 : Reaches plain true (fun w c => AnyCall w c ∧ Fits W 7 plain w c) w5 :=
    r4.step (same_ctx (c0 := 0) (by decide +kernel) (by decide +kernel)) ⟨trivial, trivial, fun c => by
      have h2 := i4 c
      simp only [Call.draws]
      omega⟩
  exact ⟨w5, (C87_same_partial plain_named).2 r5, by decide +kernel, by decide +kernel⟩

end TTGraph.Demo
