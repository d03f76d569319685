import Verif.Lemmas.Meets
import Verif.Spec.Worlds
import Verif.Lemmas.History

/-!
# Indices that nobody owns stay without owner
-/

set_option autoImplicit false

namespace TTGraph
open Spec
namespace World

theorem owns_setGraph {w : World} {k c' : Nat} {g : Graph} {o : Obj} {c i : Nat} (h : (w.setGraph k (some (c', g))).Owns o c i) :
    w.Owns o c i ∨ (c = c' ∧ g.Owns i) := by
  rcases o with j | j
  · obtain ⟨g', hg', ho'⟩ := h
    simp only [setGraph, put] at hg'
    split at hg'
    · simp only [Option.some.injEq, Prod.mk.injEq] at hg'
      obtain ⟨rfl, rfl⟩ := hg'
      exact Or.inr ⟨rfl, ho'⟩
    · exact Or.inl ⟨g', hg', ho'⟩
  · exact Or.inl h

theorem owns_setTrans {w : World} {k c' : Nat} {t : Trans} {o : Obj} {c i : Nat} (h : (w.setTrans k (some (c', t))).Owns o c i) :
    w.Owns o c i ∨ (c = c' ∧ t.Owns i) := by
  rcases o with j | j
  · exact Or.inl h
  · obtain ⟨g', hg', ho'⟩ := h
    simp only [setTrans, put] at hg'
    split at hg'
    · simp only [Option.some.injEq, Prod.mk.injEq] at hg'
      obtain ⟨rfl, rfl⟩ := hg'
      exact Or.inr ⟨rfl, ho'⟩
    · exact Or.inl ⟨g', hg', ho'⟩

section
variable [SetImpl] {S : Schema}

/-- Nobody in the context `c` owns the index `i`, and the counter is past it. -/
def Gone (w : World) (c i : Nat) : Prop := (∃ x, w.ctx c = some x ∧ i ≤ x.cnt) ∧ ∀ o, ¬ w.Owns o c i

omit [SetImpl] in
theorem Gone.mono {w w' : World} {c i : Nat} (h : w.Gone c i)
    (hctx : ∀ x, w.ctx c = some x → ∃ x', w'.ctx c = some x' ∧ x.cnt ≤ x'.cnt)
    (hown : ∀ o, w'.Owns o c i → (∃ o1, w.Owns o1 c i) ∨ ∀ x, w.ctx c = some x → x.cnt < i) : w'.Gone c i := by
  obtain ⟨⟨x, hx, hi⟩, h2⟩ := h
  obtain ⟨x', hx', hle⟩ := hctx x hx
  refine ⟨⟨x', hx', Nat.le_trans hi hle⟩, fun o ho => ?_⟩
  rcases hown o ho with ⟨o1, h3⟩ | h3
  · exact h2 o1 h3
  · exact absurd (h3 x hx) (by omega)

omit [SetImpl] in
theorem Gone.quiet {w w' : World} {c i : Nat} (h : w.Gone c i) (hctx : w'.ctx c = w.ctx c)
    (hown : ∀ o, w'.Owns o c i → ∃ o1, w.Owns o1 c i) : w'.Gone c i :=
  h.mono (fun x hx => ⟨x, by rw [hctx]; exact hx, Nat.le_refl _⟩) fun o ho => Or.inl (hown o ho)

theorem Gone.exec (hw : WellNamed S) (dbg : Bool) {w : World} (hi : WInv S w) {c i : Nat} (h : w.Gone c i) (call : Call)
    (ha : call.Allowed S w) : (w.exec S dbg call).Gone c i := by
  have hadd : ∀ {c0 : Nat}, w.ctx c0 = none → ∀ u cnt, (w.addCtx c0 u cnt).Gone c i := by
    intro c0 h0 u cnt
    refine h.quiet ?_ fun o ho => ⟨o, owns_addCtx.1 ho⟩
    obtain ⟨⟨x, hx, _⟩, _⟩ := h
    simp only [addCtx, put]
    split
    · rename_i e; subst e; rw [h0] at hx; exact absurd hx (by simp)
    · rfl
  have hissue : ∀ {w : World} {c0 : Nat} {x : Ctx} {cnt : Nat} {l : List NodeIndex}, w.ctx c0 = some x → x.cnt ≤ cnt →
      ∀ x1, w.ctx c = some x1 → ∃ x', (w.issue c0 x cnt l).ctx c = some x' ∧ x1.cnt ≤ x'.cnt := by
    intro w c0 x cnt l h0 hle x1 hx1
    simp only [issue, put]
    split
    · rename_i e
      subst e
      rw [h0] at hx1
      simp only [Option.some.injEq] at hx1
      subst hx1
      exact ⟨_, rfl, hle⟩
    · exact ⟨x1, hx1, Nat.le_refl _⟩
  have hsg : ∀ {w : World}, w.Gone c i → ∀ k, (w.setGraph k none).Gone c i := fun h k =>
    h.quiet rfl fun o ho => ⟨o, (owns_setGraph_none ho).1⟩
  have hst : ∀ {w : World}, w.Gone c i → ∀ k, (w.setTrans k none).Gone c i := fun h k =>
    h.quiet rfl fun o ho => ⟨o, (owns_setTrans_none ho).1⟩
  have hcommit : ∀ {c1 k gh : Nat} {t : Trans} {g g' : Graph}, w.trans k = some (c1, t) → w.graph gh = some (c1, g) →
      g.commit S dbg t = .ok g' → ((w.setTrans k none).setGraph gh (some (c1, g'))).Gone c i := by
    intro c1 k gh t g g' ht hg hc
    obtain ⟨x, h1, h2, h3, h4, h5, h6, h7, h8⟩ := hi.pair ht hg
    obtain ⟨v6, out⟩ := Graph.commit_ok hw h5 h4.good h7 h4.noFrom hc
    refine h.quiet rfl fun o ho => ?_
    rcases owns_setGraph ho with ho | ⟨rfl, hi'⟩
    · exact ⟨o, (owns_setTrans_none ho).1⟩
    · simp only [Graph.Owns, out.disp] at hi'
      split at hi'
      · exact absurd rfl hi'
      · cases hx : t.inc.disp.get? i with
        | none => rw [hx] at hi'; exact ⟨.inl gh, g, hg, hi'⟩
        | some d => exact ⟨.inr k, t, ht, Or.inl (by simp [hx])⟩
  cases call with
  | newContext c0 u => exact hadd ha.1 u 0
  | defaultContext c0 => exact hadd ha 0 0
  | newGraph g c0 =>
    simp only [World.exec]
    cases hc : w.ctx c0 with
    | none => exact h
    | some x =>
      refine h.quiet rfl fun o ho => ?_
      rcases owns_setGraph ho with ho | ⟨_, hi'⟩
      · exact ⟨o, ho⟩
      · exact absurd rfl hi'
  | newTrans k c0 =>
    simp only [World.exec]
    cases hc : w.ctx c0 with
    | none => exact h
    | some x =>
      refine h.quiet rfl fun o ho => ?_
      rcases owns_setTrans ho with ho | ⟨_, hi'⟩
      · exact ⟨o, ho⟩
      · exact absurd hi' (Trans.new_owns _ i)
  | op k o =>
    simp only [World.exec]
    cases ht : w.trans k with
    | none => exact h
    | some p =>
      obtain ⟨c0, t⟩ := p
      simp only
      obtain ⟨x, hx, hu, hr⟩ := hi.trans k c0 t ht
      rw [hx]
      simp only
      cases hrun : o.run t x.cnt with
      | error e => exact hst h k
      | ok st =>
        obtain ⟨t', cnt, l⟩ := st
        have hg := Trans.run_grown hr (by
          intro i hi'
          obtain ⟨x', hx', h2⟩ := hi.bound (.inr k) c0 i ⟨t, ht, hi'⟩
          rw [hx] at hx'
          simp only [Option.some.injEq] at hx'
          subst hx'
          exact h2) (ha c0 t ht) hrun
        refine h.mono (hissue (l := l) hx hg.le) fun o ho => ?_
        rcases owns_setTrans ho with ho | ⟨rfl, hi'⟩
        · exact Or.inl ⟨o, owns_issue.1 ho⟩
        · rcases hg.owns i hi' with h2 | h2
          · exact Or.inl ⟨.inr k, t, ht, h2⟩
          · refine Or.inr fun x1 hx1 => ?_
            rw [hx] at hx1
            simp only [Option.some.injEq] at hx1
            subst hx1
            exact h2.1
  | merge k g =>
    simp only [World.exec]
    cases ht : w.trans k with
    | none => exact h
    | some p =>
      obtain ⟨c0, t⟩ := p
      cases hg : w.graph g with
      | none => exact h
      | some q =>
        obtain ⟨c', gr⟩ := q
        have := ha c0 t c' gr ht hg
        subst this
        simp only
        cases hm : t.merge gr with
        | error e => exact hsg (hst h k) g
        | ok t' =>
          simp only [Trans.merge] at hm
          split at hm
          · simp only [Except.ok.injEq] at hm
            subst hm
            refine hsg (w := w.setTrans k (some (c0, { t with inc := t.inc.merge gr.nodes }))) (h.quiet rfl fun o ho => ?_) g
            rcases owns_setTrans ho with ho | ⟨rfl, hi'⟩
            · exact ⟨o, ho⟩
            · rcases hi' with hi' | hi'
              · simp only [Arena.merge_disp] at hi'
                cases hx : gr.nodes.disp.get? i with
                | none => rw [hx] at hi'; exact ⟨.inr k, t, ht, Or.inl hi'⟩
                | some d => exact ⟨.inl g, gr, hg, by simp [Graph.Owns, hx]⟩
              · exact ⟨.inr k, t, ht, Or.inr hi'⟩
          · exact absurd hm (by simp)
  | commit g k =>
    simp only [World.exec]
    cases ht : w.trans k with
    | none => exact h
    | some p =>
      obtain ⟨c0, t⟩ := p
      cases hg : w.graph g with
      | none => exact h
      | some q =>
        obtain ⟨c', gr⟩ := q
        have := ha c0 t c' gr ht hg
        subst this
        simp only
        cases hc : gr.commit S dbg t with
        | error e => exact hsg (hst h k) g
        | ok gr' => exact hcommit ht hg hc
  | commitChecked g k checks =>
    simp only [World.exec]
    cases ht : w.trans k with
    | none => exact h
    | some p =>
      obtain ⟨c0, t⟩ := p
      cases hg : w.graph g with
      | none => exact h
      | some q =>
        obtain ⟨c', gr⟩ := q
        have := ha c0 t c' gr ht hg
        subst this
        simp only
        cases hc : gr.commitChecked S dbg t checks with
        | error e => exact hsg (hst h k) g
        | ok gr' => exact hcommit ht hg (Graph.commit_of_checked hc)
  | commitCaught g k =>
    simp only [World.exec]
    cases ht : w.trans k with
    | none => exact h
    | some p =>
      obtain ⟨c0, t⟩ := p
      cases hg : w.graph g with
      | none => exact h
      | some q =>
        obtain ⟨c', gr⟩ := q
        have := ha c0 t c' gr ht hg
        subst this
        simp only
        cases hc : gr.commitLeft S dbg t with
        | none => exact hsg (hst h k) g
        | some gr' =>
          obtain ⟨x, h1, h2, h3, h4, h5, h6, h7, h8⟩ := hi.pair ht hg
          obtain ⟨out, _⟩ := Graph.commitLeft_out hw.variants h5 h4.good h7 h4.noFrom hc
          refine h.quiet rfl fun o ho => ?_
          rcases owns_setGraph ho with ho | ⟨rfl, hi'⟩
          · exact ⟨o, (owns_setTrans_none ho).1⟩
          · rcases out.sub i hi' with hi' | hi'
            · exact ⟨.inr k, t, ht, Or.inl hi'⟩
            · exact ⟨.inl g, gr, hg, hi'⟩
  | dropTrans k => exact hst h k
  | dropGraph g => exact hsg h g
  | switchContext gh c0 =>
    cases hg : w.graph gh with
    | none => simp only [World.exec, hg]; exact h
    | some q =>
      obtain ⟨c1, g⟩ := q
      cases hc : w.ctx c0 with
      | none => simp only [World.exec, hg, hc]; exact h
      | some x =>
        obtain ⟨_, _, _, hgi⟩ := hi.graph gh c1 g hg
        obtain ⟨a0, idMap, a, h1, h2, h3, h4, h5, h6, h7⟩ := Graph.switchNodes_ok hw.variants hgi x.cnt
        have hgood := h7.good hgi h2
        have hiss : (w.issue c0 x (x.cnt + (g.iter S).length) (idMap.entries.map Prod.snd)).Gone c i :=
          h.mono (hissue hc (by omega)) fun o ho => Or.inl ⟨o, owns_issue.1 ho⟩
        simp only [World.exec, hg, hc, h1]
        cases k1 : Graph.switchContext S g x.uuid x.cnt with
        | error e => exact hsg hiss gh
        | ok st =>
          obtain ⟨g', cnt'⟩ := st
          obtain ⟨rfl, k2, _⟩ := Graph.switchContext_ok hw hgi h2 h3 h7 k1
          simp only
          refine h.mono (hissue (l := idMap.entries.map Prod.snd) hc (by omega)) fun o ho => ?_
          rcases owns_setGraph ho with ho | ⟨rfl, hi'⟩
          · exact Or.inl ⟨o, owns_issue.1 ho⟩
          · refine Or.inr fun x1 hx1 => ?_
            rw [hc] at hx1
            simp only [Option.some.injEq] at hx1
            subst hx1
            simp only [Graph.Owns, k2.disp] at hi'
            exact (hgood.2.2.2 i hi').1
  | deserialize gh c0 input =>
    simp only [World.exec]
    cases hd : Graph.deserializeGraph S input with
    | error e => exact h
    | ok st =>
      simp only
      refine (hadd ha.2.1 _ _).quiet rfl fun o ho => ?_
      rcases owns_setGraph ho with ho | ⟨rfl, _⟩
      · exact ⟨o, ho⟩
      · obtain ⟨⟨x, hx, _⟩, _⟩ := h
        rw [ha.2.1] at hx
        exact absurd hx (by simp)

/-- Counters never go back. -/
theorem exec_cnt (hw : WellNamed S) (dbg : Bool) {w : World} (hi : WInv S w) {call : Call} (ha : call.Allowed S w) {c : Nat}
    {x : Ctx} (hx : w.ctx c = some x) : ∃ x', (w.exec S dbg call).ctx c = some x' ∧ x.cnt ≤ x'.cnt := by
  have keep : ∃ x', w.ctx c = some x' ∧ x.cnt ≤ x'.cnt := ⟨x, hx, Nat.le_refl _⟩
  have hadd : ∀ {c0 : Nat}, w.ctx c0 = none → ∀ u cnt, ∃ x', (w.addCtx c0 u cnt).ctx c = some x' ∧ x.cnt ≤ x'.cnt := by
    intro c0 h0 u cnt
    refine ⟨x, ?_, Nat.le_refl _⟩
    simp only [addCtx, put]
    split
    · rename_i e; subst e; rw [h0] at hx; exact absurd hx (by simp)
    · exact hx
  have hissue : ∀ {c0 : Nat} {x0 : Ctx} {cnt : Nat} {l : List NodeIndex}, w.ctx c0 = some x0 → x0.cnt ≤ cnt →
      ∃ x', (w.issue c0 x0 cnt l).ctx c = some x' ∧ x.cnt ≤ x'.cnt := by
    intro c0 x0 cnt l h0 hle
    simp only [issue, put]
    split
    · rename_i e
      subst e
      rw [h0] at hx
      simp only [Option.some.injEq] at hx
      subst hx
      exact ⟨_, rfl, hle⟩
    · exact keep
  cases call with
  | newContext c0 u => exact hadd ha.1 u 0
  | defaultContext c0 => exact hadd ha 0 0
  | newGraph g c0 => simp only [World.exec]; split <;> exact keep
  | newTrans k c0 => simp only [World.exec]; split <;> exact keep
  | op k o =>
    simp only [World.exec]
    cases ht : w.trans k with
    | none => exact keep
    | some p =>
      obtain ⟨c0, t⟩ := p
      simp only
      obtain ⟨x0, hx0, hu, hr⟩ := hi.trans k c0 t ht
      rw [hx0]
      simp only
      cases hrun : o.run t x0.cnt with
      | error e => exact keep
      | ok st =>
        obtain ⟨t', cnt, l⟩ := st
        have hg := Trans.run_grown hr (by
          intro i hi'
          obtain ⟨x', hx', h2⟩ := hi.bound (.inr k) c0 i ⟨t, ht, hi'⟩
          rw [hx0] at hx'
          simp only [Option.some.injEq] at hx'
          subst hx'
          exact h2) (ha c0 t ht) hrun
        exact hissue (l := l) hx0 hg.le
  | merge k g => simp only [World.exec]; split <;> [split <;> exact keep; exact keep]
  | commit k g => simp only [World.exec]; split <;> [split <;> exact keep; exact keep]
  | commitChecked k g cs => simp only [World.exec]; split <;> [split <;> exact keep; exact keep]
  | commitCaught k g => simp only [World.exec]; split <;> exact keep
  | dropTrans k => exact keep
  | dropGraph k => exact keep
  | switchContext gh c0 =>
    cases hg : w.graph gh with
    | none => simp only [World.exec, hg]; exact keep
    | some q =>
      obtain ⟨c1, g⟩ := q
      cases hc : w.ctx c0 with
      | none => simp only [World.exec, hg, hc]; exact keep
      | some x0 =>
        obtain ⟨_, _, _, hgi⟩ := hi.graph gh c1 g hg
        obtain ⟨a0, idMap, a, h1, h2, h3, h4, h5, h6, h7⟩ := Graph.switchNodes_ok hw.variants hgi x0.cnt
        simp only [World.exec, hg, hc, h1]
        cases k1 : Graph.switchContext S g x0.uuid x0.cnt with
        | error e => exact hissue (l := idMap.entries.map Prod.snd) hc (by omega)
        | ok st =>
          obtain ⟨g', cnt'⟩ := st
          obtain ⟨rfl, _⟩ := Graph.switchContext_ok hw hgi h2 h3 h7 k1
          exact hissue (l := idMap.entries.map Prod.snd) hc (by omega)
  | deserialize gh c0 input =>
    simp only [World.exec]
    cases hd : Graph.deserializeGraph S input with
    | error e => exact keep
    | ok st => exact hadd ha.2.1 _ _

theorem _root_.TTGraph.Spec.Later.cnt (hw : WellNamed S) {dbg : Bool} {w w' : World} (hi : WInv S w) (hl : Later S dbg w w')
    {c : Nat} {x : Ctx} (hx : w.ctx c = some x) : (∃ x', w'.ctx c = some x' ∧ x.cnt ≤ x'.cnt) ∧ WInv S w' := by
  induction hl with
  | refl => exact ⟨⟨x, hx, Nat.le_refl _⟩, hi⟩
  | step _ ha ih =>
    obtain ⟨⟨x', hx', hle⟩, hi'⟩ := ih
    obtain ⟨x2, h2, hle2⟩ := exec_cnt hw dbg hi' ha hx'
    exact ⟨⟨x2, h2, Nat.le_trans hle hle2⟩, hi'.exec hw dbg _ ha⟩

theorem _root_.TTGraph.Spec.Later.reaches {dbg : Bool} {w w' : World} (h : Reaches S dbg AnyCall w) (hl : Later S dbg w w') :
    Reaches S dbg AnyCall w' := by
  induction hl with
  | refl => exact h
  | step _ ha ih => exact .step ih ha trivial

/-- In a debug build, an index is owned exactly when somebody has a node or an unfilled allocation for it. -/
theorem owned_of (hw : WellNamed S) {R : World → Call → Prop} {w : World} (h : Reaches S true R w) {c i : Nat}
    (hn : Nowhere w c i) (o : Obj) : ¬ w.Owns o c i := by
  obtain ⟨h1, h2⟩ := (full_closed (R := R) hw).reaches h
  rcases o with k | k
  · rintro ⟨g, hg, ho⟩
    exact h1 k c g hg i ho (hn.1 k g hg)
  · rintro ⟨t, ht, ho⟩
    obtain ⟨h3, h4⟩ := hn.2 k t ht
    rcases ho with ho | ho
    · rcases h2 k c t ht i ho with h5 | h5
      · exact h5 h3
      · exact h4 h5
    · exact h4 ho

omit [SetImpl] in
/-- Whoever has a node or an unfilled allocation owns the index. -/
theorem owner_of {w : World} {c i : Nat} (hn : ¬ Nowhere w c i) : ∃ o, w.Owns o c i := by
  by_contra hno
  refine hn ⟨?_, ?_⟩
  · intro k g hg
    cases hx : g.get? i with
    | none => rfl
    | some n =>
      obtain ⟨d, hd, _⟩ := Arena.get?_eq_some.1 hx
      exact absurd ⟨.inl k, g, hg, by simp [Graph.Owns, hd]⟩ hno
  · intro k t ht
    constructor
    · cases hx : t.pending.new i with
      | none => rfl
      | some n =>
        obtain ⟨d, hd, _⟩ := Arena.get?_eq_some.1 (show t.inc.get? i = some n from hx)
        exact absurd ⟨.inr k, t, ht, Or.inl (by simp [hd])⟩ hno
    · intro hm
      exact hno ⟨.inr k, t, ht, Or.inr hm⟩

theorem Gone.later (hw : WellNamed S) {dbg : Bool} {w w' : World} (hi : WInv S w) {c i : Nat} (h : w.Gone c i)
    (hl : Later S dbg w w') : w'.Gone c i ∧ WInv S w' := by
  induction hl with
  | refl => exact ⟨h, hi⟩
  | step _ ha ih => exact ⟨ih.1.exec hw dbg ih.2 _ ha, ih.2.exec hw dbg _ ha⟩

omit [SetImpl] in
theorem Gone.nowhere {w : World} {c i : Nat} (h : w.Gone c i) : Nowhere w c i := by
  constructor
  · intro k g hg
    cases hn : g.get? i with
    | none => rfl
    | some n =>
      obtain ⟨d, hd, _⟩ := Arena.get?_eq_some.1 hn
      exact absurd ⟨g, hg, by simp [Graph.Owns, hd]⟩ (h.2 (.inl k))
  · intro k t ht
    constructor
    · cases hn : t.pending.new i with
      | none => rfl
      | some n =>
        obtain ⟨d, hd, _⟩ := Arena.get?_eq_some.1 (show t.inc.get? i = some n from hn)
        exact absurd ⟨t, ht, Or.inl (by simp [hd])⟩ (h.2 (.inr k))
    · intro hm
      exact h.2 (.inr k) ⟨t, ht, Or.inr hm⟩

end
end World
end TTGraph
