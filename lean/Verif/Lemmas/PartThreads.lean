import Verif.Spec.PartThreads
import Verif.Lemmas.Parts

/-!
# Events of one part do not touch the others
-/

set_option autoImplicit false

namespace TTGraph
open Spec
variable [SetImpl] {S : Schema} {dbg : Bool} {R : World → Call → Prop} {o : Parts} {th : Nat → Nat} {i : Nat}

/-- `Interleaves` is what lists of events do. -/
theorem interleaves_exec {s : Running} (h : Interleaves S dbg R s.1 s.2) {e : ThreadEvent} (ha : ∀ a, e = .call a → a.Allowed S s.1 ∧ R s.1 a) :
    Interleaves S dbg R (s.exec S dbg e).1 (s.exec S dbg e).2 := by
  cases e with
  | call a => exact h.call (ha a rfl).1 (ha a rfl).2
  | start m gh c =>
    simp only [Running.exec]
    split
    · rename_i h1 h2 h3
      exact h.start h1 h2 h3
    · exact h
  | draw m =>
    simp only [Running.exec]
    split
    · rename_i h1
      split
      · rename_i h2
        split
        · rename_i h3
          exact h.draw h1 h2 h3
        · exact h
      · exact h
    · exact h
  | finish m gh =>
    simp only [Running.exec]
    split
    · rename_i h1
      split
      · rename_i h2
        split
        · rename_i h3
          split
          · rename_i h4
            exact h.finish h1 h2 h3 h4
          · rename_i h4
            exact h.panic h1 h2 h3 h4
        · exact h
      · exact h
    · exact h

theorem runEvents_append (s : Running) (l m : List ThreadEvent) : runEvents S dbg s (l ++ m) = runEvents S dbg (runEvents S dbg s l) m :=
  List.foldl_append ..

theorem eventsAllowed_snoc {l : List ThreadEvent} {e : ThreadEvent} (h : EventsAllowed S dbg R l)
    (he : ∀ a, e = .call a → a.Allowed S (runEvents S dbg Running.init l).1 ∧ R (runEvents S dbg Running.init l).1 a) :
    EventsAllowed S dbg R (l ++ [e]) := by
  intro pre a post hl
  rcases List.eq_nil_or_concat post with rfl | ⟨post', b, rfl⟩
  · obtain ⟨rfl, h2⟩ := List.append_inj' hl rfl
    exact he a (by simpa using h2)
  · have : l ++ [e] = (pre ++ .call a :: post') ++ [b] := by rw [hl]; simp
    obtain ⟨h1, _⟩ := List.append_inj' this rfl
    exact h pre a post' h1

theorem interleaves_events {w : World} {mv : Nat → Option Moving} (h : Interleaves S dbg R w mv) :
    ∃ l, EventsAllowed S dbg R l ∧ runEvents S dbg Running.init l = (w, mv) := by
  have go : ∀ {l : List ThreadEvent} {w w' : World} {mv mv' : Nat → Option Moving} (e : ThreadEvent), EventsAllowed S dbg R l → runEvents S dbg Running.init l = (w, mv) →
      (∀ a, e = .call a → a.Allowed S w ∧ R w a) → Running.exec S dbg (w, mv) e = (w', mv') →
      ∃ l, EventsAllowed S dbg R l ∧ runEvents S dbg Running.init l = (w', mv') := by
    intro l w w' mv mv' e h1 h2 h3 h4
    refine ⟨l ++ [e], eventsAllowed_snoc h1 (by rw [h2]; exact h3), ?_⟩
    rw [runEvents_append, h2]
    exact h4
  induction h with
  | init => exact ⟨[], fun pre a post hl => absurd hl (by simp), rfl⟩
  | @call w mv c _ h1 h2 ih =>
    obtain ⟨l, k1, k2⟩ := ih
    exact go (.call c) k1 k2 (fun a e => by cases e; exact ⟨h1, h2⟩) rfl
  | @start w mv m gh c c' g x _ h1 h2 h3 ih =>
    obtain ⟨l, k1, k2⟩ := ih
    exact go (.start m gh c) k1 k2 (fun a e => by cases e) (by simp only [Running.exec, h1, h2, h3])
  | @draw w mv m c g ds x _ h1 h2 h3 ih =>
    obtain ⟨l, k1, k2⟩ := ih
    exact go (.draw m) k1 k2 (fun a e => by cases e) (by simp only [Running.exec, h1, h2, h3, if_true])
  | @finish w mv m gh c g g' ds x _ h1 h2 h3 h4 ih =>
    obtain ⟨l, k1, k2⟩ := ih
    exact go (.finish m gh) k1 k2 (fun a e => by cases e) (by simp only [Running.exec, h1, h2, h3, h4, if_true])
  | @panic w mv m c g ds x e _ h1 h2 h3 h4 ih =>
    obtain ⟨l, k1, k2⟩ := ih
    exact go (.finish m 0) k1 k2 (fun a e => by cases e) (by simp only [Running.exec, h1, h2, h3, h4, if_true])

/-- Graphs, transactions and `switch_context`s belong to the part of their context. -/
structure ApartRunning (o : Parts) (th : Nat → Nat) (s : Running) : Prop where
  world : Apart o s.1
  moving : ∀ m x, s.2 m = some x → o.ctx x.ctx = th m

theorem ApartRunning.init (o : Parts) (th : Nat → Nat) : ApartRunning o th Running.init := ⟨.init o, fun _ _ h => absurd h (by simp [Running.init])⟩

theorem put_moving {f : Nat → Option Moving} {p q : Nat → Nat} (h : ∀ k x, f k = some x → p x.ctx = q k) (j : Nat)
    {v : Option Moving} (hv : ∀ x, v = some x → p x.ctx = q j) (k : Nat) (x : Moving) (e : World.put f j v k = some x) : p x.ctx = q k := by
  by_cases ek : k = j
  · subst ek
    simp only [World.put, if_true] at e
    exact hv _ e
  · simp only [World.put, ek, if_false] at e
    exact h _ _ e

theorem ApartRunning.exec {s : Running} (h : ApartRunning o th s) {e : ThreadEvent} (he : EventWithin o th i e) : ApartRunning o th (s.exec S dbg e) := by
  cases e with
  | call a => exact ⟨h.world.call he, h.moving⟩
  | start m gh c =>
    simp only [Running.exec]
    split
    · refine ⟨⟨put_apart h.world.graph _ fun _ _ e => absurd e (by simp), h.world.trans⟩, put_moving h.moving _ fun x e => ?_⟩
      simp only [Option.some.injEq] at e
      rw [← e]
      exact he.2.2.trans he.1.symm
    · exact h
  | draw m =>
    simp only [Running.exec]
    split
    · rename_i h1
      split
      · split
        · refine ⟨⟨h.world.graph, h.world.trans⟩, put_moving h.moving _ fun x e => ?_⟩
          simp only [Option.some.injEq] at e
          rw [← e]
          have := h.moving _ _ h1
          exact this
        · exact h
      · exact h
    · exact h
  | finish m gh =>
    simp only [Running.exec]
    split
    · rename_i h1
      split
      · split
        · split
          · refine ⟨⟨put_apart h.world.graph _ fun c g e => ?_, h.world.trans⟩, put_moving h.moving _ fun x e => absurd e (by simp)⟩
            simp only [Option.some.injEq, Prod.mk.injEq] at e
            rw [← e.1, he.2, ← he.1]
            exact h.moving _ _ h1
          · exact ⟨h.world, put_moving h.moving _ fun x e => absurd e (by simp)⟩
        · exact h
      · exact h
    · exact h

/-- An event of the part has the same effect on the part, whatever the other parts are. -/
theorem Spec.SameRunning.exec {s s2 : Running} (h : SameRunning o th i s s2) (ha : ApartRunning o th s) {e : ThreadEvent} (he : EventWithin o th i e) :
    SameRunning o th i (s.exec S dbg e) (s2.exec S dbg e) := by
  cases e with
  | call a => exact ⟨h.1.call ha.world he, h.2⟩
  | start m gh c =>
    simp only [Running.exec, h.2 m he.1, h.1.graph gh he.2.1, h.1.ctx c he.2.2]
    split
    · exact ⟨h.1.setGraph _ _, put_part h.2 _ _⟩
    · exact h
  | draw m =>
    simp only [Running.exec, h.2 m he]
    split
    · rename_i c g ds h1
      have hc : o.ctx c = i := (ha.moving _ _ h1).trans he
      simp only [h.1.ctx c hc]
      split
      · split
        · exact ⟨h.1.issue hc _ _ _, put_part h.2 _ _⟩
        · exact h
      · exact h
    · exact h
  | finish m gh =>
    simp only [Running.exec, h.2 m he.1]
    split
    · rename_i c g ds h1
      have hc : o.ctx c = i := (ha.moving _ _ h1).trans he.1
      simp only [h.1.ctx c hc]
      split
      · split
        · split
          · exact ⟨h.1.setGraph _ _, put_part h.2 _ _⟩
          · exact ⟨h.1, put_part h.2 _ _⟩
        · exact h
      · exact h
    · exact h

/-- An event of another part does not touch the part. -/
theorem other_event {s : Running} (ha : ApartRunning o th s) {e : ThreadEvent} {j : Nat} (he : EventWithin o th j e) (hj : j ≠ i) :
    SameRunning o th i s (s.exec S dbg e) := by
  have same : SameRunning o th i s s := ⟨.refl _ _ _, fun _ _ => rfl⟩
  cases e with
  | call a => exact ⟨other_call ha.world he hj, fun _ _ => rfl⟩
  | start m gh c =>
    have hm : th m ≠ i := by rw [he.1]; exact hj
    have hg : o.graph gh ≠ i := by rw [he.2.1]; exact hj
    simp only [Running.exec]
    split
    · exact ⟨other_setGraph hg _ _, put_other hm _⟩
    · exact same
  | draw m =>
    have hm : th m ≠ i := by rw [show th m = j from he]; exact hj
    simp only [Running.exec]
    split
    · rename_i c g ds h1
      split
      · split
        · exact ⟨other_issue (by rw [ha.moving _ _ h1]; exact hm) _ _ _ _, put_other hm _⟩
        · exact same
      · exact same
    · exact same
  | finish m gh =>
    have hm : th m ≠ i := by rw [he.1]; exact hj
    have hg : o.graph gh ≠ i := by rw [he.2]; exact hj
    simp only [Running.exec]
    split
    · split
      · split
        · split
          · exact ⟨other_setGraph hg _ _, put_other hm _⟩
          · exact ⟨.refl _ _ _, put_other hm _⟩
        · exact same
      · exact same
    · exact same

theorem parts_events {l : List (Nat × ThreadEvent)} : ∀ {s s2 : Running}, (∀ e ∈ l, EventWithin o th e.1 e.2) → ApartRunning o th s → ApartRunning o th s2 →
    SameRunning o th i s s2 → SameRunning o th i (runEvents S dbg s (l.map Prod.snd)) (runEvents S dbg s2 (eventsOf i l)) := by
  induction l with
  | nil => exact fun _ _ _ h3 => h3
  | cons e l ih =>
    intro s s2 hl h h2 h3
    have hc := hl e (by simp)
    have hl' : ∀ e ∈ l, EventWithin o th e.1 e.2 := fun e he => hl e (List.mem_cons_of_mem _ he)
    by_cases he : e.1 = i
    · have e1 : eventsOf i (e :: l) = e.2 :: eventsOf i l := by simp [eventsOf, he]
      rw [e1]
      rw [he] at hc
      exact ih hl' (h.exec hc) (h2.exec hc) (h3.exec h hc)
    · have e1 : eventsOf i (e :: l) = eventsOf i l := by simp [eventsOf, he]
      rw [e1]
      have k := other_event (S := S) (dbg := dbg) h hc he
      exact ih hl' (h.exec hc) h2 ⟨k.1.symm.comp h3.1, fun m hm => (h3.2 m hm).trans (k.2 m hm).symm⟩
end TTGraph
