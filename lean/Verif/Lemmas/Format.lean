import Verif.Model.Format
import Verif.Lemmas.Arena

/-!
# Texts of lines
-/

set_option autoImplicit false

namespace TTGraph

theorem decimal_def (n : Nat) : decimal n = Nat.toDigits 10 n := rfl

theorem debugIdx_def (i : NodeIndex) : debugIdx i = "NodeIndex(".toList ++ decimal i ++ ")".toList := rfl

theorem debugPlace_def (source : Source → Text) (p : NodeIndex × Source) :
    debugPlace source p = "(".toList ++ debugIdx p.1 ++ ", ".toList ++ source p.2 ++ ")".toList := rfl

theorem debugPlaces_def (source : Source → Text) (s : OrderSet (NodeIndex × Source)) :
    debugPlaces source s = "{".toList ++ (", ".toList).intercalate (s.elems.map (debugPlace source)) ++ "}".toList := rfl

theorem Graph.debug_def (S : Schema) (id : Nat → Text) (node : Node → Text) (source : Source → Text) (g : Graph) :
    g.debug S id node source =
      writeln "Graph {".toList ++
      writeln ("  ctx_id = ".toList ++ id g.ctxId ++ ",".toList) ++
      writeln "  nodes = [".toList ++
      (g.nodes.entries S).flatMap (fun e => writeln ("    ".toList ++ debugIdx e.1 ++ ": ".toList ++ node e.2)) ++
      writeln "  ],".toList ++
      writeln "  back_link=[".toList ++
      g.back.entries.flatMap (fun e => writeln ("    ".toList ++ debugIdx e.1 ++ ": ".toList ++ debugPlaces source e.2)) ++
      writeln "  ]".toList ++
      writeln "}".toList := rfl

theorem decimal_inj {a b : Nat} (h : decimal a = decimal b) : a = b := by
  have := congrArg (fun t => Nat.ofDigitChars 10 t 0) h
  simpa only [decimal, Nat.ofDigitChars_toDigits (b := 10) (by decide) (by decide)] using this

theorem decimal_digit {a : Nat} {c : Char} (h : c ∈ decimal a) : c.isDigit = true :=
  Nat.isDigit_of_mem_toDigits (by decide) (by decide) h

/-- A separator that does not occur in the first parts. -/
theorem split_at {α : Type} {c : α} : ∀ {a a' b b' : List α}, c ∉ a → c ∉ a' → a ++ c :: b = a' ++ c :: b' → a = a' ∧ b = b'
  | [], [], _, _, _, _, h => by simpa using h
  | [], x :: a', _, _, _, h2, h => by
    simp only [List.nil_append, List.cons_append, List.cons.injEq] at h
    exact absurd (List.mem_cons.2 (Or.inl h.1)) h2
  | x :: a, [], _, _, h1, _, h => by
    simp only [List.nil_append, List.cons_append, List.cons.injEq] at h
    exact absurd (List.mem_cons.2 (Or.inl h.1.symm)) h1
  | x :: a, y :: a', _, _, h1, h2, h => by
    simp only [List.cons_append, List.cons.injEq] at h
    obtain ⟨k1, k2⟩ := split_at (fun m => h1 (List.mem_cons_of_mem _ m)) (fun m => h2 (List.mem_cons_of_mem _ m)) h.2
    exact ⟨by rw [h.1, k1], k2⟩

/-- A text of lines determines the lines. -/
theorem lines_inj : ∀ {l l' : List Text}, (∀ t ∈ l, '\n' ∉ t) → (∀ t ∈ l', '\n' ∉ t) → l.flatMap writeln = l'.flatMap writeln → l = l'
  | [], [], _, _, _ => rfl
  | [], t :: l', _, _, h => by
    have := congrArg List.length h
    simp [writeln] at this
  | t :: l, [], _, _, h => by
    have := congrArg List.length h
    simp [writeln] at this
  | t :: l, t' :: l', h1, h2, h => by
    simp only [List.flatMap_cons, writeln, List.append_assoc, List.singleton_append] at h
    obtain ⟨k1, k2⟩ := split_at (h1 t (List.mem_cons_self ..)) (h2 t' (List.mem_cons_self ..)) h
    rw [k1, lines_inj (fun t m => h1 t (List.mem_cons_of_mem _ m)) (fun t m => h2 t (List.mem_cons_of_mem _ m)) k2]

theorem displayIdx_inj {a b : NodeIndex} (h : displayIdx a = displayIdx b) : a = b := by
  have key : ∀ n : Nat, "empty".toList ≠ decimal n := by
    intro n e
    have : 'e' ∈ decimal n := by rw [← e]; decide
    exact absurd (decimal_digit this) (by decide)
  simp only [displayIdx] at h
  split at h <;> split at h
  · rename_i e1 e2; rw [e1, e2]
  · exact absurd h (key b)
  · exact absurd h.symm (key a)
  · exact decimal_inj h

theorem displayIdx_free {a : NodeIndex} {c : Char} (h : c ∈ displayIdx a) : c ≠ ':' ∧ c ≠ '\n' := by
  simp only [displayIdx] at h
  split at h
  · exact (by decide : ∀ c ∈ "empty".toList, c ≠ ':' ∧ c ≠ '\n') c h
  · have := decimal_digit h
    constructor <;> (rintro rfl; exact absurd this (by decide))

theorem debugIdx_inj {a b : NodeIndex} (h : debugIdx a = debugIdx b) : a = b := by
  exact decimal_inj (List.append_cancel_left (List.append_cancel_right h))

theorem debugIdx_free {a : NodeIndex} {c : Char} (h : c ∈ debugIdx a) : c ≠ ':' ∧ c ≠ '\n' := by
  rcases List.mem_append.1 h with h | h
  rcases List.mem_append.1 h with h | h
  · exact (by decide +kernel : ∀ c ∈ "NodeIndex(".toList, c ≠ ':' ∧ c ≠ '\n') c h
  · have := decimal_digit h
    constructor <;> (rintro rfl; exact absurd this (by decide))
  · exact (by decide : ∀ c ∈ ")".toList, c ≠ ':' ∧ c ≠ '\n') c h

/-- One line `  key: value`. -/
def keyLine (pre : Text) (idx : NodeIndex → Text) {β : Type} (val : β → Text) (e : NodeIndex × β) : Text := pre ++ idx e.1 ++ ": ".toList ++ val e.2

theorem keyLine_inj {pre : Text} {idx : NodeIndex → Text} {β : Type} {val : β → Text} (h1 : ∀ a b, idx a = idx b → a = b)
    (h2 : ∀ a c, c ∈ idx a → c ≠ ':' ∧ c ≠ '\n') {e e' : NodeIndex × β} (h : keyLine pre idx val e = keyLine pre idx val e') :
    e.1 = e'.1 ∧ val e.2 = val e'.2 := by
  simp only [keyLine, List.append_assoc, List.append_cancel_left_eq] at h
  obtain ⟨k1, k2⟩ := split_at (c := ':') (fun m => (h2 _ _ m).1 rfl) (fun m => (h2 _ _ m).1 rfl)
    (show idx e.1 ++ ':' :: (' ' :: val e.2) = idx e'.1 ++ ':' :: (' ' :: val e'.2) from h)
  exact ⟨h1 _ _ k1, (List.cons.inj k2).2⟩

theorem keyLines_inj {pre : Text} {idx : NodeIndex → Text} {β : Type} {val : β → Text} (h1 : ∀ a b, idx a = idx b → a = b)
    (h2 : ∀ a c, c ∈ idx a → c ≠ ':' ∧ c ≠ '\n') :
    ∀ {l l' : List (NodeIndex × β)}, l.map (keyLine pre idx val) = l'.map (keyLine pre idx val) → l.map (fun e => (e.1, val e.2)) = l'.map (fun e => (e.1, val e.2))
  | [], [], _ => rfl
  | [], _ :: _, h => by simp at h
  | _ :: _, [], h => by simp at h
  | e :: l, e' :: l', h => by
    simp only [List.map_cons, List.cons.injEq] at h ⊢
    obtain ⟨k1, k2⟩ := keyLine_inj h1 h2 h.1
    exact ⟨by rw [k1, k2], keyLines_inj h1 h2 h.2⟩

theorem keyLine_free {pre : Text} {idx : NodeIndex → Text} {β : Type} {val : β → Text} (h0 : '\n' ∉ pre)
    (h2 : ∀ a c, c ∈ idx a → c ≠ ':' ∧ c ≠ '\n') {e : NodeIndex × β} (h3 : '\n' ∉ val e.2) : '\n' ∉ keyLine pre idx val e := by
  simp only [keyLine, List.mem_append, not_or]
  exact ⟨⟨⟨h0, fun m => (h2 _ _ m).2 rfl⟩, by decide⟩, h3⟩

theorem intercalate_free {α : Type} {c : α} {sep : List α} (h0 : c ∉ sep) : ∀ {l : List (List α)}, (∀ t ∈ l, c ∉ t) → c ∉ sep.intercalate l
  | [], _ => by simp [List.intercalate]
  | [t], h => by simpa [List.intercalate] using h t (List.mem_singleton.2 rfl)
  | t :: t' :: l, h => by
    rw [List.intercalate_cons_cons]
    simp only [List.mem_append, not_or]
    exact ⟨⟨h t (List.mem_cons_self ..), h0⟩, intercalate_free h0 fun s hs => h s (List.mem_cons_of_mem _ hs)⟩

theorem flatMap_lines {α : Type} (l : List α) (f : α → Text) : l.flatMap (fun e => writeln (f e)) = (l.map f).flatMap writeln := by
  rw [List.flatMap_map]

theorem Graph.display_lines (S : Schema) (node : Node → Text) (g : Graph) :
    g.display S node = ("Graph {".toList :: ((g.iter S).map (keyLine "  ".toList displayIdx node) ++ ["}".toList])).flatMap writeln := by
  simp only [Graph.display, List.flatMap_cons, List.flatMap_append, List.flatMap_nil, List.append_nil, List.flatMap_map, List.append_assoc, keyLine]
  rfl

theorem Graph.debug_lines (S : Schema) (id : Nat → Text) (node : Node → Text) (source : Source → Text) (g : Graph) :
    g.debug S id node source = ("Graph {".toList :: ("  ctx_id = ".toList ++ id g.ctxId ++ ",".toList) :: "  nodes = [".toList ::
      ((g.iter S).map (keyLine "    ".toList debugIdx node) ++ "  ],".toList :: "  back_link=[".toList ::
      (g.back.entries.map (keyLine "    ".toList debugIdx (debugPlaces source)) ++ ["  ]".toList, "}".toList]))).flatMap writeln := by
  simp only [Graph.debug, List.flatMap_cons, List.flatMap_append, List.flatMap_nil, List.append_nil, List.flatMap_map, List.append_assoc, keyLine]
  rfl

end TTGraph
