import Verif.Lemmas.Format
import Verif.Lemmas.Meets
import Verif.Props.Backlinks
import Verif.Props.SwitchDraws

/-!
# C63: what `Display` and `Debug` write
-/

set_option autoImplicit false

namespace TTGraph

open Spec

section
variable [SetImpl] {S : Schema} {dbg dbg' : Bool} {R R' : World → Call → Prop}

/-- `Display` writes one entry `  index: node` for every node of the graph and nothing else, in some order. -/
theorem C63_display (hw : WellNamed S) {g : Graph} (h : Reachable S dbg R g) (node : Node → Text) :
    ∃ l : List (NodeIndex × Node), l = g.iter S ∧ (l.map Prod.fst).Nodup ∧ (∀ i n, (i, n) ∈ l ↔ g.get? i = some n) ∧
      g.display S node = "Graph {\n".toList ++ l.flatMap (fun e => "  ".toList ++ Nat.toDigits 10 e.1 ++ ": ".toList ++ node e.2 ++ "\n".toList) ++
        "}\n".toList := by
  have inv := h.inv hw
  have hm : ∀ i n, (i, n) ∈ g.iter S ↔ g.get? i = some n := fun i n => Arena.mem_entries inv.arena
  refine ⟨g.iter S, rfl, Arena.entries_nodup hw.variants inv.arena, hm, ?_⟩
  have e1 : (g.iter S).map (keyLine "  ".toList displayIdx node) =
      (g.iter S).map (fun e => "  ".toList ++ Nat.toDigits 10 e.1 ++ ": ".toList ++ node e.2) := by
    refine List.map_congr_left fun e he => ?_
    have h0 : e.1 ≠ emptyIdx := by
      intro h0
      have := (hm e.1 e.2).1 he
      rw [h0, inv.noEmpty] at this
      exact absurd this (by simp)
    simp only [keyLine, displayIdx, if_neg h0, decimal]
  rw [Graph.display_lines, e1]
  have a1 : "Graph {\n".toList = "Graph {".toList ++ ['\n'] := by decide +kernel
  have a2 : "}\n".toList = "}".toList ++ ['\n'] := by decide +kernel
  have a3 : "\n".toList = ['\n'] := by decide +kernel
  rw [a1, a2, a3]
  simp only [List.flatMap_cons, List.flatMap_append, List.flatMap_nil, List.append_nil, List.flatMap_map, writeln, List.append_assoc]

omit [SetImpl] in
/-- Graphs whose nodes have the same texts, listed by `iter`, have the same texts under the same indices. -/
theorem same_of_lines {g g' : Graph} (i1 : g.nodes.Inv S) (i2 : g'.nodes.Inv S) {node : Node → Text}
    (hl : (g.iter S).map (fun e => (e.1, node e.2)) = (g'.iter S).map (fun e => (e.1, node e.2))) (i : NodeIndex) :
    (g.get? i).map node = (g'.get? i).map node := by
  have key : ∀ {g g' : Graph}, g.nodes.Inv S → g'.nodes.Inv S →
      (g.iter S).map (fun e => (e.1, node e.2)) = (g'.iter S).map (fun e => (e.1, node e.2)) → ∀ n, g.get? i = some n →
      ∃ n', g'.get? i = some n' ∧ node n' = node n := by
    intro g g' i1 i2 hl n hg
    have hm : (i, node n) ∈ (g'.iter S).map (fun e => (e.1, node e.2)) := by
      rw [← hl]
      exact List.mem_map.2 ⟨(i, n), (Arena.mem_entries i1).2 hg, rfl⟩
    obtain ⟨⟨i', n'⟩, h1, h2⟩ := List.mem_map.1 hm
    simp only [Prod.mk.injEq] at h2
    obtain ⟨rfl, h2⟩ := h2
    exact ⟨n', (Arena.mem_entries i2).1 h1, h2⟩
  cases hg : g.get? i with
  | some n =>
    obtain ⟨n', h1, h2⟩ := key i1 i2 hl n hg
    rw [h1, Option.map_some, Option.map_some, h2]
  | none =>
    cases hg' : g'.get? i with
    | none => rfl
    | some n =>
      obtain ⟨n', h1, _⟩ := key i2 i1 hl.symm n hg'
      rw [hg] at h1
      exact absurd h1 (by simp)

/-- If nodes are written on one line each, the text that `Display` writes determines the graph as far as the texts of its nodes do: two graphs
with the same text have nodes with the same text under the same indices. -/
theorem C63_display_determines (hw : WellNamed S) {g g' : Graph} (h : Reachable S dbg R g) (h' : Reachable S dbg' R' g')
    (node : Node → Text) (hn : ∀ n, '\n' ∉ node n) (he : g.display S node = g'.display S node) (i : NodeIndex) :
    (g.get? i).map node = (g'.get? i).map node := by
  have i1 := h.inv hw
  have i2 := h'.inv hw
  rw [Graph.display_lines, Graph.display_lines] at he
  have free : ∀ g : Graph, ∀ t ∈ "Graph {".toList :: ((g.iter S).map (keyLine "  ".toList displayIdx node) ++ ["}".toList]), '\n' ∉ t := by
    intro g t ht
    rcases List.mem_cons.1 ht with rfl | ht
    · decide +kernel
    rcases List.mem_append.1 ht with ht | ht
    · obtain ⟨e, _, rfl⟩ := List.mem_map.1 ht
      exact keyLine_free (by decide +kernel) (fun _ _ => displayIdx_free) (hn _)
    · rw [List.mem_singleton.1 ht]
      decide +kernel
  exact same_of_lines i1.arena i2.arena (keyLines_inj (fun _ _ => displayIdx_inj) (fun _ _ => displayIdx_free)
    (List.append_cancel_right (List.cons.inj (lines_inj (free g) (free g') he)).2)) i

/-- `Debug` writes one entry for every node, then entries `    index: {places}`: every node has exactly one, and the places of an index other than
the empty one are exactly those that hold it, each written once. -/
theorem C63_debug (hw : WellNamed S) {g : Graph} (h : Reachable S dbg R g) (id : Nat → Text) (node : Node → Text) (source : Source → Text) :
    ∃ (l : List (NodeIndex × Node)) (b : List (NodeIndex × List (NodeIndex × Source))),
      (l.map Prod.fst).Nodup ∧ (∀ i n, (i, n) ∈ l ↔ g.get? i = some n) ∧
      (b.map Prod.fst).Nodup ∧ (∀ i, g.get? i ≠ none → i ∈ b.map Prod.fst) ∧
      (∀ y places, (y, places) ∈ b → places.Nodup ∧ (y ≠ emptyIdx → ∀ x s, (x, s) ∈ places ↔ View.Holds g.get? x s y)) ∧
      g.debug S id node source =
        "Graph {\n  ctx_id = ".toList ++ id g.ctxId ++ ",\n  nodes = [\n".toList ++
        l.flatMap (fun e => "    NodeIndex(".toList ++ Nat.toDigits 10 e.1 ++ "): ".toList ++ node e.2 ++ "\n".toList) ++
        "  ],\n  back_link=[\n".toList ++
        b.flatMap (fun e => "    NodeIndex(".toList ++ Nat.toDigits 10 e.1 ++ "): {".toList ++
          (", ".toList).intercalate (e.2.map fun p => "(NodeIndex(".toList ++ Nat.toDigits 10 p.1 ++ "), ".toList ++ source p.2 ++ ")".toList) ++ "}\n".toList) ++
        "  ]\n}\n".toList := by
  have inv := h.inv hw
  have hm : ∀ i n, (i, n) ∈ g.iter S ↔ g.get? i = some n := fun i n => Arena.mem_entries inv.arena
  have hkeys : (g.back.entries.map fun e => (e.1, e.2.elems)).map Prod.fst = g.back.entries.map Prod.fst := by
    rw [List.map_map]; rfl
  refine ⟨g.iter S, g.back.entries.map fun e => (e.1, e.2.elems), Arena.entries_nodup hw.variants inv.arena, hm, ?_, ?_, ?_, ?_⟩
  · rw [hkeys]; exact g.back.nodup
  · intro i hi
    obtain ⟨n, hn⟩ := Option.ne_none_iff_exists'.1 hi
    obtain ⟨st, hst⟩ := inv.known i n hn
    rw [hkeys]
    exact List.mem_map.2 ⟨(i, st), OrderMap.get?_eq_some.1 hst, rfl⟩
  · intro y places hp
    obtain ⟨⟨y', st⟩, h1, h2⟩ := List.mem_map.1 hp
    simp only [Prod.mk.injEq] at h2
    obtain ⟨rfl, rfl⟩ := h2
    refine ⟨st.nodup, fun hy x s => ?_⟩
    have hst := OrderMap.get?_eq_some.2 h1
    constructor
    · intro hxs
      exact (C04_exact hw h x s hy).1 ⟨st, hst, hxs⟩
    · intro hh
      obtain ⟨st', h3, h4⟩ := (C04_exact hw h x s hy).2 hh
      rw [hst, Option.some.injEq] at h3
      subst h3
      exact h4
  · rw [List.flatMap_map]
    have a1 : "Graph {\n  ctx_id = ".toList = "Graph {".toList ++ (['\n'] ++ "  ctx_id = ".toList) := by decide +kernel
    have a2 : ",\n  nodes = [\n".toList = ",".toList ++ (['\n'] ++ ("  nodes = [".toList ++ ['\n'])) := by decide +kernel
    have a3 : "    NodeIndex(".toList = "    ".toList ++ "NodeIndex(".toList := by decide +kernel
    have a4 : "): ".toList = ")".toList ++ ": ".toList := by decide +kernel
    have a5 : "\n".toList = ['\n'] := by decide +kernel
    have a6 : "  ],\n  back_link=[\n".toList = "  ],".toList ++ (['\n'] ++ ("  back_link=[".toList ++ ['\n'])) := by decide +kernel
    have a7 : "): {".toList = ")".toList ++ (": ".toList ++ "{".toList) := by decide +kernel
    have a8 : "(NodeIndex(".toList = "(".toList ++ "NodeIndex(".toList := by decide +kernel
    have a9 : "), ".toList = ")".toList ++ ", ".toList := by decide +kernel
    have b1 : "}\n".toList = "}".toList ++ ['\n'] := by decide +kernel
    have b2 : "  ]\n}\n".toList = "  ]".toList ++ (['\n'] ++ ("}".toList ++ ['\n'])) := by decide +kernel
    rw [a1, a2, a3, a4, a5, a6, a7, a8, a9, b1, b2]
    have e2 : debugPlace source = fun p => "(".toList ++ "NodeIndex(".toList ++ Nat.toDigits 10 p.1 ++ (")".toList ++ ", ".toList) ++ source p.2 ++ ")".toList :=
      funext fun p => by rw [debugPlace_def, debugIdx_def, decimal_def]; simp only [List.append_assoc]
    simp only [Graph.debug_def, writeln, debugIdx_def, decimal_def, debugPlaces_def, e2, List.append_assoc, Graph.iter]

/-- If nodes, sources and ids of contexts are written on one line each, the text that `Debug` writes determines the graph as far as these texts do. -/
theorem C63_debug_determines (hw : WellNamed S) {g g' : Graph} (h : Reachable S dbg R g) (h' : Reachable S dbg' R' g')
    (id : Nat → Text) (node : Node → Text) (source : Source → Text) (hi : ∀ u, '\n' ∉ id u) (hn : ∀ n, '\n' ∉ node n) (hs : ∀ s, '\n' ∉ source s)
    (he : g.debug S id node source = g'.debug S id node source) :
    id g.ctxId = id g'.ctxId ∧ ∀ i, (g.get? i).map node = (g'.get? i).map node := by
  have i1 := h.inv hw
  have i2 := h'.inv hw
  rw [Graph.debug_lines, Graph.debug_lines] at he
  have hp : ∀ s : OrderSet (NodeIndex × Source), '\n' ∉ debugPlaces source s := by
    intro s hm
    rw [debugPlaces_def] at hm
    rcases List.mem_append.1 hm with hm | hm
    · rcases List.mem_append.1 hm with hm | hm
      · exact absurd hm (by decide +kernel)
      · exact intercalate_free (by decide +kernel) (fun t ht hc => by
          obtain ⟨p, _, rfl⟩ := List.mem_map.1 ht
          rw [debugPlace_def] at hc
          simp only [List.mem_append] at hc
          rcases hc with (((hc | hc) | hc) | hc) | hc
          · exact absurd hc (by decide +kernel)
          · exact (debugIdx_free hc).2 rfl
          · exact absurd hc (by decide +kernel)
          · exact hs _ hc
          · exact absurd hc (by decide +kernel)) hm
    · exact absurd hm (by decide +kernel)
  have free : ∀ g : Graph, ∀ t ∈ "Graph {".toList :: ("  ctx_id = ".toList ++ id g.ctxId ++ ",".toList) :: "  nodes = [".toList ::
      ((g.iter S).map (keyLine "    ".toList debugIdx node) ++ "  ],".toList :: "  back_link=[".toList ::
      (g.back.entries.map (keyLine "    ".toList debugIdx (debugPlaces source)) ++ ["  ]".toList, "}".toList])), '\n' ∉ t := by
    intro g t ht
    rcases List.mem_cons.1 ht with rfl | ht
    · decide +kernel
    rcases List.mem_cons.1 ht with rfl | ht
    · intro hc
      simp only [List.mem_append] at hc
      rcases hc with (hc | hc) | hc
      · exact absurd hc (by decide +kernel)
      · exact hi _ hc
      · exact absurd hc (by decide +kernel)
    rcases List.mem_cons.1 ht with rfl | ht
    · decide +kernel
    rcases List.mem_append.1 ht with ht | ht
    · obtain ⟨e, _, rfl⟩ := List.mem_map.1 ht
      exact keyLine_free (by decide +kernel) (fun _ _ => debugIdx_free) (hn _)
    rcases List.mem_cons.1 ht with rfl | ht
    · decide +kernel
    rcases List.mem_cons.1 ht with rfl | ht
    · decide +kernel
    rcases List.mem_append.1 ht with ht | ht
    · obtain ⟨e, _, rfl⟩ := List.mem_map.1 ht
      exact keyLine_free (by decide +kernel) (fun _ _ => debugIdx_free) (hp _)
    rcases List.mem_cons.1 ht with rfl | ht
    · decide +kernel
    · rw [List.mem_singleton.1 ht]
      decide +kernel
  have hl := (List.cons.inj (lines_inj (free g) (free g') he)).2
  obtain ⟨k1, k2⟩ := List.cons.inj hl
  refine ⟨List.append_cancel_left (List.append_cancel_right k1), ?_⟩
  have hsep : ∀ g : Graph, "  ],".toList ∉ (g.iter S).map (keyLine "    ".toList debugIdx node) := by
    intro g hm
    obtain ⟨e, _, h1⟩ := List.mem_map.1 hm
    have h2 : (keyLine "    ".toList debugIdx node e)[2]? = some ' ' := by
      simp only [keyLine, List.append_assoc]
      rw [List.getElem?_append_left (by decide +kernel)]
      decide +kernel
    rw [h1] at h2
    exact absurd h2 (by decide +kernel)
  obtain ⟨k3, _⟩ := split_at (hsep g) (hsep g') (List.cons.inj k2).2
  exact same_of_lines i1.arena i2.arena (keyLines_inj (fun _ _ => debugIdx_inj) (fun _ _ => debugIdx_free) k3)

end
end TTGraph

namespace TTGraph
namespace Demo
open Spec

/-- A text for nodes: the number of the variant and the number of data fields. -/
def nodeText (n : Node) : Text := decimal n.disc ++ " ".toList ++ decimal n.data.length

/-- A text for sources. -/
def sourceText (s : Source) : Text := decimal s.disc ++ ".".toList ++ decimal s.pos

/-- C63: what is written for a graph of three nodes, one of which links to itself and to another. -/
example : let g := graphAt (run plain true World.init itself3) 0
    Reachable plain true SoundCalls g ∧ (∀ n, '\n' ∉ nodeText n) ∧ (∀ s, '\n' ∉ sourceText s) ∧
    g.display plain nodeText = "Graph {\n  1: 1 1\n  2: 1 1\n  3: 2 0\n}\n".toList ∧
    g.debug plain decimal nodeText sourceText = ("Graph {\n  ctx_id = 77,\n  nodes = [\n    NodeIndex(1): 1 1\n    NodeIndex(2): 1 1\n" ++
      "    NodeIndex(3): 2 0\n  ],\n  back_link=[\n    NodeIndex(1): {}\n    NodeIndex(2): {(NodeIndex(2), 1.1)}\n" ++
      "    NodeIndex(3): {(NodeIndex(2), 1.1)}\n  ]\n}\n").toList := by
  have hd : ∀ n, '\n' ∉ decimal n := fun n h => absurd (decimal_digit h) (by decide)
  refine ⟨reachable_of (reaches_sound (us := []) plain_named itself3 .init (fun _ _ h => absurd h (by simp [World.init])) (by decide +kernel)) 0
      (by decide +kernel), fun n => ?_, fun s => ?_, by decide +kernel, by decide +kernel⟩
  · simp only [nodeText, List.mem_append, not_or]
    exact ⟨⟨hd _, by decide⟩, hd _⟩
  · simp only [sourceText, List.mem_append, not_or]
    exact ⟨⟨hd _, by decide⟩, hd _⟩

end Demo
end TTGraph
