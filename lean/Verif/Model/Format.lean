import Verif.Model.Graph

/-!
# `Display` and `Debug` (src/typed_graph/display.rs, src/typed_graph/debug.rs)

A text is a list of characters.  How nodes and sources are printed is up to the user (`Display`, `Debug` of the node enum; derived `Debug` of the
sources), so these are parameters.  Errors of the underlying writer are not modelled.
-/

set_option autoImplicit false

namespace TTGraph

/-- A text. -/
abbrev Text := List Char

/-- `writeln!`: the text and a newline. -/
def writeln (t : Text) : Text := t ++ ['\n']

/-- `{}` of a `usize`: decimal digits. -/
def decimal (n : Nat) : Text := Nat.toDigits 10 n

/-- `Display` of `NodeIndex`, src/typed_graph.rs:79-87. -/
def displayIdx (i : NodeIndex) : Text := if i = emptyIdx then "empty".toList else decimal i

/-- Derived `Debug` of `NodeIndex`, src/typed_graph.rs:40-41. -/
def debugIdx (i : NodeIndex) : Text := "NodeIndex(".toList ++ decimal i ++ ")".toList

/-- `Display` of `Graph`, src/typed_graph/display.rs:7-14. -/
def Graph.display (S : Schema) (node : Node → Text) (g : Graph) : Text :=
  writeln "Graph {".toList ++
  (g.nodes.entries S).flatMap (fun e => writeln ("  ".toList ++ displayIdx e.1 ++ ": ".toList ++ node e.2)) ++
  writeln "}".toList

/-- `Debug` of a pair of an index and a source (derived by the standard library). -/
def debugPlace (source : Source → Text) (p : NodeIndex × Source) : Text :=
  "(".toList ++ debugIdx p.1 ++ ", ".toList ++ source p.2 ++ ")".toList

/-- `Debug` of an `OrderSet` of places: `debug_set` of the standard library. -/
def debugPlaces (source : Source → Text) (s : OrderSet (NodeIndex × Source)) : Text :=
  "{".toList ++ (", ".toList).intercalate (s.elems.map (debugPlace source)) ++ "}".toList

/-- `Debug` of `Graph`, src/typed_graph/debug.rs:7-22. -/
def Graph.debug (S : Schema) (id : Nat → Text) (node : Node → Text) (source : Source → Text) (g : Graph) : Text :=
  writeln "Graph {".toList ++
  writeln ("  ctx_id = ".toList ++ id g.ctxId ++ ",".toList) ++
  writeln "  nodes = [".toList ++
  (g.nodes.entries S).flatMap (fun e => writeln ("    ".toList ++ debugIdx e.1 ++ ": ".toList ++ node e.2)) ++
  writeln "  ],".toList ++
  writeln "  back_link=[".toList ++
  g.back.entries.flatMap (fun e => writeln ("    ".toList ++ debugIdx e.1 ++ ": ".toList ++ debugPlaces source e.2)) ++
  writeln "  ]".toList ++
  writeln "}".toList

end TTGraph
