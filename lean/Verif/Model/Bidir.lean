import Verif.Model.Node

/-!
# `get_bidiretional_links`

A generated method that no function of the crate calls; it is part of the public trait `NodeEnum`.
-/

set_option autoImplicit false

namespace TTGraph

/-- The keys of `b_links[var]`, ttgraph_macros/src/bidirectional.rs:110-123, 158: the names of links and groups of a variant that occur in
the lines of `bidirectional!`.  The order of the `BTreeMap` is not kept. -/
def Schema.bLinkNames (S : Schema) (var : Ident) : List Ident :=
  (S.expandedBidirs.flatMap fun l => (if l.var1 = var then [l.link1] else []) ++ (if l.var2 = var then [l.link2] else [])).dedup

/-- `map` with a function that may panic. -/
def mapE {α β : Type} (f : α → Except Panic β) : List α → Except Panic (List β)
  | [] => .ok []
  | a :: as =>
    match f a with
    | .error e => .error e
    | .ok b =>
      match mapE f as with
      | .error e => .error e
      | .ok bs => .ok (b :: bs)

/-- `get_bidiretional_links`, ttgraph_macros/src/bidirectional.rs:154-179: for every link field that a name in the declarations stands for, the
indices in the field and the fields on the other side. -/
def Node.bidirLinks (S : Schema) (n : Node) : Except Panic (List (List NodeIndex × List Mirror)) :=
  mapE (fun m => match n.iterLinks m with | .error e => .error e | .ok ys => .ok (ys, S.mirrorsOf m))
    ((S.bLinkNames n.disc).flatMap fun log => S.expandLog n.disc log)

end TTGraph
