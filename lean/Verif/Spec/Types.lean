import Verif.Spec.History

/-!
# Specification of link types

What the lines of `link_type!` demand, in terms of the declaration.
-/

set_option autoImplicit false

namespace TTGraph
namespace Spec

/-- The annotation allows targets of variant `d`: it lists `d` or a group that contains it. -/
def Accepts (S : Schema) (a : TypeAnno) (d : Ident) : Prop := ∃ v ∈ a.var2, VarNames S v d

/-- Every annotation that concerns the link field `m` allows targets of variant `d`. -/
def AllAccept (S : Schema) (m : Mirror) (d : Ident) : Prop := ∀ a ∈ S.annos, Names S a.var a.link m → Accepts S a d

/-- The name `v` in a list of targets is written for the list `l`: the members of the group `v`, or just `v` if there is no such group. -/
def Stands (S : Schema) (v : Ident) (l : List Ident) : Prop := (v, l) ∈ S.groups ∨ (∀ l', (v, l') ∉ S.groups) ∧ l = [v]

/-- `vs` are the targets that the annotation lists, in the order in which they are written. -/
def Targets (S : Schema) (a : TypeAnno) (vs : List Ident) : Prop := ∃ ls, List.Forall₂ (Stands S) a.var2 ls ∧ vs = ls.flatten

/-- Among the annotations of the name `log` on the variant `d`, the first one in the lexicographic order of the targets lists `vs`. -/
def Decisive (S : Schema) (d log : Ident) (vs : List Ident) : Prop :=
  (∃ a ∈ S.annos, VarNames S a.var d ∧ a.link = log ∧ Targets S a vs) ∧
  ∀ b ∈ S.annos, VarNames S b.var d → b.link = log → ∀ vs', Targets S b vs' → vs ≤ vs'

/-- What the code enforces: for each name of the field `m`, its own name or that of a link group, only the first annotation counts. -/
def Permitted (S : Schema) (m : Mirror) (d : Ident) : Prop :=
  ∀ sd log vs, (m.disc, sd) ∈ S.variants → FieldNames sd log m.pos → Decisive S m.disc log vs → d ∈ vs

/-- No two lines of `link_type!` annotate the same name on the same variant. -/
def AnnotatedOnce (S : Schema) : Prop :=
  ∀ a ∈ S.annos, ∀ b ∈ S.annos, ∀ d, VarNames S a.var d → VarNames S b.var d → a.link = b.link → a = b

/-- Every link of the view whose target is a node is allowed by all its annotations. -/
def WellTyped (S : Schema) (v : View) : Prop := ∀ x m y n, v.Link x m y → v y = some n → AllAccept S m n.disc

/-- The annotations fit the `bidirectional!` lines: a field may link back to the variant that its opposite is declared on. -/
def AnnosFit (S : Schema) : Prop := ∀ m m', Opposite S m m' → AllAccept S m' m.disc

/-- No annotation concerns a `Vec` field. -/
def NoVecAnnos (S : Schema) : Prop := ∀ m d, S.kind? m = some .vec → AllAccept S m d

/-- Every link field never holds a node twice while the operations of the transaction are performed, or is not a `Vec`, or has no annotation
that refuses anything. -/
def SteadyAnnos (S : Schema) (t : Trans) (v : View) : Prop := ∀ x m y, Steady S t v x m y ∨ ∀ d, AllAccept S m d

/-- Only such transactions are committed. -/
def SteadyCalls (S : Schema) (w : World) : Call → Prop
  | .commit h k => ∀ c c' g t, w.graph h = some (c, g) → w.trans k = some (c', t) → SteadyAnnos S t g.get?
  | .commitChecked h k _ => ∀ c c' g t, w.graph h = some (c, g) → w.trans k = some (c', t) → SteadyAnnos S t g.get?
  | _ => True

/-- No graph comes out of a file or is moved to another context (there, link types are not checked). -/
def NoLoads (_ : World) : Call → Prop
  | .switchContext _ _ => False
  | .deserialize _ _ _ => False
  | _ => True

end Spec
end TTGraph
