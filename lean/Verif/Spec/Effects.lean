import Verif.Model.Effects
import Verif.Spec.History

/-!
# Specification of closures with side effects
-/

set_option autoImplicit false

namespace TTGraph
namespace Spec

/-- One call of a closure: which closure, the node it got and what came of it. -/
structure Ran (σ : Type) where
  fn : EClosure σ
  node : Node
  out : Except Panic Node

/-- The calls happen one after the other, starting in the state `s` and ending in the state `s'`; nothing else changes the state. -/
def Played {σ : Type} : List (Ran σ) → σ → σ → Prop
  | [], s, s' => s' = s
  | r :: l, s, s' => ∃ s1, r.fn r.node s = (r.out, s1) ∧ Played l s1 s'

/-- The functions `fs` give on the recorded calls what the closures gave. -/
def Reproduces {σ : Type} : List Closure → List (Ran σ) → Prop
  | f :: fs, r :: l => f r.node = r.out ∧ Reproduces fs l
  | _, [] => True
  | [], _ :: _ => False

/-- The transaction `t` with the functions `ms` and `us` as closures, at the indices where `p` has its closures. -/
def withClosures {σ : Type} (t : Trans) (p : Pend σ) (ms us : List Closure) : Trans :=
  { t with muts := (p.muts.map Prod.fst).zip ms, upds := (p.upds.map Prod.fst).zip us }

/-- `f` is a possible behaviour of the closure `e`: on every node it does what `e` does in some state. -/
def Behaves {σ : Type} (e : EClosure σ) (f : Closure) : Prop := ∀ n, ∃ s, f n = (e n s).1

/-- The transaction `v'` is `v` with a possible behaviour in place of each closure of `p`. -/
def Poses {σ : Type} (v : Option (Nat × Trans)) (p : Pend σ) (v' : Option (Nat × Trans)) : Prop :=
  match v, v' with
  | none, none => True
  | some (c, t), some (c', t') => c' = c ∧ ∃ ms us, t' = { t with muts := ms, upds := us } ∧
      List.Forall₂ (fun e p => p.1 = e.1 ∧ Behaves e.2 p.2) p.muts ms ∧ List.Forall₂ (fun e p => p.1 = e.1 ∧ Behaves e.2 p.2) p.upds us
  | _, _ => False

/-- The world `w` is the program state `ew` with possible behaviours in place of closures.  In particular it has the same contexts and the same
graphs. -/
structure Shadow {σ : Type} (ew : EWorld σ) (w : World) : Prop where
  ctx : w.ctx = ew.world.ctx
  graph : w.graph = ew.world.graph
  issued : w.issued = ew.world.issued
  trans : ∀ k, Poses (ew.world.trans k) (ew.pend k) (w.trans k)

/-- The call `c` is the step `e` with a possible behaviour in place of the closure. -/
inductive Image {σ : Type} : ECall σ → Call → Prop
  | plain (c : Call) : Image (.plain c) c
  | mutate {k : Nat} {i : NodeIndex} {f : EClosure σ} {p : Closure} : Behaves f p → Image (.mutate k i f) (.op k (.mutate i p))
  | update {k : Nat} {i : NodeIndex} {f : EClosure σ} {p : Closure} : Behaves f p → Image (.update k i f) (.op k (.update i p))
  | commit (g k : Nat) : Image (.commit g k) (.commit g k)
  | commitChecked (g k : Nat) (cs : GraphCheck) : Image (.commitChecked g k cs) (.commitChecked g k cs)

/-- A step satisfies the restriction `R`, whatever its closures do. -/
def Whatever {σ : Type} (R : World → Call → Prop) (ew : EWorld σ) (e : ECall σ) : Prop := ∀ w c, Shadow ew w → Image e c → R w c

/-- A closure that keeps nodes well typed, as Rust's type system guarantees. -/
def ETyped {σ : Type} (S : Schema) (f : EClosure σ) : Prop := ∀ n n' s, S.WT n → (f n s).1 = .ok n' → S.WT n'

/-- A closure that keeps the variant. -/
def EKeepsVariant {σ : Type} (f : EClosure σ) : Prop := ∀ n n' s, (f n s).1 = .ok n' → n'.disc = n.disc

/-- Conditions on a step; see `Call.Allowed`. -/
def EAllowed {σ : Type} (S : Schema) (w : EWorld σ) : ECall σ → Prop
  | .think _ => True
  | .plain c => c.Plain ∧ c.Allowed S w.world
  | .mutate _ _ f => ETyped S f
  | .update _ _ f => ETyped S f
  | .commit g k => ∀ c t c' gr, w.world.trans k = some (c, t) → w.world.graph g = some (c', gr) → c = c'
  | .commitChecked g k _ => ∀ c t c' gr, w.world.trans k = some (c, t) → w.world.graph g = some (c', gr) → c = c'

/-- The states that a program with effectful closures reaches from the initial state `s` by allowed steps that satisfy `R`. -/
inductive EReaches {σ : Type} [SetImpl] (S : Schema) (dbg : Bool) (R : EWorld σ → ECall σ → Prop) (s : σ) : EWorld σ → Prop
  | init : EReaches S dbg R s (EWorld.init s)
  | step {w : EWorld σ} {c : ECall σ} : EReaches S dbg R s w → EAllowed S w c → R w c → EReaches S dbg R s (w.exec S dbg c)

/-- No further restriction. -/
def EAny {σ : Type} (_ : EWorld σ) (_ : ECall σ) : Prop := True

/-- The closures of all `mutate` and `update` calls keep the variant of the node. -/
def EKeepVariants {σ : Type} (_ : EWorld σ) : ECall σ → Prop
  | .mutate _ _ f => EKeepsVariant f
  | .update _ _ f => EKeepsVariant f
  | _ => True

end Spec
end TTGraph
