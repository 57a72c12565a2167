import Verif.Spec.Wrap
import Verif.Spec.Factory

/-! # Specification vocabulary: operators without the Composites they are in -/

namespace Rtbot.Spec
variable {V : Type} [Num V]

/-- The operator that takes the messages for the operator at `a`: that one itself, or the Input of a Composite. -/
def taker (h : Nat → Option (Op V)) (a : Nat) : Nat :=
  match h a with
  | none => a
  | some o =>
    match o.kind with
    | .composite (some i) _ => i
    | _ => a

/-- Connections that lead to the Input of a Composite instead of to the Composite. -/
def redirected (h : Nat → Option (Op V)) (outs : Map (List Conn)) : Map (List Conn) :=
  outs.map fun e => (e.1, e.2.map fun c => ⟨taker h c.target, c.port⟩)

/-- The same operators without any Composite. -/
def flattened (h : Nat → Option (Op V)) (a : Nat) : Option (Op V) :=
  match h a with
  | none => none
  | some o =>
    match o.kind with
    | .composite _ _ => none
    | _ => some { o with core := { o.core with outputs := redirected h o.core.outputs } }

/-- Every Composite has an Input, which is an operator of its own, and has the ports of its Input. Pipelines hold no Composites. -/
structure Composed (h : Nat → Option (Op V)) : Prop where
  inputs : ∀ a o i q, h a = some o → o.kind = .composite i q → ∃ j t, i = some j ∧ h j = some t ∧ Simple t ∧
    (∀ p, o.core.isData p = t.core.isData p) ∧ ∀ p, o.core.isCtrl p = t.core.isCtrl p
  pipes : ∀ a o ins outs pm k t, h a = some o → o.kind = .pipeline ins outs pm → ins.find? k = some t → taker h t = t

/-- The messages for the operators that take them. -/
def retargeted (h : Nat → Option (Op V)) (l : List (Nat × Str × Msg V)) : List (Nat × Str × Msg V) := l.map fun x => (taker h x.1, x.2)

/-- Messages one after the other, each for a port of some operator, whatever becomes of them: the reports or errors, -/
def fedReplies (fuel : Nat) : List (Nat × Str × Msg V) → St V → List (Except Err (ProgMsg V))
  | [], _ => []
  | x :: l, s => outcome (feed fuel x.1 x.2.1 x.2.2 s) :: fedReplies fuel l (feed fuel x.1 x.2.1 x.2.2 s).state

/-- and the state afterwards. -/
def fedState (fuel : Nat) : List (Nat × Str × Msg V) → St V → St V
  | [], s => s
  | x :: l, s => fedState fuel l (feed fuel x.1 x.2.1 x.2.2 s).state

end Rtbot.Spec
