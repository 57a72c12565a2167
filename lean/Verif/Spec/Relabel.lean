import Mathlib.Data.List.Forall2
import Verif.Spec.ReceiveRun

/-! # Other times in the same order

Two runs whose messages have the same values and whose times correspond in order: a change of the unit of time, a shift of the origin. -/

namespace Rtbot.Spec
variable {V : Type}

/-- A correspondence of times that keeps the order. The times of the padding of an AutoRegressive and of the answer of an empty buffer, which are 0, correspond. -/
structure Relabels (R : UInt64 → UInt64 → Prop) : Prop where
  lt : ∀ {a a' b b'}, R a a' → R b b' → (a < b ↔ a' < b')
  zero : R 0 0

/-- Messages with the same value at corresponding times. -/
def SameMsg (R : UInt64 → UInt64 → Prop) (m m' : Msg V) : Prop := R m.time m'.time ∧ m.value = m'.value

/-- Maps with the same keys and corresponding entries. -/
def SameMap {α : Type} (Q : α → α → Prop) (m m' : Map α) : Prop := List.Forall₂ (fun e e' => e.1 = e'.1 ∧ Q e.2 e'.2) m m'

/-- Corresponding messages of an operator. -/
def SameOut (R : UInt64 → UInt64 → Prop) (x x' : OpMsg V) : Prop := SameMap (List.Forall₂ (SameMsg R)) x x'

/-- Corresponding reports. -/
def SameReport (R : UInt64 → UInt64 → Prop) (r r' : ProgMsg V) : Prop := SameMap (SameOut R) r r'

/-- Corresponding input buffers. -/
structure SameInp (R : UInt64 → UInt64 → Prop) (i i' : Inp V) : Prop where
  id : i.id = i'.id
  max : i.max = i'.max
  sum : i.sum = i'.sum
  data : List.Forall₂ (SameMsg R) i.data i'.data

/-- Corresponding base class members. -/
structure SameCore (R : UInt64 → UInt64 → Prop) (c c' : Core V) : Prop where
  id : c.id = c'.id
  data : SameMap (SameInp R) c.dataIn c'.dataIn
  ctrl : SameMap (SameInp R) c.ctrlIn c'.ctrlIn
  outIds : c.outIds = c'.outIds
  outputs : c.outputs = c'.outputs
  toProcess : c.toProcess = c'.toProcess

/-- The operators that compare times and hand them on, but do not calculate with them. A `Difference` sends the time through a double, which must give it back. -/
def OrderKind [Num V] (R : UInt64 → UInt64 → Prop) : Kind V → Prop
  | .timeShift _ _ | .constRes _ _ _ _ | .cosRes _ _ | .hermRes _ _ _ | .difference false => False
  | .difference true => ∀ t t', R t t' → Num.toTime (ofTime t : V) = some t ∧ Num.toTime (ofTime t' : V) = some t'
  | _ => True

/-- Corresponding subclass members. -/
inductive SameKind [Num V] (R : UInt64 → UInt64 → Prop) : Kind V → Kind V → Prop
  | input (pm : Map Str) {last last' : Map (Msg V)} (h : SameMap (SameMsg R) last last') : SameKind R (.input pm last) (.input pm last')
  | other {k : Kind V} (hk : OrderKind R k) (hi : ∀ pm last, k ≠ .input pm last) : SameKind R k k

/-- Corresponding operators. -/
structure SameOp [Num V] (R : UInt64 → UInt64 → Prop) (o o' : Op V) : Prop where
  core : SameCore R o.core o'.core
  kind : SameKind R o.kind o'.kind

/-- Corresponding programs. -/
structure SameProg [Num V] (R : UInt64 → UInt64 → Prop) (P P' : Prog V) : Prop where
  ops : P.ops = P'.ops
  entry : P.entry = P'.entry
  filter : P.filter = P'.filter
  heap : ∀ a, Option.Rel (SameOp R) (P.st.heap a) (P'.st.heap a)

/-- Corresponding outcomes: corresponding answers or the same failure. -/
def SameAnswer {α : Type} (Q : α → α → Prop) : Except Err α → Except Err α → Prop
  | .ok x, .ok y => Q x y
  | .error e, .error e' => e = e'
  | _, _ => False

end Rtbot.Spec
