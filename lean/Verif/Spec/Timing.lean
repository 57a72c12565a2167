import Verif.Spec.Relabel

/-! # Other values at times in the same order

Two runs whose messages have times that correspond in order, and any values. -/

namespace Rtbot.Spec
variable {V : Type}

/-- Messages at corresponding times, whatever their values. -/
def TimedMsg (R : UInt64 → UInt64 → Prop) (m m' : Msg V) : Prop := R m.time m'.time

/-- Messages of an operator on the same ports, equally many, at corresponding times. -/
def TimedOut (R : UInt64 → UInt64 → Prop) (x x' : OpMsg V) : Prop := SameMap (List.Forall₂ (TimedMsg R)) x x'

/-- Reports with messages of the same operators. -/
def TimedReport (R : UInt64 → UInt64 → Prop) (r r' : ProgMsg V) : Prop := SameMap (TimedOut R) r r'

/-- Input buffers with messages at corresponding times. -/
structure TimedInp (R : UInt64 → UInt64 → Prop) (i i' : Inp V) : Prop where
  id : i.id = i'.id
  max : i.max = i'.max
  data : List.Forall₂ (TimedMsg R) i.data i'.data

/-- Base class members with messages at corresponding times. -/
structure TimedCore (R : UInt64 → UInt64 → Prop) (c c' : Core V) : Prop where
  id : c.id = c'.id
  data : SameMap (TimedInp R) c.dataIn c'.dataIn
  ctrl : SameMap (TimedInp R) c.ctrlIn c'.ctrlIn
  outIds : c.outIds = c'.outIds
  outputs : c.outputs = c'.outputs
  toProcess : c.toProcess = c'.toProcess

/-- The binary operators that answer every pair of values. -/
def Answers : BinOp → Prop
  | .and | .or | .plus | .minus | .mul => True
  | .div | .gtStream | .ltStream => False

/-- The operators that report whatever the values are. Those that calculate with times need that the times of the two runs are the same. A `Difference` sends the time through a double, which must
give it back. -/
def BlindKind [Num V] (R : UInt64 → UInt64 → Prop) : Kind V → Prop
  | .filter _ _ | .peak | .demux _ | .difference false => False
  | .binary op => Answers op
  | .function points _ => 2 ≤ points.length
  | .timeShift _ _ | .constRes _ _ _ _ | .cosRes _ _ | .hermRes _ _ _ => ∀ t t', R t t' ↔ t = t'
  | .difference true => ∀ t t', R t t' → Num.toTime (ofTime t : V) = some t ∧ Num.toTime (ofTime t' : V) = some t'
  | _ => True

/-- The subclass members that are no values are the same. -/
inductive TimedKind [Num V] (R : UInt64 → UInt64 → Prop) : Kind V → Kind V → Prop
  | input (pm : Map Str) {last last' : Map (Msg V)} (h : SameMap (TimedMsg R) last last') : TimedKind R (.input pm last) (.input pm last')
  | cumSum (a a' : V) : TimedKind R (.cumSum a) (.cumSum a')
  | rsi {prev prev' : Option (V × V)} (h : prev.isSome = prev'.isSome) : TimedKind R (.rsi prev) (.rsi prev')
  | constRes (hR : ∀ t t', R t t' ↔ t = t') (dt next : UInt64) (initiated : Bool) (v v' : V) : TimedKind R (.constRes dt next initiated v) (.constRes dt next initiated v')
  | hermRes (hR : ∀ t t', R t t' ↔ t = t') (dt carry : UInt64) {before before' : Option (Msg V)} (h : before.isSome = before'.isSome) : TimedKind R (.hermRes dt carry before) (.hermRes dt carry before')
  | other {k : Kind V} (hk : BlindKind R k) (hi : ∀ pm last, k ≠ .input pm last) : TimedKind R k k

/-- Operators that differ in values only. -/
structure TimedOp [Num V] (R : UInt64 → UInt64 → Prop) (o o' : Op V) : Prop where
  core : TimedCore R o.core o'.core
  kind : TimedKind R o.kind o'.kind

/-- Programs that differ in values only. -/
structure TimedProg [Num V] (R : UInt64 → UInt64 → Prop) (P P' : Prog V) : Prop where
  ops : P.ops = P'.ops
  entry : P.entry = P'.entry
  filter : P.filter = P'.filter
  heap : ∀ a, Option.Rel (TimedOp R) (P.st.heap a) (P'.st.heap a)

end Rtbot.Spec
