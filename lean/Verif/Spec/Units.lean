import Verif.Spec.ReceiveRun
import Verif.Spec.Exact

/-! # A change of the unit in which values are measured

All values of the stream are multiplied by a factor, and so are the parameters of the operators that are values of the stream: the
threshold of a filter, the number an `Add` adds, the number a `Constant` sends, the default of a `Variable`. Coefficients are not. -/

namespace Rtbot.Spec
variable {V : Type} [Field V]

/-- The message in the new unit. -/
def convMsg (c : V) (m : Msg V) : Msg V := ⟨m.time, c * m.value⟩

/-- The messages of an operator in the new unit. -/
def convOut (c : V) (x : OpMsg V) : OpMsg V := x.map fun e => (e.1, e.2.map (convMsg c))

/-- A report in the new unit. -/
def convReport (c : V) (r : ProgMsg V) : ProgMsg V := r.map fun e => (e.1, convOut c e.2)

/-- An input buffer in the new unit. -/
def convInp (c : V) (i : Inp V) : Inp V := { i with sum := c * i.sum, data := i.data.map (convMsg c) }

/-- The buffers of an operator in the new unit. -/
def convCore (c : V) (o : Core V) : Core V :=
  { o with dataIn := o.dataIn.map (fun e => (e.1, convInp c e.2)), ctrlIn := o.ctrlIn.map (fun e => (e.1, convInp c e.2)) }

/-- The members of an operator that are values of the stream, in the new unit. -/
def convKind (c : V) : Kind V → Kind V
  | .input pm last => .input pm (last.map fun e => (e.1, convMsg c e.2))
  | .filter f v => .filter f (c * v)
  | .add v => .add (c * v)
  | .constant v => .constant (c * v)
  | .cumSum a => .cumSum (c * a)
  | .variable v ini => .variable (c * v) ini
  | .constRes dt ne ini lv => .constRes dt ne ini (c * lv)
  | .hermRes dt carry before => .hermRes dt carry (before.map (convMsg c))
  | k => k

/-- The operator in the new unit. -/
def convOp (c : V) (o : Op V) : Op V := ⟨convCore c o.core, convKind c o.kind⟩

/-- The operators whose results are in the unit of what they receive. The standard deviation is one of them when the square root is homogeneous. -/
def HasUnit [Num V] (c : V) : Kind V → Prop
  | .binary .plus | .binary .minus | .binary .gtStream | .binary .ltStream => True
  | .binary _ | .demux _ | .power _ | .count _ | .difference false | .function _ _ | .rsi _ => False
  | .stdDev => ∀ x : V, Num.sqrt (c * c * x) = c * Num.sqrt x
  | _ => True

/-- The program in the new unit. -/
structure InUnit [Num V] (c : V) (P P' : Prog V) : Prop where
  ops : P'.ops = P.ops
  entry : P'.entry = P.entry
  filter : P'.filter = P.filter
  heap : P'.st.heap = fun a => (P.st.heap a).map (convOp c)
  units : ∀ a o, P.st.heap a = some o → HasUnit c o.kind

end Rtbot.Spec
