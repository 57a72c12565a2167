import Verif.Model.Python
import Verif.Spec.Schema

/-! # Specification vocabulary: what the Python wrapper is for -/

namespace Rtbot.Spec
variable {V : Type}

/-- The arguments that the constructor of an operator class has to be given, and those it may be given with the value they have otherwise, as documented. -/
def takes (t : Str) : Option (List Str × List (Str × Json V)) :=
  if t ∈ [b!"And", b!"Or", b!"Plus", b!"Minus", b!"Multiplication", b!"Division", b!"GreaterThanStream", b!"LessThanStream", b!"CumulativeSum",
      b!"Count", b!"Difference", b!"Identity"] then some ([b!"id"], [])
  else if t ∈ [b!"Add", b!"Scale", b!"Power", b!"Constant", b!"GreaterThan", b!"EqualTo", b!"LessThan"] then some ([b!"id", b!"value"], [])
  else if t ∈ [b!"MovingAverage", b!"PeakDetector", b!"StandardDeviation"] then some ([b!"id", b!"n"], [])
  else if t ∈ [b!"CosineResampler", b!"HermiteResampler"] then some ([b!"id", b!"dt"], [])
  else if t = b!"ConstantResampler" then some ([b!"id", b!"interval"], [])
  else if t ∈ [b!"FiniteImpulseResponse", b!"AutoRegressive"] then some ([b!"id", b!"coeff"], [])
  else if t = b!"Function" then some ([b!"id", b!"points"], [])
  else if t ∈ [b!"Input", b!"Output", b!"Demultiplexer"] then some ([b!"id"], [(b!"numPorts", .uint 1)])
  else if t = b!"Join" then some ([b!"id"], [(b!"numPorts", .uint 2)])
  else if t = b!"Linear" then some ([b!"id"], [(b!"coeff", .null)])
  else if t = b!"TimeShift" then some ([b!"id"], [(b!"dt", .uint 1), (b!"times", .uint 1)])
  else if t = b!"Variable" then some ([b!"id"], [(b!"value", .uint 0)])
  else none

/-- The object has exactly the type, the arguments and the values of the arguments left out. -/
def Assembled (t : Str) (args : Map (Json V)) (opt : List (Str × Json V)) (j : Json V) : Prop :=
  (∃ m, j = .obj m) ∧
    ∀ k x, Member j k x ↔ k = b!"type" ∧ x = .str t ∨ k ≠ b!"type" ∧ (args.find? k = some x ∨ args.find? k = none ∧ (k, x) ∈ opt)

/-- The arguments are a call that Python accepts: all required ones and no unknown ones. -/
def Callable (args : Map (Json V)) (req : List Str) (opt : List (Str × Json V)) : Prop :=
  (∀ k ∈ req, args.find? k ≠ none) ∧ ∀ k x, args.find? k = some x → k ∈ req ∨ ∃ d, (k, d) ∈ opt

/-- The program that is put together has distinct valid operators and connections between them. -/
structure WellBuilt (p : PyProgram V) (ops cs : List (Json V)) : Prop where
  listed : p.operators = .arr ops
  wired : p.connections = .arr cs
  valid : ∀ x ∈ ops, ∃ t, DocOp x t
  distinct : ops.Pairwise fun x y => ∀ id, HasId x id → ¬ HasId y id
  joined : ∀ c ∈ cs, DocConn c ∧ ∃ f t, Member c b!"from" (.str f) ∧ Member c b!"to" (.str t) ∧ (∃ x ∈ ops, HasId x f) ∧ ∃ x ∈ ops, HasId x t

/-- A call of a method that changes a program. -/
inductive PyEdit (V : Type)
  | op (x : Json V)
  | conn (src dst out inp : Str)

/-- The program after calls of methods; when one raises an exception the program is as before. -/
def edited [Num V] (p : PyProgram V) : List (PyEdit V) → PyProgram V
  | [] => p
  | .op x :: es => edited (match p.addOperator x with | .ok q => q | .error _ => p) es
  | .conn f t o i :: es => edited (match p.addConnection f t o i with | .ok q => q | .error _ => p) es

/-- The messages of a row: the values in the order of the ports, at the time of the row. -/
def rowMsgs (ports : List Str) (row : UInt64 × List V) : OpMsg V := (ports.zip row.2).map fun x => (x.1, [⟨row.1, x.2⟩])

/-- The calls for a table: one for each row with a value. -/
def tableCalls (ports : List Str) (rows : List (UInt64 × List V)) : List (OpMsg V) := (rows.filter fun r => !r.2.isEmpty).map (rowMsgs ports)

/-- The column holds the messages: their times, and their values as they are read from the text of the report. -/
def ColumnOf (wire : V → Option V) (c : Columns V) (key : Str) (ms : List (Msg V)) : Prop :=
  match c.find? key with
  | none => ms = []
  | some (ts, vs) => ts = ms.map (·.time) ∧ vs.map some = ms.map fun m => wire m.value

end Rtbot.Spec
