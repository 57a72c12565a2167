import Verif.Model.Create

/-! # Writing operators and programs as descriptions

Model of the `to_json` functions, `FactoryOp::writeOp` (libs/api/src/FactoryOp.cpp, FactoryOp.h) and `Program::getProgram`
(libs/api/src/Program.cpp).

Simplifications:
* The result is the value that parsing the written text gives, not the text.
* All ids are valid UTF-8 (`dump` throws for others; ids that come from a parsed description are valid).
* Pipeline is left out: the operator of the model does not keep the text of its description. -/

namespace Rtbot
variable {V : Type} [Num V]

/-- `std::isfinite`: the difference with itself is a number. -/
def finite (v : V) : Bool := Num.eq (v -. v) (v -. v)

/-- A floating point number, written and read back: what is not finite is written as `null`. -/
def Json.ofNum (v : V) : Json V := if finite v then .float v else .null

omit [Num V] in
/-- An `int`, written and read back: the parser distinguishes by the sign. -/
def Json.ofSigned (i : Int) : Json V := if i < 0 then .int i else .uint (UInt64.ofInt i)

omit [Num V] in
/-- A `size_t`. -/
def Json.ofSize (n : Nat) : Json V := .uint (UInt64.ofNat n)

omit [Num V] in
/-- `getDataInputMaxSize()` (Operator.h:310-320). -/
def Core.dataMax (c : Core V) : Except Err Nat :=
  match c.dataIn with
  | [(_, i)] => .ok i.max
  | m => match m.find? [] with
    | some i => .ok i.max
    | none => throwExc .badPort

/-- The type names of the two-port operators (And.h:21, Or.h:21, Plus.h:15, Minus.h:15, Multiplication.h:15, Division.h:19,
GreaterThanStream.h:19, LessThanStream.h:19). -/
def BinOp.typeName : BinOp → Str
  | .and => b!"And" | .or => b!"Or" | .plus => b!"Plus" | .minus => b!"Minus" | .mul => b!"Multiplication" | .div => b!"Division"
  | .gtStream => b!"GreaterThanStream" | .ltStream => b!"LessThanStream"

/-- LessThan.h:15, GreaterThan.h:15, EqualTo.h:15. -/
def FilterOp.typeName : FilterOp → Str
  | .lessThan => b!"LessThan" | .greaterThan => b!"GreaterThan" | .equalTo => b!"EqualTo"

/-- The object `{"type", "id", …}`. -/
def Json.described (type id : Str) (rest : List (Str × Json V)) : Json V :=
  .obj (rest.foldl (fun m e => Map.emplace m e.1 e.2) (Map.emplace (Map.emplace [] b!"type" (.str type)) b!"id" (.str id)))

/-- The `to_json` functions (FactoryOp.cpp:52-428) after `obj["type"] = type` (FactoryOp.h:44) and `dump`. Types that are not registered
are refused (FactoryOp.cpp:511). -/
def Op.write (o : Op V) : Except Err (Json V) :=
  match o.kind with
  | .input _ _ => .ok (Json.described b!"Input" o.core.id [(b!"numPorts", Json.ofSize o.core.dataIn.length)])
  | .output _ => .ok (Json.described b!"Output" o.core.id [(b!"numPorts", Json.ofSize o.core.dataIn.length)])
  | .join _ => .ok (Json.described b!"Join" o.core.id [(b!"numPorts", Json.ofSize o.core.dataIn.length)])
  | .demux _ => .ok (Json.described b!"Demultiplexer" o.core.id [(b!"numPorts", Json.ofSize o.core.outIds.length)])
  | .binary op => .ok (Json.described op.typeName o.core.id [])
  | .linear coeff => .ok (Json.described b!"Linear" o.core.id [(b!"coeff", .arr (coeff.map Json.ofNum))])
  | .filter f v => .ok (Json.described f.typeName o.core.id [(b!"value", Json.ofNum v)])
  | .add v => .ok (Json.described b!"Add" o.core.id [(b!"value", Json.ofNum v)])
  | .scale v => .ok (Json.described b!"Scale" o.core.id [(b!"value", Json.ofNum v)])
  | .power v => .ok (Json.described b!"Power" o.core.id [(b!"value", Json.ofNum v)])
  | .constant v => .ok (Json.described b!"Constant" o.core.id [(b!"value", Json.ofNum v)])
  | .identity => .ok (Json.described b!"Identity" o.core.id [])
  | .count _ => .ok (Json.described b!"Count" o.core.id [])
  | .cumSum _ => .ok (Json.described b!"CumulativeSum" o.core.id [])
  | .difference _ => .ok (Json.described b!"Difference" o.core.id [])
  | .movAvg => do
    let n ← o.core.dataMax
    .ok (Json.described b!"MovingAverage" o.core.id [(b!"n", Json.ofSize n)])
  | .stdDev => do
    let n ← o.core.dataMax
    .ok (Json.described b!"StandardDeviation" o.core.id [(b!"n", Json.ofSize n)])
  | .peak => do
    let n ← o.core.dataMax
    .ok (Json.described b!"PeakDetector" o.core.id [(b!"n", Json.ofSize n)])
  | .rsi _ => do
    let n ← o.core.dataMax
    .ok (Json.described b!"RelativeStrengthIndex" o.core.id [(b!"n", Json.ofSize n)])
  | .fir coeff => .ok (Json.described b!"FiniteImpulseResponse" o.core.id [(b!"coeff", .arr (coeff.map Json.ofNum))])
  | .autoReg coeff => .ok (Json.described b!"AutoRegressive" o.core.id [(b!"coeff", .arr (coeff.map Json.ofNum))])
  | .timeShift dt times => .ok (Json.described b!"TimeShift" o.core.id [(b!"dt", .uint dt), (b!"times", Json.ofSigned times)])
  | .variable v _ => .ok (Json.described b!"Variable" o.core.id [(b!"value", Json.ofNum v)])
  | .constRes dt _ _ _ => .ok (Json.described b!"ConstantResampler" o.core.id [(b!"interval", .uint dt)])
  | .cosRes dt _ => .ok (Json.described b!"CosineResampler" o.core.id [(b!"dt", .uint dt)])
  | .hermRes dt _ _ => .ok (Json.described b!"HermiteResampler" o.core.id [(b!"dt", .uint dt)])
  | .function points _ => .ok (Json.described b!"Function" o.core.id
      [(b!"points", .arr (points.map fun p => .arr [Json.ofNum p.1, Json.ofNum p.2]))])
  | .collector | .composite _ _ => throwExc .runtime
  | .pipeline _ _ _ => .error .diverge

/-- The operators of a program in the order of their ids. -/
def writeOps (heap : Nat → Option (Op V)) : Map Nat → Except Err (List (Json V))
  | [] => .ok []
  | (_, a) :: rest => match heap a with
    | none => undefined .dangling
    | some o => do
      let j ← o.write
      let js ← writeOps heap rest
      .ok (j :: js)

/-- `Program::getProgram` (Program.cpp:104-110), the array of the written operators. -/
def Prog.getProgram (P : Prog V) : Except Err (Json V) := do
  let js ← writeOps P.st.heap P.ops
  .ok (.arr js)

end Rtbot
