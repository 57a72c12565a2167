import Verif.Checks.Std

/-! # libs/api/test and libs/core/test: programs and pipelines

The descriptions are those of /repo/examples/data; members that the code does not read (title, author, …) are left out. -/

namespace Rtbot.Checks
open Rtbot.Spec

/-- The answers of a program to messages for "i1", one call per message; `none` when a call fails. -/
def answered (debug : Bool) : Prog F64 → List (UInt64 × F64) → Option (List (ProgMsg F64))
  | _, [] => some []
  | P, m :: ms =>
    match P.answer debug 100 [(i1, [⟨m.1, m.2⟩])] with
    | .ok r P' => (answered debug P' ms).map (r :: ·)
    | .err _ _ => none

/-- `FactoryOp::createProgram` and then one call per message. -/
def ran (debug : Bool) (j : Json F64) (ms : List (UInt64 × F64)) : Option (List (ProgMsg F64)) :=
  match Prog.initWith (fun _ => (0, 0)) [] j with
  | .ok P => answered debug P ms
  | .error _ => none

/-- What a report says about an output port: times and values; `none` when it is not mentioned. -/
def port (op p : Str) (r : ProgMsg F64) : Option (List (UInt64 × F64)) :=
  (r.find? op).bind fun m => (m.find? p).map fun ms => ms.map fun m => (m.time, m.value)

/-- What each report says about an output port. -/
def ports (op p : Str) (rs : Option (List (ProgMsg F64))) : Option (List (Option (List (UInt64 × F64)))) := rs.map fun rs => rs.map (port op p)

/-! ## test_misc_pipeline.cpp: "read  pipeline test data basic data", program-test-2.json -/

def program2 : Json F64 := .obj [(b!"connections", .arr [
    .obj [(b!"from", .str b!"in1"), (b!"fromPort", .str b!"o1"), (b!"to", .str b!"peak"), (b!"toPort", .str b!"i1")],
    .obj [(b!"from", .str b!"peak"), (b!"fromPort", .str b!"o1"), (b!"to", .str b!"join"), (b!"toPort", .str b!"i1")],
    .obj [(b!"from", .str b!"in1"), (b!"fromPort", .str b!"o1"), (b!"to", .str b!"join"), (b!"toPort", .str b!"i2")]]), (b!"entryOperator", .str b!"in1"), (b!"operators", .arr [
    .obj [(b!"id", .str b!"in1"), (b!"type", .str b!"Input")],
    .obj [(b!"id", .str b!"peak"), (b!"n", .uint 3), (b!"type", .str b!"PeakDetector")],
    .obj [(b!"id", .str b!"join"), (b!"numPorts", .uint 2), (b!"type", .str b!"Join")]])]

/-- The messages (i, i % 5) for i = a, …, a + n - 1. -/
def mod5 (a n : Nat) : List (UInt64 × F64) := (List.range n).map fun i => (UInt64.ofNat (a + i), int ((a + i) % 5 : Nat))

example : ∀ o ∈ [o1, b!"o2"], ports b!"join" o (ran true program2 (mod5 0 100)) =
    some ((List.range 100).map fun i => if 5 ≤ i ∧ i % 5 = 0 then some [(UInt64.ofNat (i - 1), 4)] else none) := by decide +kernel

/-! ## test_misc_pipeline.cpp: "read  pipeline test join port", program-test-3.json -/

def program3 : Json F64 := .obj [(b!"connections", .arr [
    .obj [(b!"from", .str b!"in1"), (b!"fromPort", .str b!"o1"), (b!"to", .str b!"id1"), (b!"toPort", .str b!"i1")],
    .obj [(b!"from", .str b!"id1"), (b!"fromPort", .str b!"o1"), (b!"to", .str b!"join"), (b!"toPort", .str b!"i1")],
    .obj [(b!"from", .str b!"id1"), (b!"fromPort", .str b!"o1"), (b!"to", .str b!"join"), (b!"toPort", .str b!"i2")],
    .obj [(b!"from", .str b!"join"), (b!"fromPort", .str b!"o1"), (b!"to", .str b!"sc1"), (b!"toPort", .str b!"i1")],
    .obj [(b!"from", .str b!"join"), (b!"fromPort", .str b!"o2"), (b!"to", .str b!"sc2"), (b!"toPort", .str b!"i1")],
    .obj [(b!"from", .str b!"sc1"), (b!"fromPort", .str b!"o1"), (b!"to", .str b!"out1"), (b!"toPort", .str b!"i1")],
    .obj [(b!"from", .str b!"sc2"), (b!"fromPort", .str b!"o1"), (b!"to", .str b!"out1"), (b!"toPort", .str b!"i2")]]), (b!"entryOperator", .str b!"in1"), (b!"operators", .arr [
    .obj [(b!"id", .str b!"in1"), (b!"type", .str b!"Input")],
    .obj [(b!"id", .str b!"id1"), (b!"type", .str b!"Identity")],
    .obj [(b!"id", .str b!"join"), (b!"numPorts", .uint 2), (b!"type", .str b!"Join")],
    .obj [(b!"id", .str b!"sc1"), (b!"type", .str b!"Scale"), (b!"value", .uint 2)],
    .obj [(b!"id", .str b!"sc2"), (b!"type", .str b!"Scale"), (b!"value", .uint 3)],
    .obj [(b!"id", .str b!"out1"), (b!"numPorts", .uint 2), (b!"type", .str b!"Output")]])]

example : (ports b!"sc1" o1 (ran true program3 (mod5 1 99))).map (·.drop 1) =
      some ((List.range 98).map fun i => some [(UInt64.ofNat (i + 2), int (2 * ((i + 2) % 5) : Nat))]) ∧
    (ports b!"sc2" o1 (ran true program3 (mod5 1 99))).map (·.drop 1) =
      some ((List.range 98).map fun i => some [(UInt64.ofNat (i + 2), int (3 * ((i + 2) % 5) : Nat))]) := by decide +kernel

/-! ## test_demultiplexer_pipeline.cpp and test_demultiplexer.cpp, program-test-4.json -/

def program4 : Json F64 := .obj [(b!"connections", .arr [
    .obj [(b!"from", .str b!"in"), (b!"fromPort", .str b!"o1"), (b!"to", .str b!"dm"), (b!"toPort", .str b!"i1")],
    .obj [(b!"from", .str b!"in"), (b!"fromPort", .str b!"o1"), (b!"to", .str b!"count"), (b!"toPort", .str b!"i1")],
    .obj [(b!"from", .str b!"count"), (b!"fromPort", .str b!"o1"), (b!"to", .str b!"lt"), (b!"toPort", .str b!"i1")],
    .obj [(b!"from", .str b!"count"), (b!"fromPort", .str b!"o1"), (b!"to", .str b!"gt"), (b!"toPort", .str b!"i1")],
    .obj [(b!"from", .str b!"count"), (b!"fromPort", .str b!"o1"), (b!"to", .str b!"et"), (b!"toPort", .str b!"i1")],
    .obj [(b!"from", .str b!"lt"), (b!"fromPort", .str b!"o1"), (b!"to", .str b!"clt20o"), (b!"toPort", .str b!"i1")],
    .obj [(b!"from", .str b!"lt"), (b!"fromPort", .str b!"o1"), (b!"to", .str b!"clt20z"), (b!"toPort", .str b!"i1")],
    .obj [(b!"from", .str b!"clt20o"), (b!"fromPort", .str b!"o1"), (b!"to", .str b!"dm"), (b!"toPort", .str b!"c1")],
    .obj [(b!"from", .str b!"clt20z"), (b!"fromPort", .str b!"o1"), (b!"to", .str b!"dm"), (b!"toPort", .str b!"c2")],
    .obj [(b!"from", .str b!"gt"), (b!"fromPort", .str b!"o1"), (b!"to", .str b!"cgt20o"), (b!"toPort", .str b!"i1")],
    .obj [(b!"from", .str b!"gt"), (b!"fromPort", .str b!"o1"), (b!"to", .str b!"cgt20z"), (b!"toPort", .str b!"i1")],
    .obj [(b!"from", .str b!"cgt20o"), (b!"fromPort", .str b!"o1"), (b!"to", .str b!"dm"), (b!"toPort", .str b!"c2")],
    .obj [(b!"from", .str b!"cgt20z"), (b!"fromPort", .str b!"o1"), (b!"to", .str b!"dm"), (b!"toPort", .str b!"c1")],
    .obj [(b!"from", .str b!"et"), (b!"fromPort", .str b!"o1"), (b!"to", .str b!"cet20z"), (b!"toPort", .str b!"i1")],
    .obj [(b!"from", .str b!"et"), (b!"fromPort", .str b!"o1"), (b!"to", .str b!"cet20o"), (b!"toPort", .str b!"i1")],
    .obj [(b!"from", .str b!"cet20z"), (b!"fromPort", .str b!"o1"), (b!"to", .str b!"dm"), (b!"toPort", .str b!"c1")],
    .obj [(b!"from", .str b!"cet20o"), (b!"fromPort", .str b!"o1"), (b!"to", .str b!"dm"), (b!"toPort", .str b!"c2")]]), (b!"entryOperator", .str b!"in"), (b!"operators", .arr [
    .obj [(b!"id", .str b!"in"), (b!"type", .str b!"Input")],
    .obj [(b!"id", .str b!"count"), (b!"type", .str b!"Count")],
    .obj [(b!"id", .str b!"dm"), (b!"numPorts", .uint 2), (b!"type", .str b!"Demultiplexer")],
    .obj [(b!"id", .str b!"lt"), (b!"type", .str b!"LessThan"), (b!"value", .uint 20)],
    .obj [(b!"id", .str b!"gt"), (b!"type", .str b!"GreaterThan"), (b!"value", .uint 20)],
    .obj [(b!"id", .str b!"et"), (b!"type", .str b!"EqualTo"), (b!"value", .uint 20)],
    .obj [(b!"id", .str b!"clt20z"), (b!"type", .str b!"Constant"), (b!"value", .uint 0)],
    .obj [(b!"id", .str b!"clt20o"), (b!"type", .str b!"Constant"), (b!"value", .uint 1)],
    .obj [(b!"id", .str b!"cet20z"), (b!"type", .str b!"Constant"), (b!"value", .uint 0)],
    .obj [(b!"id", .str b!"cet20o"), (b!"type", .str b!"Constant"), (b!"value", .uint 1)],
    .obj [(b!"id", .str b!"cgt20z"), (b!"type", .str b!"Constant"), (b!"value", .uint 0)],
    .obj [(b!"id", .str b!"cgt20o"), (b!"type", .str b!"Constant"), (b!"value", .uint 1)],
    .obj [(b!"id", .str b!"out"), (b!"numPorts", .uint 2), (b!"type", .str b!"Output")]])]

def oneTwo : List (UInt64 × F64) := (upTo 100).map fun i => (UInt64.ofNat i, if i < 20 then 1 else 2)

example : ports b!"dm" o1 (ran true program4 oneTwo) = some ((upTo 100).map fun i => if i < 20 then some [(UInt64.ofNat i, 1)] else none) ∧
    ports b!"dm" b!"o2" (ran true program4 oneTwo) = some ((upTo 100).map fun i => if i < 20 then none else some [(UInt64.ofNat i, 2)]) := by decide +kernel

/-! ## test_rsi_generated.cpp, program-test-5.json -/

def program5 : Json F64 := .obj [(b!"connections", .arr [
    .obj [(b!"from", .str b!"911"), (b!"fromPort", .str b!"o1"), (b!"to", .str b!"467"), (b!"toPort", .str b!"i1")],
    .obj [(b!"from", .str b!"216"), (b!"fromPort", .str b!"o1"), (b!"to", .str b!"911"), (b!"toPort", .str b!"i1")],
    .obj [(b!"from", .str b!"232"), (b!"fromPort", .str b!"o1"), (b!"to", .str b!"216"), (b!"toPort", .str b!"i1")],
    .obj [(b!"from", .str b!"420"), (b!"fromPort", .str b!"o1"), (b!"to", .str b!"232"), (b!"toPort", .str b!"i1")],
    .obj [(b!"from", .str b!"287"), (b!"fromPort", .str b!"o1"), (b!"to", .str b!"420"), (b!"toPort", .str b!"i1")],
    .obj [(b!"from", .str b!"130"), (b!"fromPort", .str b!"o1"), (b!"to", .str b!"287"), (b!"toPort", .str b!"i2")],
    .obj [(b!"from", .str b!"876"), (b!"fromPort", .str b!"o1"), (b!"to", .str b!"287"), (b!"toPort", .str b!"i2")],
    .obj [(b!"from", .str b!"746"), (b!"fromPort", .str b!"o1"), (b!"to", .str b!"287"), (b!"toPort", .str b!"i1")],
    .obj [(b!"from", .str b!"946"), (b!"fromPort", .str b!"o1"), (b!"to", .str b!"287"), (b!"toPort", .str b!"i1")],
    .obj [(b!"from", .str b!"130"), (b!"fromPort", .str b!"o1"), (b!"to", .str b!"837"), (b!"toPort", .str b!"i1")],
    .obj [(b!"from", .str b!"177"), (b!"fromPort", .str b!"o1"), (b!"to", .str b!"130"), (b!"toPort", .str b!"i2")],
    .obj [(b!"from", .str b!"855"), (b!"fromPort", .str b!"o1"), (b!"to", .str b!"130"), (b!"toPort", .str b!"i2")],
    .obj [(b!"from", .str b!"572"), (b!"fromPort", .str b!"o1"), (b!"to", .str b!"130"), (b!"toPort", .str b!"i2")],
    .obj [(b!"from", .str b!"837"), (b!"fromPort", .str b!"o1"), (b!"to", .str b!"130"), (b!"toPort", .str b!"i1")],
    .obj [(b!"from", .str b!"746"), (b!"fromPort", .str b!"o1"), (b!"to", .str b!"717"), (b!"toPort", .str b!"i1")],
    .obj [(b!"from", .str b!"177"), (b!"fromPort", .str b!"o1"), (b!"to", .str b!"746"), (b!"toPort", .str b!"i2")],
    .obj [(b!"from", .str b!"136"), (b!"fromPort", .str b!"o1"), (b!"to", .str b!"746"), (b!"toPort", .str b!"i2")],
    .obj [(b!"from", .str b!"794"), (b!"fromPort", .str b!"o1"), (b!"to", .str b!"746"), (b!"toPort", .str b!"i2")],
    .obj [(b!"from", .str b!"717"), (b!"fromPort", .str b!"o1"), (b!"to", .str b!"746"), (b!"toPort", .str b!"i1")],
    .obj [(b!"from", .str b!"876"), (b!"fromPort", .str b!"o1"), (b!"to", .str b!"837"), (b!"toPort", .str b!"i1")],
    .obj [(b!"from", .str b!"946"), (b!"fromPort", .str b!"o1"), (b!"to", .str b!"717"), (b!"toPort", .str b!"i1")],
    .obj [(b!"from", .str b!"342"), (b!"fromPort", .str b!"o1"), (b!"to", .str b!"855"), (b!"toPort", .str b!"i1")],
    .obj [(b!"from", .str b!"764"), (b!"fromPort", .str b!"o1"), (b!"to", .str b!"177"), (b!"toPort", .str b!"i1")],
    .obj [(b!"from", .str b!"342"), (b!"fromPort", .str b!"o1"), (b!"to", .str b!"136"), (b!"toPort", .str b!"i1")],
    .obj [(b!"from", .str b!"794"), (b!"fromPort", .str b!"o1"), (b!"to", .str b!"572"), (b!"toPort", .str b!"i1")],
    .obj [(b!"from", .str b!"887"), (b!"fromPort", .str b!"o1"), (b!"to", .str b!"342"), (b!"toPort", .str b!"i1")],
    .obj [(b!"from", .str b!"887"), (b!"fromPort", .str b!"o1"), (b!"to", .str b!"764"), (b!"toPort", .str b!"i1")],
    .obj [(b!"from", .str b!"887"), (b!"fromPort", .str b!"o1"), (b!"to", .str b!"794"), (b!"toPort", .str b!"i1")],
    .obj [(b!"from", .str b!"144"), (b!"fromPort", .str b!"o2"), (b!"to", .str b!"887"), (b!"toPort", .str b!"i1")],
    .obj [(b!"from", .str b!"996"), (b!"fromPort", .str b!"o1"), (b!"to", .str b!"876"), (b!"toPort", .str b!"c1")],
    .obj [(b!"from", .str b!"861"), (b!"fromPort", .str b!"o1"), (b!"to", .str b!"876"), (b!"toPort", .str b!"i1")],
    .obj [(b!"from", .str b!"649"), (b!"fromPort", .str b!"o1"), (b!"to", .str b!"876"), (b!"toPort", .str b!"i1")],
    .obj [(b!"from", .str b!"996"), (b!"fromPort", .str b!"o1"), (b!"to", .str b!"946"), (b!"toPort", .str b!"c1")],
    .obj [(b!"from", .str b!"861"), (b!"fromPort", .str b!"o1"), (b!"to", .str b!"946"), (b!"toPort", .str b!"i1")],
    .obj [(b!"from", .str b!"654"), (b!"fromPort", .str b!"o1"), (b!"to", .str b!"946"), (b!"toPort", .str b!"i1")],
    .obj [(b!"from", .str b!"138"), (b!"fromPort", .str b!"o1"), (b!"to", .str b!"649"), (b!"toPort", .str b!"i1")],
    .obj [(b!"from", .str b!"58"), (b!"fromPort", .str b!"o1"), (b!"to", .str b!"654"), (b!"toPort", .str b!"i1")],
    .obj [(b!"from", .str b!"28"), (b!"fromPort", .str b!"o1"), (b!"to", .str b!"138"), (b!"toPort", .str b!"i1")],
    .obj [(b!"from", .str b!"416"), (b!"fromPort", .str b!"o1"), (b!"to", .str b!"138"), (b!"toPort", .str b!"i1")],
    .obj [(b!"from", .str b!"180"), (b!"fromPort", .str b!"o1"), (b!"to", .str b!"416"), (b!"toPort", .str b!"i1")],
    .obj [(b!"from", .str b!"28"), (b!"fromPort", .str b!"o1"), (b!"to", .str b!"58"), (b!"toPort", .str b!"i1")],
    .obj [(b!"from", .str b!"806"), (b!"fromPort", .str b!"o1"), (b!"to", .str b!"58"), (b!"toPort", .str b!"i1")],
    .obj [(b!"from", .str b!"34"), (b!"fromPort", .str b!"o1"), (b!"to", .str b!"180"), (b!"toPort", .str b!"i1")],
    .obj [(b!"from", .str b!"34"), (b!"fromPort", .str b!"o1"), (b!"to", .str b!"28"), (b!"toPort", .str b!"i1")],
    .obj [(b!"from", .str b!"34"), (b!"fromPort", .str b!"o1"), (b!"to", .str b!"806"), (b!"toPort", .str b!"i1")],
    .obj [(b!"from", .str b!"144"), (b!"fromPort", .str b!"o1"), (b!"to", .str b!"34"), (b!"toPort", .str b!"i1")],
    .obj [(b!"from", .str b!"98"), (b!"fromPort", .str b!"o1"), (b!"to", .str b!"144"), (b!"toPort", .str b!"c2")],
    .obj [(b!"from", .str b!"434"), (b!"fromPort", .str b!"o1"), (b!"to", .str b!"144"), (b!"toPort", .str b!"c2")],
    .obj [(b!"from", .str b!"37"), (b!"fromPort", .str b!"o1"), (b!"to", .str b!"144"), (b!"toPort", .str b!"c1")],
    .obj [(b!"from", .str b!"283"), (b!"fromPort", .str b!"o1"), (b!"to", .str b!"144"), (b!"toPort", .str b!"c1")],
    .obj [(b!"from", .str b!"754"), (b!"fromPort", .str b!"o1"), (b!"to", .str b!"144"), (b!"toPort", .str b!"i1")],
    .obj [(b!"from", .str b!"996"), (b!"fromPort", .str b!"o1"), (b!"to", .str b!"98"), (b!"toPort", .str b!"i1")],
    .obj [(b!"from", .str b!"495"), (b!"fromPort", .str b!"o1"), (b!"to", .str b!"98"), (b!"toPort", .str b!"i1")],
    .obj [(b!"from", .str b!"510"), (b!"fromPort", .str b!"o1"), (b!"to", .str b!"434"), (b!"toPort", .str b!"i1")],
    .obj [(b!"from", .str b!"996"), (b!"fromPort", .str b!"o1"), (b!"to", .str b!"283"), (b!"toPort", .str b!"i1")],
    .obj [(b!"from", .str b!"510"), (b!"fromPort", .str b!"o1"), (b!"to", .str b!"283"), (b!"toPort", .str b!"i1")],
    .obj [(b!"from", .str b!"865"), (b!"fromPort", .str b!"o1"), (b!"to", .str b!"37"), (b!"toPort", .str b!"i1")],
    .obj [(b!"from", .str b!"865"), (b!"fromPort", .str b!"o1"), (b!"to", .str b!"495"), (b!"toPort", .str b!"i1")],
    .obj [(b!"from", .str b!"262"), (b!"fromPort", .str b!"o1"), (b!"to", .str b!"861"), (b!"toPort", .str b!"i1")],
    .obj [(b!"from", .str b!"262"), (b!"fromPort", .str b!"o1"), (b!"to", .str b!"996"), (b!"toPort", .str b!"i1")],
    .obj [(b!"from", .str b!"262"), (b!"fromPort", .str b!"o1"), (b!"to", .str b!"865"), (b!"toPort", .str b!"i1")],
    .obj [(b!"from", .str b!"262"), (b!"fromPort", .str b!"o1"), (b!"to", .str b!"510"), (b!"toPort", .str b!"i1")],
    .obj [(b!"from", .str b!"754"), (b!"fromPort", .str b!"o1"), (b!"to", .str b!"262"), (b!"toPort", .str b!"i1")]]), (b!"entryOperator", .str b!"754"), (b!"operators", .arr [
    .obj [(b!"id", .str b!"467"), (b!"numPorts", .uint 1), (b!"type", .str b!"Output")],
    .obj [(b!"id", .str b!"911"), (b!"type", .str b!"Add"), (b!"value", .uint 100)],
    .obj [(b!"id", .str b!"216"), (b!"type", .str b!"Scale"), (b!"value", .int (-100))],
    .obj [(b!"id", .str b!"232"), (b!"type", .str b!"Power"), (b!"value", .int (-1))],
    .obj [(b!"id", .str b!"420"), (b!"type", .str b!"Add"), (b!"value", .uint 1)],
    .obj [(b!"id", .str b!"287"), (b!"type", .str b!"Division")],
    .obj [(b!"coeff", .arr [.float 0.92857142857, .float 0.07142857142]), (b!"id", .str b!"130"), (b!"type", .str b!"Linear")],
    .obj [(b!"coeff", .arr [.float 0.92857142857, .float 0.07142857142]), (b!"id", .str b!"746"), (b!"type", .str b!"Linear")],
    .obj [(b!"dt", .uint 1), (b!"id", .str b!"837"), (b!"times", .uint 1), (b!"type", .str b!"TimeShift")],
    .obj [(b!"dt", .uint 1), (b!"id", .str b!"717"), (b!"times", .uint 1), (b!"type", .str b!"TimeShift")],
    .obj [(b!"id", .str b!"855"), (b!"type", .str b!"Scale"), (b!"value", .int (-1))],
    .obj [(b!"id", .str b!"177"), (b!"type", .str b!"Constant"), (b!"value", .uint 0)],
    .obj [(b!"id", .str b!"136"), (b!"type", .str b!"Constant"), (b!"value", .uint 0)],
    .obj [(b!"id", .str b!"572"), (b!"type", .str b!"Constant"), (b!"value", .uint 0)],
    .obj [(b!"id", .str b!"342"), (b!"type", .str b!"LessThan"), (b!"value", .uint 0)],
    .obj [(b!"id", .str b!"764"), (b!"type", .str b!"EqualTo"), (b!"value", .uint 0)],
    .obj [(b!"id", .str b!"794"), (b!"type", .str b!"GreaterThan"), (b!"value", .uint 0)],
    .obj [(b!"id", .str b!"887"), (b!"type", .str b!"Difference")],
    .obj [(b!"id", .str b!"876"), (b!"type", .str b!"Variable"), (b!"value", .uint 0)],
    .obj [(b!"id", .str b!"946"), (b!"type", .str b!"Variable"), (b!"value", .uint 0)],
    .obj [(b!"id", .str b!"649"), (b!"type", .str b!"Scale"), (b!"value", .float 0.07142857142)],
    .obj [(b!"id", .str b!"654"), (b!"type", .str b!"Scale"), (b!"value", .float 0.07142857142)],
    .obj [(b!"id", .str b!"138"), (b!"type", .str b!"CumulativeSum")],
    .obj [(b!"id", .str b!"416"), (b!"type", .str b!"Scale"), (b!"value", .int (-1))],
    .obj [(b!"id", .str b!"58"), (b!"type", .str b!"CumulativeSum")],
    .obj [(b!"id", .str b!"180"), (b!"type", .str b!"LessThan"), (b!"value", .uint 0)],
    .obj [(b!"id", .str b!"28"), (b!"type", .str b!"EqualTo"), (b!"value", .uint 0)],
    .obj [(b!"id", .str b!"806"), (b!"type", .str b!"GreaterThan"), (b!"value", .uint 0)],
    .obj [(b!"id", .str b!"34"), (b!"type", .str b!"Difference")],
    .obj [(b!"id", .str b!"144"), (b!"numPorts", .uint 2), (b!"type", .str b!"Demultiplexer")],
    .obj [(b!"id", .str b!"98"), (b!"type", .str b!"Constant"), (b!"value", .uint 1)],
    .obj [(b!"id", .str b!"434"), (b!"type", .str b!"Constant"), (b!"value", .uint 0)],
    .obj [(b!"id", .str b!"283"), (b!"type", .str b!"Constant"), (b!"value", .uint 1)],
    .obj [(b!"id", .str b!"37"), (b!"type", .str b!"Constant"), (b!"value", .uint 0)],
    .obj [(b!"id", .str b!"495"), (b!"type", .str b!"Constant"), (b!"value", .uint 1)],
    .obj [(b!"id", .str b!"861"), (b!"type", .str b!"EqualTo"), (b!"value", .uint 16)],
    .obj [(b!"id", .str b!"996"), (b!"type", .str b!"EqualTo"), (b!"value", .uint 15)],
    .obj [(b!"id", .str b!"865"), (b!"type", .str b!"GreaterThan"), (b!"value", .uint 15)],
    .obj [(b!"id", .str b!"510"), (b!"type", .str b!"LessThan"), (b!"value", .uint 15)],
    .obj [(b!"id", .str b!"262"), (b!"type", .str b!"Count")],
    .obj [(b!"id", .str b!"754"), (b!"numPorts", .uint 1), (b!"type", .str b!"Input")]]), (b!"output", .obj [(b!"467", .arr [.str b!"o1"])])]

/-- The first 17 of the 37 messages of the test, to save time. The tolerance is 0.00001. -/
example : ((ports b!"467" o1 (ran true program5 (priced.take 17))).map fun rs =>
    (rs.filterMap id).flatten.zip (rsis.zipIdx.take 3) |>.map fun e => (e.1.1 == UInt64.ofNat (e.2.2 + 15), near 0.00001 e.1.2 e.2.1)) =
      some (List.replicate 3 (true, true)) := by decide +kernel

/-! ## test_bollinger_bands_generated.cpp, program-test-6.json

The test uses 10000 random times; here there are fewer, with the gaps 1, 2, 1, 3 repeated. (test_program_collect_restore.cpp compares this program with one
restored from its snapshot, which is theorem C36.) -/

def program6 : Json F64 := .obj [(b!"connections", .arr [
    .obj [(b!"from", .str b!"510"), (b!"fromPort", .str b!"o1"), (b!"to", .str b!"37"), (b!"toPort", .str b!"i3")],
    .obj [(b!"from", .str b!"495"), (b!"fromPort", .str b!"o1"), (b!"to", .str b!"37"), (b!"toPort", .str b!"i1")],
    .obj [(b!"from", .str b!"861"), (b!"fromPort", .str b!"o1"), (b!"to", .str b!"37"), (b!"toPort", .str b!"i2")],
    .obj [(b!"from", .str b!"996"), (b!"fromPort", .str b!"o1"), (b!"to", .str b!"495"), (b!"toPort", .str b!"i2")],
    .obj [(b!"from", .str b!"510"), (b!"fromPort", .str b!"o1"), (b!"to", .str b!"495"), (b!"toPort", .str b!"i1")],
    .obj [(b!"from", .str b!"996"), (b!"fromPort", .str b!"o1"), (b!"to", .str b!"861"), (b!"toPort", .str b!"i2")],
    .obj [(b!"from", .str b!"510"), (b!"fromPort", .str b!"o1"), (b!"to", .str b!"861"), (b!"toPort", .str b!"i1")],
    .obj [(b!"from", .str b!"865"), (b!"fromPort", .str b!"o1"), (b!"to", .str b!"996"), (b!"toPort", .str b!"i1")],
    .obj [(b!"from", .str b!"262"), (b!"fromPort", .str b!"o1"), (b!"to", .str b!"865"), (b!"toPort", .str b!"i1")],
    .obj [(b!"from", .str b!"262"), (b!"fromPort", .str b!"o1"), (b!"to", .str b!"510"), (b!"toPort", .str b!"i1")],
    .obj [(b!"from", .str b!"754"), (b!"fromPort", .str b!"o1"), (b!"to", .str b!"262"), (b!"toPort", .str b!"i1")]]), (b!"entryOperator", .str b!"754"), (b!"operators", .arr [
    .obj [(b!"id", .str b!"37"), (b!"numPorts", .uint 3), (b!"type", .str b!"Output")],
    .obj [(b!"id", .str b!"495"), (b!"type", .str b!"Minus")],
    .obj [(b!"id", .str b!"861"), (b!"type", .str b!"Plus")],
    .obj [(b!"id", .str b!"996"), (b!"type", .str b!"Scale"), (b!"value", .uint 2)],
    .obj [(b!"id", .str b!"865"), (b!"n", .uint 14), (b!"type", .str b!"StandardDeviation")],
    .obj [(b!"id", .str b!"510"), (b!"n", .uint 14), (b!"type", .str b!"MovingAverage")],
    .obj [(b!"dt", .uint 1), (b!"id", .str b!"262"), (b!"type", .str b!"HermiteResampler")],
    .obj [(b!"id", .str b!"754"), (b!"numPorts", .uint 1), (b!"type", .str b!"Input")]]), (b!"output", .obj [(b!"37", .arr [.str b!"o2", .str b!"o1", .str b!"o3"])])]

def gaps (n : Nat) : List (UInt64 × F64) := (List.range n).map fun i =>
  let t := i / 4 * 7 + [0, 1, 3, 4].getD (i % 4) 0
  (UInt64.ofNat t, int (t * t))

/-- The times of all messages of a port, in order. -/
def emissionTimes (op p : Str) (rs : Option (List (ProgMsg F64))) : Option (List UInt64) := (ports op p rs).map fun l => (l.filterMap id).flatten.map (·.1)

/-- All three outputs emit the same consecutive times. -/
example : ∀ p ∈ [o1, b!"o2", b!"o3"], emissionTimes b!"37" p (ran false program6 (gaps 16)) = some ((List.range 11).map fun i => UInt64.ofNat (i + 14)) := by
  decide +kernel


/-! ## test_pipeline_op.cpp: "peaks for basic data y=x%5"

Passing the pipeline "through the factory" is left out: writing pipelines is not modelled. -/

/-- A program whose entry is a pipeline "pipe" with the given inner program. -/
def piped (prog : Json F64) : Json F64 := .obj [(b!"connections", .arr []), (b!"entryOperator", .str b!"pipe"),
  (b!"operators", .arr [.obj [(b!"id", .str b!"pipe"), (b!"prog", prog), (b!"type", .str b!"Pipeline")]])]

example : ∀ o ∈ [o1, b!"o2"], ports b!"pipe" o (ran true (piped program2) (mod5 0 100)) =
    some ((List.range 100).map fun i => if 5 ≤ i ∧ i % 5 = 0 then some [(UInt64.ofNat (i - 1), 4)] else none) := by decide +kernel

/-! ## test_pipeline_op.cpp: "Composite replacement", and test_composite.cpp, which builds the same operators with a Composite

`prog` is the value that the test builds; `1.0 / n` and `1.0 * (n - 1) / n` are computed with doubles. -/

def rsiProgram : Json F64 := .obj [(b!"connections", .arr [
    .obj [(b!"from", .str b!"in"), (b!"fromPort", .str b!"o1"), (b!"to", .str b!"dm"), (b!"toPort", .str b!"i1")],
    .obj [(b!"from", .str b!"in"), (b!"fromPort", .str b!"o1"), (b!"to", .str b!"count"), (b!"toPort", .str b!"i1")],
    .obj [(b!"from", .str b!"count"), (b!"fromPort", .str b!"o1"), (b!"to", .str b!"lt"), (b!"toPort", .str b!"i1")],
    .obj [(b!"from", .str b!"count"), (b!"fromPort", .str b!"o1"), (b!"to", .str b!"gt"), (b!"toPort", .str b!"i1")],
    .obj [(b!"from", .str b!"count"), (b!"fromPort", .str b!"o1"), (b!"to", .str b!"et"), (b!"toPort", .str b!"i1")],
    .obj [(b!"from", .str b!"count"), (b!"fromPort", .str b!"o1"), (b!"to", .str b!"etn2"), (b!"toPort", .str b!"i1")],
    .obj [(b!"from", .str b!"lt"), (b!"fromPort", .str b!"o1"), (b!"to", .str b!"clto"), (b!"toPort", .str b!"i1")],
    .obj [(b!"from", .str b!"clto"), (b!"fromPort", .str b!"o1"), (b!"to", .str b!"dm"), (b!"toPort", .str b!"c1")],
    .obj [(b!"from", .str b!"lt"), (b!"fromPort", .str b!"o1"), (b!"to", .str b!"cltz"), (b!"toPort", .str b!"i1")],
    .obj [(b!"from", .str b!"cltz"), (b!"fromPort", .str b!"o1"), (b!"to", .str b!"dm"), (b!"toPort", .str b!"c2")],
    .obj [(b!"from", .str b!"et"), (b!"fromPort", .str b!"o1"), (b!"to", .str b!"ceto"), (b!"toPort", .str b!"i1")],
    .obj [(b!"from", .str b!"ceto"), (b!"fromPort", .str b!"o1"), (b!"to", .str b!"dm"), (b!"toPort", .str b!"c1")],
    .obj [(b!"from", .str b!"ceto"), (b!"fromPort", .str b!"o1"), (b!"to", .str b!"dm"), (b!"toPort", .str b!"c2")],
    .obj [(b!"from", .str b!"gt"), (b!"fromPort", .str b!"o1"), (b!"to", .str b!"cgto"), (b!"toPort", .str b!"i1")],
    .obj [(b!"from", .str b!"gt"), (b!"fromPort", .str b!"o1"), (b!"to", .str b!"cgtz"), (b!"toPort", .str b!"i1")],
    .obj [(b!"from", .str b!"cgto"), (b!"fromPort", .str b!"o1"), (b!"to", .str b!"dm"), (b!"toPort", .str b!"c2")],
    .obj [(b!"from", .str b!"cgtz"), (b!"fromPort", .str b!"o1"), (b!"to", .str b!"dm"), (b!"toPort", .str b!"c1")],
    .obj [(b!"from", .str b!"dm"), (b!"fromPort", .str b!"o1"), (b!"to", .str b!"diff1"), (b!"toPort", .str b!"i1")],
    .obj [(b!"from", .str b!"diff1"), (b!"fromPort", .str b!"o1"), (b!"to", .str b!"gt0"), (b!"toPort", .str b!"i1")],
    .obj [(b!"from", .str b!"gt0"), (b!"fromPort", .str b!"o1"), (b!"to", .str b!"sum0"), (b!"toPort", .str b!"i1")],
    .obj [(b!"from", .str b!"sum0"), (b!"fromPort", .str b!"o1"), (b!"to", .str b!"sc0"), (b!"toPort", .str b!"i1")],
    .obj [(b!"from", .str b!"sc0"), (b!"fromPort", .str b!"o1"), (b!"to", .str b!"varg"), (b!"toPort", .str b!"i1")],
    .obj [(b!"from", .str b!"varg"), (b!"fromPort", .str b!"o1"), (b!"to", .str b!"ts1"), (b!"toPort", .str b!"i1")],
    .obj [(b!"from", .str b!"ts1"), (b!"fromPort", .str b!"o1"), (b!"to", .str b!"l1"), (b!"toPort", .str b!"i1")],
    .obj [(b!"from", .str b!"l1"), (b!"fromPort", .str b!"o1"), (b!"to", .str b!"ts1"), (b!"toPort", .str b!"i1")],
    .obj [(b!"from", .str b!"diff1"), (b!"fromPort", .str b!"o1"), (b!"to", .str b!"et0"), (b!"toPort", .str b!"i1")],
    .obj [(b!"from", .str b!"et0"), (b!"fromPort", .str b!"o1"), (b!"to", .str b!"sum0"), (b!"toPort", .str b!"i1")],
    .obj [(b!"from", .str b!"et0"), (b!"fromPort", .str b!"o1"), (b!"to", .str b!"sum1"), (b!"toPort", .str b!"i1")],
    .obj [(b!"from", .str b!"diff1"), (b!"fromPort", .str b!"o1"), (b!"to", .str b!"lt0"), (b!"toPort", .str b!"i1")],
    .obj [(b!"from", .str b!"lt0"), (b!"fromPort", .str b!"o1"), (b!"to", .str b!"neg0"), (b!"toPort", .str b!"i1")],
    .obj [(b!"from", .str b!"neg0"), (b!"fromPort", .str b!"o1"), (b!"to", .str b!"sum1"), (b!"toPort", .str b!"i1")],
    .obj [(b!"from", .str b!"sum1"), (b!"fromPort", .str b!"o1"), (b!"to", .str b!"sc1"), (b!"toPort", .str b!"i1")],
    .obj [(b!"from", .str b!"sc1"), (b!"fromPort", .str b!"o1"), (b!"to", .str b!"varl"), (b!"toPort", .str b!"i1")],
    .obj [(b!"from", .str b!"varl"), (b!"fromPort", .str b!"o1"), (b!"to", .str b!"ts2"), (b!"toPort", .str b!"i1")],
    .obj [(b!"from", .str b!"ts2"), (b!"fromPort", .str b!"o1"), (b!"to", .str b!"l2"), (b!"toPort", .str b!"i1")],
    .obj [(b!"from", .str b!"l2"), (b!"fromPort", .str b!"o1"), (b!"to", .str b!"ts2"), (b!"toPort", .str b!"i1")],
    .obj [(b!"from", .str b!"dm"), (b!"fromPort", .str b!"o2"), (b!"to", .str b!"diff2"), (b!"toPort", .str b!"i1")],
    .obj [(b!"from", .str b!"diff2"), (b!"fromPort", .str b!"o1"), (b!"to", .str b!"gt1"), (b!"toPort", .str b!"i1")],
    .obj [(b!"from", .str b!"gt1"), (b!"fromPort", .str b!"o1"), (b!"to", .str b!"l1"), (b!"toPort", .str b!"i2")],
    .obj [(b!"from", .str b!"gt1"), (b!"fromPort", .str b!"o1"), (b!"to", .str b!"const0"), (b!"toPort", .str b!"i1")],
    .obj [(b!"from", .str b!"const0"), (b!"fromPort", .str b!"o1"), (b!"to", .str b!"l2"), (b!"toPort", .str b!"i2")],
    .obj [(b!"from", .str b!"diff2"), (b!"fromPort", .str b!"o1"), (b!"to", .str b!"lt1"), (b!"toPort", .str b!"i1")],
    .obj [(b!"from", .str b!"lt1"), (b!"fromPort", .str b!"o1"), (b!"to", .str b!"neg1"), (b!"toPort", .str b!"i1")],
    .obj [(b!"from", .str b!"neg1"), (b!"fromPort", .str b!"o1"), (b!"to", .str b!"l2"), (b!"toPort", .str b!"i2")],
    .obj [(b!"from", .str b!"lt1"), (b!"fromPort", .str b!"o1"), (b!"to", .str b!"const1"), (b!"toPort", .str b!"i1")],
    .obj [(b!"from", .str b!"const1"), (b!"fromPort", .str b!"o1"), (b!"to", .str b!"l1"), (b!"toPort", .str b!"i2")],
    .obj [(b!"from", .str b!"diff2"), (b!"fromPort", .str b!"o1"), (b!"to", .str b!"et1"), (b!"toPort", .str b!"i1")],
    .obj [(b!"from", .str b!"et1"), (b!"fromPort", .str b!"o1"), (b!"to", .str b!"l1"), (b!"toPort", .str b!"i2")],
    .obj [(b!"from", .str b!"et1"), (b!"fromPort", .str b!"o1"), (b!"to", .str b!"l2"), (b!"toPort", .str b!"i2")],
    .obj [(b!"from", .str b!"etn2"), (b!"fromPort", .str b!"o1"), (b!"to", .str b!"varg"), (b!"toPort", .str b!"i1")],
    .obj [(b!"from", .str b!"et"), (b!"fromPort", .str b!"o1"), (b!"to", .str b!"varg"), (b!"toPort", .str b!"c1")],
    .obj [(b!"from", .str b!"etn2"), (b!"fromPort", .str b!"o1"), (b!"to", .str b!"varl"), (b!"toPort", .str b!"i1")],
    .obj [(b!"from", .str b!"et"), (b!"fromPort", .str b!"o1"), (b!"to", .str b!"varl"), (b!"toPort", .str b!"c1")],
    .obj [(b!"from", .str b!"varg"), (b!"fromPort", .str b!"o1"), (b!"to", .str b!"divide"), (b!"toPort", .str b!"i1")],
    .obj [(b!"from", .str b!"varl"), (b!"fromPort", .str b!"o1"), (b!"to", .str b!"divide"), (b!"toPort", .str b!"i2")],
    .obj [(b!"from", .str b!"l1"), (b!"fromPort", .str b!"o1"), (b!"to", .str b!"divide"), (b!"toPort", .str b!"i1")],
    .obj [(b!"from", .str b!"l2"), (b!"fromPort", .str b!"o1"), (b!"to", .str b!"divide"), (b!"toPort", .str b!"i2")],
    .obj [(b!"from", .str b!"divide"), (b!"fromPort", .str b!"o1"), (b!"to", .str b!"add1"), (b!"toPort", .str b!"i1")],
    .obj [(b!"from", .str b!"add1"), (b!"fromPort", .str b!"o1"), (b!"to", .str b!"-power1"), (b!"toPort", .str b!"i1")],
    .obj [(b!"from", .str b!"-power1"), (b!"fromPort", .str b!"o1"), (b!"to", .str b!"-scale100"), (b!"toPort", .str b!"i1")],
    .obj [(b!"from", .str b!"-scale100"), (b!"fromPort", .str b!"o1"), (b!"to", .str b!"add100"), (b!"toPort", .str b!"i1")],
    .obj [(b!"from", .str b!"add100"), (b!"fromPort", .str b!"o1"), (b!"to", .str b!"out"), (b!"toPort", .str b!"i1")]]),
  (b!"operators", .arr [
    .obj [(b!"id", .str b!"in"), (b!"type", .str b!"Input")],
    .obj [(b!"id", .str b!"dm"), (b!"numPorts", .uint 2), (b!"type", .str b!"Demultiplexer")],
    .obj [(b!"id", .str b!"count"), (b!"type", .str b!"Count")],
    .obj [(b!"id", .str b!"lt"), (b!"type", .str b!"LessThan"), (b!"value", .float 15)],
    .obj [(b!"id", .str b!"et"), (b!"type", .str b!"EqualTo"), (b!"value", .float 15)],
    .obj [(b!"id", .str b!"gt"), (b!"type", .str b!"GreaterThan"), (b!"value", .float 15)],
    .obj [(b!"id", .str b!"etn2"), (b!"type", .str b!"EqualTo"), (b!"value", .float 16)],
    .obj [(b!"id", .str b!"cgtz"), (b!"type", .str b!"Constant"), (b!"value", .uint 0)],
    .obj [(b!"id", .str b!"cgto"), (b!"type", .str b!"Constant"), (b!"value", .uint 1)],
    .obj [(b!"id", .str b!"cltz"), (b!"type", .str b!"Constant"), (b!"value", .uint 0)],
    .obj [(b!"id", .str b!"clto"), (b!"type", .str b!"Constant"), (b!"value", .uint 1)],
    .obj [(b!"id", .str b!"ceto"), (b!"type", .str b!"Constant"), (b!"value", .uint 1)],
    .obj [(b!"id", .str b!"diff1"), (b!"type", .str b!"Difference")],
    .obj [(b!"id", .str b!"diff2"), (b!"type", .str b!"Difference")],
    .obj [(b!"id", .str b!"lt0"), (b!"type", .str b!"LessThan"), (b!"value", .float 0.0)],
    .obj [(b!"id", .str b!"et0"), (b!"type", .str b!"EqualTo"), (b!"value", .float 0.0)],
    .obj [(b!"id", .str b!"gt0"), (b!"type", .str b!"GreaterThan"), (b!"value", .float 0.0)],
    .obj [(b!"id", .str b!"sum0"), (b!"type", .str b!"CumulativeSum")],
    .obj [(b!"id", .str b!"sc0"), (b!"type", .str b!"Scale"), (b!"value", .float (F64.div 1 14))],
    .obj [(b!"coeff", .arr [.float (F64.div 13 14), .float (F64.div 1 14)]), (b!"id", .str b!"l1"), (b!"type", .str b!"Linear")],
    .obj [(b!"id", .str b!"neg0"), (b!"type", .str b!"Scale"), (b!"value", .float (-1))],
    .obj [(b!"id", .str b!"sum1"), (b!"type", .str b!"CumulativeSum")],
    .obj [(b!"id", .str b!"sc1"), (b!"type", .str b!"Scale"), (b!"value", .float (F64.div 1 14))],
    .obj [(b!"coeff", .arr [.float (F64.div 13 14), .float (F64.div 1 14)]), (b!"id", .str b!"l2"), (b!"type", .str b!"Linear")],
    .obj [(b!"id", .str b!"lt1"), (b!"type", .str b!"LessThan"), (b!"value", .float 0.0)],
    .obj [(b!"id", .str b!"et1"), (b!"type", .str b!"EqualTo"), (b!"value", .float 0.0)],
    .obj [(b!"id", .str b!"gt1"), (b!"type", .str b!"GreaterThan"), (b!"value", .float 0.0)],
    .obj [(b!"id", .str b!"const0"), (b!"type", .str b!"Constant"), (b!"value", .uint 0)],
    .obj [(b!"id", .str b!"neg1"), (b!"type", .str b!"Scale"), (b!"value", .float (-1))],
    .obj [(b!"id", .str b!"const1"), (b!"type", .str b!"Constant"), (b!"value", .uint 0)],
    .obj [(b!"id", .str b!"varg"), (b!"type", .str b!"Variable")],
    .obj [(b!"id", .str b!"varl"), (b!"type", .str b!"Variable")],
    .obj [(b!"id", .str b!"ts1"), (b!"type", .str b!"TimeShift")],
    .obj [(b!"id", .str b!"ts2"), (b!"type", .str b!"TimeShift")],
    .obj [(b!"id", .str b!"divide"), (b!"type", .str b!"Division")],
    .obj [(b!"id", .str b!"add1"), (b!"type", .str b!"Add"), (b!"value", .float 1)],
    .obj [(b!"id", .str b!"-power1"), (b!"type", .str b!"Power"), (b!"value", .float (-1))],
    .obj [(b!"id", .str b!"-scale100"), (b!"type", .str b!"Scale"), (b!"value", .int (-100))],
    .obj [(b!"id", .str b!"add100"), (b!"type", .str b!"Add"), (b!"value", .float 100)],
    .obj [(b!"id", .str b!"out"), (b!"type", .str b!"Output")]])]

/-- The pipeline and the operator emit at the same times values that differ by less than 0.00000001. Here the first 17 of the 38 messages of the test. -/
example : ((ports b!"pipe" o1 (ran true (piped rsiProgram) (priced.take 17))).bind fun rs => (said (Op.newRsi b!"rsi" 14) [] (priced.take 17)).map fun l =>
      ((rs.filterMap id).flatten.zip l.flatten).map fun e => (e.1.1, e.2.1, near 0.00000001 e.1.2 e.2.2)) =
    some [(15, 15, true), (16, 16, true), (17, 17, true)] := by decide +kernel

end Rtbot.Checks
