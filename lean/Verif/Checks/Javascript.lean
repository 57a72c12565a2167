import Verif.Checks.Programs
import Verif.Model.Javascript

/-! # libs/wrappers/javascript/src/program.spec.ts -/

namespace Rtbot.Checks
open Rtbot.Spec

/-- An operator without parameters besides its id. -/
def jsTestOp (type id : Str) : JsOp F64 := ⟨id, type, .obj [(b!"id", .str id), (b!"type", .str type)]⟩

/-- `new MovingAverage(id, 2)` -/
def jsTestAverage (id : Str) : JsOp F64 := ⟨id, b!"MovingAverage", .obj [(b!"id", .str id), (b!"n", .uint 2), (b!"type", .str b!"MovingAverage")]⟩

/-- The program of the tests. -/
def jsTestProgram : Except Err (JsProgram F64) := do
  let p := JsProgram.new b!"1a2b" (some b!"input1") (some b!"my program title") (some b!"description") (some b!"2000-01-01") none none
  let p := ((p.addOperator (jsTestOp b!"Input" b!"input1")).addOperator (jsTestAverage b!"ma1")).addOperator (jsTestOp b!"Output" b!"out1")
  let p ← p.addConnection ⟨b!"input1", b!"ma1", o1, i1⟩
  p.addConnection ⟨b!"ma1", b!"out1", o1, i1⟩

/-- "can create a new instance", "validates the entire program", "there has to be at least one Input operator in a program to be valid" -/
example : (match jsTestProgram with
    | .ok p => decide (p.title = some b!"my program title") && programSchema.accepts p.toPlain && p.operators.any fun op => op.type == b!"Input"
    | .error _ => false) = true := by decide +kernel

/-- The program of the tests with operators added, and whether the connections can be added. -/
def jsTest (ops : List Str) (cs : List (Str × Str)) : Bool := Except.isOk (do
  let p ← jsTestProgram
  cs.foldlM (fun p c => p.addConnection ⟨c.1, c.2, o1, i1⟩) (ops.foldl (fun p id => p.addOperator (jsTestAverage id)) p))

/-- "cannot add a connection if the first operator hasn't been added to the program", the same for the second operator, "cannot add a connection twice" -/
example : jsTest [] [(b!"ma2", b!"ma3")] = false ∧ jsTest [b!"ma2"] [(b!"ma2", b!"ma3")] = false ∧ jsTest [b!"ma2", b!"ma3"] [(b!"ma2", b!"ma3")] = true ∧
    jsTest [b!"ma2", b!"ma3"] [(b!"ma2", b!"ma3"), (b!"ma2", b!"ma3")] = false := by decide +kernel

/-- 10, 20, 30, 25, 20 and 15. -/
def jsTestData : List (F64 × List F64) := [(1, ⟨0x4024000000000000⟩), (2, ⟨0x4034000000000000⟩), (3, ⟨0x403E000000000000⟩), (4, ⟨0x4039000000000000⟩), (5, ⟨0x4034000000000000⟩),
  (6, ⟨0x402E000000000000⟩)].map fun x => (ofTime x.1, [x.2])

/-- "can process data": the number of reports. -/
example : (match jsTestProgram with
    | .error _ => none
    | .ok p => match jsRunExtended ⟨⟨fun _ => .ok p.toPlain, fun _ => none, 100⟩, fun _ => b!"{}", fun _ => true, Num.toTime, none, ofTime,
        fun v => if v.isFin then some v else none⟩ (fun _ => (0, 0)) p jsTestData [] Factory.empty with
      | .err _ _ => none
      | .ok c _ => some c.length) = some 6 := by decide +kernel

end Rtbot.Checks
