import Verif.Checks.Programs
import Verif.Model.Python

/-! # libs/wrappers/python/rtbot_test.py -/

namespace Rtbot.Checks
open Rtbot.Spec

/-- The program of the tests. -/
def pyTestProgram : Json F64 := .obj [(b!"apiVersion", .str b!"v1"), (b!"author", .str b!"Someone <someone@gmail.com>"), (b!"connections", .arr [
    .obj [(b!"from", .str b!"in1"), (b!"fromPort", .str b!"o1"), (b!"to", .str b!"ma1"), (b!"toPort", .str b!"i1")]]), (b!"date", .str b!"2000-01-01"),
    (b!"description", .str b!"This is a program to detect peaks in PPG..."), (b!"entryOperator", .str b!"in1"), (b!"license", .str b!"MIT"), (b!"operators", .arr [
    .obj [(b!"id", .str b!"in1"), (b!"type", .str b!"Input")],
    .obj [(b!"id", .str b!"ma1"), (b!"n", .uint 6), (b!"type", .str b!"MovingAverage")]]), (b!"title", .str b!"Peak detector")]

/-- test_validate_valid_program, test_invalidate_valid_program -/
example : programSchema.accepts pyTestProgram = true ∧ programSchema.accepts (.obj [] : Json F64) = false := by decide +kernel

/-- test_load_ill_defined_json_program, test_load_well_defined_json_program_succeed -/
example : (pyParse b!"1234" (.obj [(b!"bad", .arr [])] : Json F64)).isOk = false ∧ (pyParse b!"1234" pyTestProgram).isOk = true := by decide +kernel

/-- `rtbot.Program(title="test")` with operators and connections added, and whether this succeeds. -/
def pyTest (ops : List Str) (cs : List (Str × Str)) : Bool := Except.isOk (do
  let p ← PyProgram.new (V := F64) b!"1234" [(b!"title", .str b!"test")]
  let p ← ops.foldlM (fun p id => do p.addOperator (← pyOperator b!"MovingAverage" [(b!"id", .str id), (b!"n", .uint 2)])) p
  cs.foldlM (fun p c => p.addConnection c.1 c.2 o1 i1) p)

/-- test_create_program_class, test_able_to_add_good_connection, test_unable_to_add_bad_connection, test_unable_to_add_same_operator_twice -/
example : pyTest [] [] = true ∧ pyTest [b!"ma1", b!"ma2"] [(b!"ma1", b!"ma2")] = true ∧ pyTest [] [(b!"ma11", b!"ma12")] = false ∧
    pyTest [b!"ma1", b!"ma1"] [] = false := by decide +kernel

/-- The rows of the tests. -/
def pyTestData : List (UInt64 × List F64) := [(51, [⟨0x4020CCA28FB83948⟩]), (52, [⟨0x402E28BC415D61B2⟩]), (53, [⟨0x40344918925D4D28⟩]), (54, [⟨0x40382E6A151DB0CA⟩]), (55, [⟨0x403AEE3C21259AEF⟩]), (56, [⟨0x403CB2782EAACACC⟩]), (57, [⟨0x403DA507B5E2FF93⟩]), (58, [⟨0x403DEFD42F03F876⟩]), (59, [⟨0x403DBCC7124374A9⟩]), (60, [⟨0x403D35C9D7D73361⟩]), (61, [⟨0x403C84C5F7F4F3CC⟩]), (62, [⟨0x403BD3A4EAD27523⟩])]

/-- test_run_well_defined_json_program_works: the columns and the lengths of the lists of times. -/
example : (match pyParse b!"1234" pyTestProgram with
    | .error _ => none
    | .ok p => match pyExec ⟨⟨fun _ => .ok p.toJson, fun _ => none, 100⟩, fun _ => b!"{}", fun v => if v.isFin then some v else none⟩
        (fun _ => (0, 0)) p pyTestData Factory.empty with
      | .err _ _ => none
      | .ok c _ => some (c.map fun e => (e.1, e.2.1.length))) = some [(b!"in1:o1", 12), (b!"ma1:o1", 7)] := by decide +kernel

end Rtbot.Checks
