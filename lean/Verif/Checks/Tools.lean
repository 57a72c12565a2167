import Verif.Model.Double
import Verif.Model.Factory
import Verif.Spec.Stream

/-! # Running the tests of the repository in the model

The files in this directory evaluate the unit tests of /repo in the model, with doubles bit by bit (`F64`). They prove nothing about other inputs; they
compare the model with what the authors of the code observed. All evaluation is done by the kernel. -/

namespace Rtbot.Checks
open Rtbot.Spec

/-- The functions of the C library as far as the tests use them: squares (StandardDeviation.h:45) and reciprocals (test_power.cpp, test_composite.cpp), both of which
are correctly rounded by the usual implementations. -/
@[reducible] def libm : F64.Platform where
  nan := ⟨0x7FF8000000000000⟩
  nan_isNaN := by decide
  pow a b := letI : F64.Platform := ⟨⟨0x7FF8000000000000⟩, by decide, fun x _ => x, fun x => x⟩
    if b = ⟨0x4000000000000000⟩ then F64.mul a a else if b = ⟨0xBFF0000000000000⟩ then F64.div ⟨0x3FF0000000000000⟩ a else ⟨0x7FF8000000000000⟩
  cos a := a

scoped instance (priority := high) : F64.Platform := libm

/-- Decimal literals are rounded to the nearest double. -/
scoped instance : OfScientific F64 where
  ofScientific m s e := if s then F64.ofFrac false (m * F64.one) (10 ^ e) else F64.ofFrac false (m * 10 ^ e * F64.one) 1
scoped instance (n : Nat) : OfNat F64 n where
  ofNat := F64.ofFrac false (n * F64.one) 1
scoped instance : Neg F64 where
  neg := F64.neg

/-- An `int` converted to a double. -/
def int (i : Int) : F64 := F64.ofFrac (decide (i < 0)) (i.natAbs * F64.one) 1

/-- What a sequence of `receiveData`, `executeData` on one port puts on "o1", call by call. -/
def said (o : Op F64) (p : Str) (ms : List (UInt64 × F64)) : Option (List (List (UInt64 × F64))) :=
  match feedOp o p (ms.map fun m => ⟨m.1, m.2⟩) with
  | .ok outs _ => some (outs.map fun out => (msgsOn o1 out).map fun m => (m.time, m.value))
  | .err _ _ => none

/-- What each `executeData` or `executeControl` of a sequence of calls puts on "o1"; `none` when a call fails. -/
def told (o : Op F64) : List (Act F64) → Option (List (List (UInt64 × F64)))
  | [] => some []
  | a :: as =>
    match act o a with
    | (_, .error _) => none
    | (o', .ok out) =>
      match told o' as with
      | none => none
      | some outs => some (match a with
        | .execData | .execCtrl => ((msgsOn o1 out).map fun m => (m.time, m.value)) :: outs
        | _ => outs)

/-- A message for data port `p`. -/
def data (p : Str) (t : UInt64) (v : F64) : Act F64 := .recvData p ⟨t, v⟩
/-- A message for control port `p`. -/
def ctrl (p : Str) (t : UInt64) (v : F64) : Act F64 := .recvCtrl p ⟨t, v⟩

/-- 1, 2, …, n -/
def upTo (n : Nat) : List Nat := (List.range n).map (· + 1)

/-- |a - b| ≤ ε -/
def near (ε a b : F64) : Bool := let d := F64.sub a b; Num.le d ε && Num.le (F64.neg ε) d

end Rtbot.Checks
