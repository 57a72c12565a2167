import Verif.Model.Double
import Verif.Spec.Stream
import Mathlib.Algebra.Order.Ring.Rat
import Mathlib.Algebra.Order.Field.Rat
import Mathlib.Algebra.Order.Group.Unbundled.Abs
import Mathlib.Data.Real.Basic

/-! # Specification vocabulary: what IEEE 754 says about doubles -/

namespace Rtbot.Spec
open F64

/-- IEEE 754, section 3.4: the fields of the representation are a sign bit, 11 bits of exponent and 52 bits of fraction; this is the number they stand for.
Exponent 0 is for subnormal numbers, exponent 2047 for infinities and NaNs. -/
def fields (s : Bool) (e f : Nat) : Option ℚ :=
  if e = 2047 then none
  else some ((if s then -1 else 1) * (if e = 0 then (f / 2 ^ 52 : ℚ) * 2 ^ (-1022 : Int) else (1 + f / 2 ^ 52 : ℚ) * 2 ^ ((e : Int) - 1023)))

/-- The number a finite double stands for. -/
def val (a : F64) : ℚ := a.units / F64.one

/-- `a` is the finite double nearest to `q`; of two equally near ones the one whose last bit is 0. -/
def Rounds (q : ℚ) (a : F64) : Prop :=
  a.isFin = true ∧ ∀ b : F64, b.isFin = true → val b = val a ∨ |val a - q| < |val b - q| ∨ (|val a - q| = |val b - q| ∧ a.mag % 2 = 0)

/-- From here on numbers are rounded to infinity: the middle between the largest double and 2^1024. -/
def limit : ℚ := 2 ^ 1024 - 2 ^ 970

/-- Rounding to nearest, with infinities (IEEE 754, section 4.3.1). -/
def RoundsTo (q : ℚ) (a : F64) : Prop :=
  (|q| < limit ∧ Rounds q a) ∨ (limit ≤ |q| ∧ a.mag = infMag ∧ (a.sign = true ↔ q < 0))

/-- The same for a real number. -/
def RoundsReal (q : ℝ) (a : F64) : Prop :=
  a.isFin = true ∧ ∀ b : F64, b.isFin = true →
    val b = val a ∨ |(val a : ℝ) - q| < |(val b : ℝ) - q| ∨ (|(val a : ℝ) - q| = |(val b : ℝ) - q| ∧ a.mag % 2 = 0)

/-- The conversion of a number to an unsigned integer drops the fraction; it is defined when the result is representable. -/
def Truncates (q : ℚ) (t : UInt64) : Prop := -1 < q ∧ (q < 0 → t = 0) ∧ (0 ≤ q → (t.toNat : ℚ) ≤ q ∧ q < t.toNat + 1)

/-- The double is the integer `z`. -/
def IsInt (a : F64) (z : Int) : Prop := a.isFin = true ∧ val a = z

/-- The answer to the last of `n` messages is a function of these `n` messages: it is the same whatever came before. -/
def WindowOnly {V : Type} [Num V] (o : Op V) (n : Nat) : Prop :=
  ∀ pre pre' w : List (Msg V), w.length = n → ∀ outs outs' o1' o2', feedOp o i1 (pre ++ w) = .ok outs o1' → feedOp o i1 (pre' ++ w) = .ok outs' o2' →
    n ≠ 0 → outs.getLast? = outs'.getLast?

end Rtbot.Spec
