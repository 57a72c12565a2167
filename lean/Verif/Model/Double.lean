import Verif.Model.Num

/-! # IEEE 754 doubles

The interpretation of `double` as binary64 with rounding to nearest, ties to even. A finite double is an integer multiple of the smallest
positive one, 2^-1074; all arithmetic is done exactly on these multiples and rounded once.

Simplifications:
* Operations without a result give one fixed NaN (`Platform.nan`); real processors also copy bits of the operands.
* `pow` and `cos` are functions of the C library about which IEEE 754 says nothing; they are parameters (`Platform`).
* The compiler neither fuses multiplications and additions nor keeps excess precision. -/

namespace Rtbot

/-- A `double`, by its object representation. -/
structure F64 where
  bits : UInt64
  deriving DecidableEq, Repr

namespace F64

/-- The representation of infinity without its sign bit; NaNs are above it, finite numbers below. -/
def infMag : Nat := 2047 * 2 ^ 52

/-- The representation without the sign bit. -/
def mag (a : F64) : Nat := a.bits.toNat % 2 ^ 63

/-- The sign bit. -/
def sign (a : F64) : Bool := decide (2 ^ 63 ≤ a.bits.toNat)

def ofMag (s : Bool) (b : Nat) : F64 := ⟨UInt64.ofNat (b + if s then 2 ^ 63 else 0)⟩

def isNaN (a : F64) : Bool := decide (infMag < a.mag)

def isFin (a : F64) : Bool := decide (a.mag < infMag)

/-- The number with representation `b` (without sign), in multiples of 2^-1074: the lower 52 bits are the fraction, the bits above the
exponent; exponent 0 stands for subnormal numbers. -/
def dec (b : Nat) : Nat := if b < 2 ^ 52 then b else (2 ^ 52 + b % 2 ^ 52) * 2 ^ (b / 2 ^ 52 - 1)

/-- A finite double in multiples of 2^-1074. -/
def units (a : F64) : Int := if a.sign then - (dec a.mag : Int) else dec a.mag

/-- `n / d` rounded to the nearest integer, ties to even. -/
def rhe (n d : Nat) : Nat := if 2 * (n % d) < d ∨ (2 * (n % d) = d ∧ n / d % 2 = 0) then n / d else n / d + 1

/-- The representation of the double nearest to `n / d` multiples of 2^-1074: `x` is the position of the lowest of the 53 leading bits. A carry out of the
fraction increments the exponent, and runs into infinity above the largest double. -/
def rnd (n d : Nat) : Nat :=
  let x := (n / d).log2 - 52
  min (x * 2 ^ 52 + rhe n (d * 2 ^ x)) infMag

/-- The number 1 in multiples of 2^-1074. -/
def one : Nat := 2 ^ 1074

def ofFrac (s : Bool) (n d : Nat) : F64 := ofMag s (rnd n d)

/-- Rounded result of an exact sum; `s` is the sign of zero. -/
def ofUnits (z : Int) (s : Bool) : F64 := if z = 0 then ofMag s 0 else ofFrac (decide (z < 0)) z.natAbs 1

/-- The order of doubles (other than NaN) is the order of these integers; both zeros are 0. -/
def key (a : F64) : Int := if a.sign then - (a.mag : Int) else a.mag

/-- What depends on the processor and the C library. -/
class Platform where
  nan : F64
  nan_isNaN : nan.isNaN = true
  pow : F64 → F64 → F64
  cos : F64 → F64

variable [Platform]

def neg (a : F64) : F64 := ofMag (!a.sign) a.mag

def add (a b : F64) : F64 :=
  if a.isNaN || b.isNaN then Platform.nan
  else if !a.isFin then (if !b.isFin && a.sign != b.sign then Platform.nan else a)
  else if !b.isFin then b
  else ofUnits (a.units + b.units) (a.sign && b.sign)

def sub (a b : F64) : F64 := add a (neg b)

def mul (a b : F64) : F64 :=
  let s := a.sign != b.sign
  if a.isNaN || b.isNaN then Platform.nan
  else if !a.isFin || !b.isFin then (if a.mag = 0 || b.mag = 0 then Platform.nan else ofMag s infMag)
  else ofFrac s (a.units.natAbs * b.units.natAbs) one

def div (a b : F64) : F64 :=
  let s := a.sign != b.sign
  if a.isNaN || b.isNaN then Platform.nan
  else if !a.isFin then (if !b.isFin then Platform.nan else ofMag s infMag)
  else if !b.isFin then ofMag s 0
  else if b.mag = 0 then (if a.mag = 0 then Platform.nan else ofMag s infMag)
  else ofFrac s (a.units.natAbs * one) b.units.natAbs

/-- Square root: of `I * 2^1074` the integer root `r` has more than 500 bits; a further bit says whether it is exact, so rounding it rounds the root. -/
def sqrt (a : F64) : F64 :=
  if a.isNaN then Platform.nan
  else if a.mag = 0 then a
  else if a.sign then Platform.nan
  else if !a.isFin then a
  else
    let n := a.units.natAbs * one
    let r := n.sqrt
    ofFrac false (2 * r + if r * r = n then 0 else 1) 2

def toTime (a : F64) : Option UInt64 :=
  if a.isFin then
    let t := a.units.natAbs / one
    if (a.sign = true ∧ t ≠ 0) ∨ 2 ^ 64 ≤ t then none else some (UInt64.ofNat t)
  else none

instance : Num F64 where
  add := add
  sub := sub
  mul := mul
  div := div
  neg := neg
  lt a b := !a.isNaN && !b.isNaN && decide (a.key < b.key)
  le a b := !a.isNaN && !b.isNaN && decide (a.key ≤ b.key)
  eq a b := !a.isNaN && !b.isNaN && decide (a.key = b.key)
  ofNat n := ofFrac false (n * one) 1
  half := ⟨0x3FE0000000000000⟩
  pi := ⟨0x400921FB54442D18⟩
  pow := Platform.pow
  sqrt := sqrt
  cos := Platform.cos
  toTime := toTime
  bits := bits
  ofBits b := ⟨b⟩

end F64
end Rtbot
