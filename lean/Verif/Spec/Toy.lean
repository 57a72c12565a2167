import Verif.Spec.Codec

/-! # 64 bit integers as values

A computable interpretation of `double` whose object representation can be written and read, used in the examples and in the
counterexamples about snapshots. Division, comparison and truncation are those of signed integers; `half`, `pi`, `pow`, `sqrt` and
`cos` are placeholders. -/

namespace Rtbot.Spec

instance : Num Int64 where
  add := (· + ·)
  sub := (· - ·)
  mul := (· * ·)
  div := (· / ·)
  neg := (- ·)
  lt a b := decide (a < b)
  le a b := decide (a ≤ b)
  eq a b := decide (a = b)
  ofNat n := Int64.ofNat n
  half := 0
  pi := 3
  pow a _ := a * a
  sqrt a := a
  cos a := a
  toTime a := if a < 0 then none else some a.toUInt64
  bits a := a.toUInt64
  ofBits a := a.toInt64

instance : LosslessBits Int64 where
  ofBits_bits _ := rfl

instance : DecidableEq (OpMsg Int64) := inferInstance
instance : DecidableEq (ProgMsg Int64) :=
  let _ : DecidableEq (Str × OpMsg Int64) := instDecidableEqProd
  fun a b => instDecidableEqList a b

end Rtbot.Spec
