/-! # The value type

`V` is `double` in every instantiation of the library (libs/api/include/rtbot/Program.h:18). The model is generic in the
interpretation of the floating point operations: `Num V` lists the operations the code uses and assumes **nothing** about
them, so that every theorem that only has `[Num V]` holds for IEEE doubles with any rounding behaviour. -/

namespace Rtbot

class Num (V : Type) where
  add : V → V → V
  sub : V → V → V
  mul : V → V → V
  div : V → V → V
  neg : V → V
  /-- `<`, `<=`, `==` on doubles (all false on NaN). `a > b` is `lt b a`, `a >= b` is `le b a`, `a != b` is `!eq a b`. -/
  lt : V → V → Bool
  le : V → V → Bool
  eq : V → V → Bool
  /-- conversion of a non-negative integer (literal, `size_t`, `uint64_t`) to double -/
  ofNat : Nat → V
  /-- the literal 0.5 (And.h:15, Or.h:15) -/
  half : V
  /-- the literal 3.1415926535897932 (CosineResampler.h:88) -/
  pi : V
  pow : V → V → V
  sqrt : V → V
  cos : V → V
  /-- `(uint64_t) x`; `none` when the truncated value is not representable (undefined behaviour) -/
  toTime : V → Option UInt64
  /-- the 8 bytes of the object representation, and back -/
  bits : V → UInt64
  ofBits : UInt64 → V


infixl:65 " +. " => Num.add
infixl:65 " -. " => Num.sub
infixl:70 " *. " => Num.mul
infixl:70 " /. " => Num.div

/-- `(double) t` for a `uint64_t`. -/
def ofTime {V : Type} [Num V] (t : UInt64) : V := Num.ofNat t.toNat

/-- `Message<T,V>` with T = uint64_t (Message.h:11-20). -/
structure Msg (V : Type) where
  time : UInt64
  value : V
  deriving DecidableEq, Repr

/-- The value-initialised message `{}` returned by the accessors for an empty buffer (Operator.h:341, 353, 365, 377, 388). -/
def Msg.zero {V : Type} [Num V] : Msg V := ⟨0, Num.ofNat 0⟩

end Rtbot
