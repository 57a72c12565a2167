import Verif.Spec.Grid
import Mathlib.Algebra.Field.Basic
import Mathlib.Algebra.BigOperators.Group.List.Basic

/-! # Specification vocabulary: interpolation with four neighbouring messages -/

namespace Rtbot.Spec
variable {V : Type} [Field V]

/-- The cubic with value `y1` at 0 and `y2` at 1 whose derivative at 0 is the slope from `y0` to `y2` and at 1 the slope from `y1` to `y3`
(values one apart), by powers of `u`. -/
def catmullRom (y0 y1 y2 y3 u : V) : V :=
  y1 + (y2 - y0) / 2 * u + (y0 - 5 / 2 * y1 + 2 * y2 - 1 / 2 * y3) * u ^ 2 + (-y0 + 3 * y1 - 3 * y2 + y3) / 2 * u ^ 3

/-- The value of the message if there is one. -/
def valueOr (left : V) : Option (Msg V) → V
  | some z => z.value
  | none => left

/-- Interpolation of a history at time `g` with the two messages around `g`, the one before them and the one after them; `left` stands for
the value before the first message. -/
def hermiteAt (left : V) (h : List (Msg V)) (g : Nat) : Option V := do
  let a ← latestBefore h g
  let b ← firstFrom h g
  let e ← firstFrom h (b.time.toNat + 1)
  some (catmullRom (valueOr left (latestBefore h a.time.toNat)) a.value b.value e.value (((g - a.time.toNat : ℕ) : V) / ((b.time.toNat - a.time.toNat : ℕ) : V)))

/-- `n + m * time` is the least-squares line of the messages (normal equations). -/
structure LeastSquares (ms : List (Msg V)) (n m : V) : Prop where
  residuals : (ms.map fun x => n + m * (x.time.toNat : V) - x.value).sum = 0
  moments : (ms.map fun x => (x.time.toNat : V) * (n + m * (x.time.toNat : V) - x.value)).sum = 0

end Rtbot.Spec
