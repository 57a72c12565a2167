import Verif.Spec.Sync
import Verif.Spec.Exact

/-! # Specification of the operators on synchronised values -/

namespace Rtbot.Spec
variable {V : Type} [Field V] [LinearOrder V]

/-- The value a binary stream operator gives for a matched pair; `none`: no message. -/
def pairValue : BinOp → V → V → Option V
  | .plus, a, b => some (a + b)
  | .minus, a, b => some (a - b)
  | .mul, a, b => some (a * b)
  | .div, a, b => if b = 0 then none else some (a / b)
  | .and, a, b => some (if 1 / 2 ≤ a ∧ 1 / 2 ≤ b then 1 else 0)
  | .or, a, b => some (if 1 / 2 ≤ a ∨ 1 / 2 ≤ b then 1 else 0)
  | .gtStream, a, b => if b < a then some a else none
  | .ltStream, a, b => if a < b then some a else none

/-- The messages for matched pairs. -/
def pairs (f : V → V → Option V) (as bs : List (Msg V)) : List (Msg V) :=
  (as.zip bs).filterMap fun x => (f x.1.value x.2.value).map fun v => ⟨x.1.time, v⟩

/-- `c1*x1 + ... + cN*xN`. -/
def dot (cs xs : List V) : V := ((cs.zip xs).map fun x => x.1 * x.2).sum

/-- The linear combination at time `t` of streams that all have a message at `t` (`none` otherwise). -/
def combineAt (cs : List V) (ss : List (List (Msg V))) (t : UInt64) : Option (Msg V) :=
  (ss.mapM fun s : List (Msg V) => s.find? fun m => m.time == t).map fun ms => ⟨t, dot cs (ms.map (·.value))⟩

end Rtbot.Spec
