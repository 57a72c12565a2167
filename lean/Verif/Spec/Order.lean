import Verif.Spec.Times

/-! # Specification vocabulary: messages in the order of time -/

namespace Rtbot.Spec
variable {V : Type}

/-- The messages addressed to each data port and to each control port have strictly increasing times. -/
def InOrder (o : Op V) (as : List (Act V)) : Prop :=
  (∀ p, o.core.dataIn.has p = true → Increasing (addressed (o.core.dataIn.length == 1) p as)) ∧
  ∀ p, o.core.ctrlIn.has p = true → Increasing (addressedCtrl (o.core.ctrlIn.length == 1) p as)

/-- None of the messages is so late that a time `dt` after it cannot be represented. -/
def NoOverflow (dt : UInt64) (ms : List (Msg V)) : Prop := ∀ x ∈ ms, x.time.toNat + dt.toNat < 2 ^ 64

/-- Each message comes at least `dt` after the one before. -/
def Apart (dt : UInt64) (ms : List (Msg V)) : Prop := ∀ pre a b post, ms = pre ++ a :: b :: post → a.time.toNat + dt.toNat ≤ b.time.toNat

/-- Shifting by `d` (modulo 2^64, so large `d` stand for negative shifts) carries all the messages forward without overflow or all of them back
without underflow, and `d` is not 0. -/
def Shiftable (d : UInt64) (ms : List (Msg V)) : Prop :=
  0 < d ∧ (NoOverflow d ms ∨ ∀ x ∈ ms, 2 ^ 64 ≤ x.time.toNat + d.toNat)

/-- Between two calls of `executeData` a message is addressed to port "i1". -/
def OneExecPerMsg (as : List (Act V)) : Prop :=
  ∀ pre mid post, as = pre ++ .execData :: mid ++ .execData :: post → addressed true i1 mid ≠ []

/-- What has to hold for the operators that give messages times of their own, and for AutoRegressive, in order that they emit in the order of time. -/
def OrderCond [Num V] : Kind V → List (Act V) → Prop
  | .difference true, as => ∀ x ∈ addressed true i1 as, Num.toTime (ofTime x.time : V) = some x.time
  | .difference false, _ => False
  | .timeShift dt n, as => Shiftable (dt * UInt64.ofInt n) (addressed true i1 as)
  | .constRes dt _ _ _, as | .cosRes dt _, as => NoOverflow dt (addressed true i1 as)
  | .hermRes dt _ _, as => NoOverflow dt (addressed true i1 as) ∧ Apart dt (addressed true i1 as)
  | .autoReg _, as => OneExecPerMsg as
  | _, _ => True

end Rtbot.Spec
