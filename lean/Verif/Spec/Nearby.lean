import Verif.Spec.Exact
import Verif.Spec.Timing

/-! # Related values at times in the same order

Two runs whose messages have times that correspond in order and values that are related, for instance by being at most as large, or by being close to each other. -/

namespace Rtbot.Spec
variable {V : Type}

/-- Messages at corresponding times with related values. -/
def ValMsg (R : UInt64 → UInt64 → Prop) (W : V → V → Prop) (m m' : Msg V) : Prop := R m.time m'.time ∧ W m.value m'.value

/-- Messages of an operator on the same ports, equally many, at corresponding times, with related values. -/
def ValOut (R : UInt64 → UInt64 → Prop) (W : V → V → Prop) (x x' : OpMsg V) : Prop := SameMap (List.Forall₂ (ValMsg R W)) x x'

/-- Reports with related messages of the same operators. -/
def ValReport (R : UInt64 → UInt64 → Prop) (W : V → V → Prop) (r r' : ProgMsg V) : Prop := SameMap (ValOut R W) r r'

/-- The operators that pass on or add up what they get. `TimeShift` and `ConstantResampler` need that the times of the two runs are the same. -/
def MonoKind [Num V] [Field V] [LinearOrder V] (R : UInt64 → UInt64 → Prop) : Kind V → Prop
  | .input _ _ | .output _ | .collector | .join _ | .add _ | .constant _ | .identity | .count _ | .cumSum _ | .movAvg | .variable _ _ | .composite _ _ | .pipeline _ _ _ => True
  | .binary .plus | .binary .and | .binary .or => True
  | .scale v => 0 ≤ v
  | .linear as | .fir as | .autoReg as => ∀ a ∈ as, 0 ≤ a
  | .timeShift _ _ | .constRes _ _ _ _ => ∀ t t', R t t' ↔ t = t'
  | _ => False

/-- The operators that do not enlarge the distance of two values. `TimeShift` and `ConstantResampler` need that the times of the two runs are the same. -/
def CalmKind [Num V] [Field V] [LinearOrder V] (R : UInt64 → UInt64 → Prop) : Kind V → Prop
  | .input _ _ | .output _ | .collector | .join _ | .add _ | .constant _ | .identity | .count _ | .movAvg | .variable _ _ | .composite _ _ | .pipeline _ _ _ => True
  | .scale v => |v| ≤ 1
  | .linear as | .fir as => (as.map fun a => |a|).sum ≤ 1
  | .timeShift _ _ | .constRes _ _ _ _ => ∀ t t', R t t' ↔ t = t'
  | _ => False

end Rtbot.Spec
