import Verif.Model.Engine

/-! # Operators that never throw -/

namespace Rtbot.Spec
variable {V : Type} [Num V]

/-- The operator answers every message by itself: it is neither a Demultiplexer nor a Variable, whose answers depend on the times and values of control
messages, nor a ConstantResampler, which may not come to an end; a RelativeStrengthIndex looks at two messages at least, and a FiniteImpulseResponse or an
AutoRegressive has a coefficient, though not as many as there are sizes. -/
def Sturdy (o : Op V) : Prop :=
  match o.kind with
  | .demux _ | .variable _ _ | .constRes _ _ _ _ => False
  | .rsi _ => ∀ e ∈ o.core.dataIn, 2 ≤ e.2.max
  | .fir as => as ≠ []
  | .autoReg as => as ≠ [] ∧ as.length < 2 ^ 64 - 1
  | _ => True

end Rtbot.Spec
