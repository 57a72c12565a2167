import Verif.Spec.Stream
import Verif.Spec.Exact

/-! # Specification vocabulary: means, deviations -/

namespace Rtbot.Spec

/-- The values of messages. -/
def values {V : Type} (ms : List (Msg V)) : List V := ms.map (·.value)

/-- Arithmetic mean. -/
def mean {V : Type} [Field V] (xs : List V) : V := xs.sum / (xs.length : V)

/-- Sample standard deviation (Bessel corrected). -/
noncomputable def sampleStdDev (xs : List ℝ) : ℝ :=
  Real.sqrt ((xs.map fun x => (x - mean xs) ^ 2).sum / ((xs.length : ℝ) - 1))

end Rtbot.Spec
