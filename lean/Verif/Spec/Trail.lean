import Verif.Spec.Stream

/-! # Specification vocabulary: functions of sliding windows -/

namespace Rtbot.Spec
variable {V : Type}

/-- The runs of `n` successive messages, in order. -/
def windows (n : Nat) (ms : List (Msg V)) : List (List (Msg V)) := (List.range (ms.length + 1 - n)).map fun i => (ms.drop i).take n

/-- For each run of `n` successive messages the time of its last one and the value of `g`. -/
def trail (n : Nat) (g : List V → V) (ms : List (Msg V)) : List (Msg V) :=
  (windows n ms).filterMap fun w => w.getLast?.map fun m => ⟨m.time, g (w.map (·.value))⟩

end Rtbot.Spec
