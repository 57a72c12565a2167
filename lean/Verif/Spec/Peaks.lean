import Verif.Spec.Trail
import Verif.Spec.Sync
import Verif.Spec.Numeric

/-! # Specification vocabulary: peaks of a stream -/

namespace Rtbot.Spec
variable {V : Type}

/-- The messages in the middle of a run of `n` successive ones none of which has a larger value, in order. -/
def peaks [Num V] (n : Nat) (ms : List (Msg V)) : List (Msg V) :=
  (windows n ms).filterMap fun w => w[n / 2]?.filter fun mid => w.all fun x => !Num.lt mid.value x.value

/-- For each run of `N` successive messages the mean of its last `n` values minus the mean of all, at the time of the last. -/
def crossing [Field V] (n N : Nat) (ms : List (Msg V)) : List (Msg V) :=
  trail N (fun w => mean (w.drop (N - n)) - mean w) ms

end Rtbot.Spec
