import Verif.Spec.Stream

/-! # Specification vocabulary: the times of emitted messages -/

namespace Rtbot.Spec
variable {V : Type}

/-- The messages for output port `q` in the results of a sequence of calls, in order. -/
def sent (q : Str) (rs : List (Except Err (OpMsg V))) : List (Msg V) :=
  rs.flatMap fun
    | .ok out => msgsOn q out
    | .error _ => []

/-- One of the calls hands the operator a data or control message with time `t`. -/
def Given (as : List (Act V)) (t : UInt64) : Prop := ∃ m p, m.time = t ∧ (.recvData p m ∈ as ∨ .recvCtrl p m ∈ as)

/-- The operators that give their messages times of their own: TimeShift, Difference and the resamplers. -/
def OwnTimes : Kind V → Prop
  | .timeShift _ _ | .difference _ | .constRes _ _ _ _ | .cosRes _ _ | .hermRes _ _ _ => True
  | _ => False

/-- The messages that a sequence of calls addresses to control port `p` of an operator: those naming `p`, and those naming no port when `p` is the
operator's only control port (`sole`). -/
def addressedCtrl (sole : Bool) (p : Str) (as : List (Act V)) : List (Msg V) :=
  as.filterMap fun
    | .recvCtrl q m => if q = p ∨ (q = [] ∧ sole = true) then some m else none
    | _ => none

end Rtbot.Spec
