import Verif.Spec.Stream

/-! # Specification of synchronisation: common timestamps -/

namespace Rtbot.Spec
variable {V : Type}

/-- The timestamp `t` occurs in the stream. -/
def hasTime (t : UInt64) (s : List (Msg V)) : Bool := s.any fun m => m.time == t

/-- The timestamps that occur in every one of the streams, in the order of the first stream. -/
def commonTimes : List (List (Msg V)) → List UInt64
  | [] => []
  | s :: ss => (s.map (·.time)).filter fun t => ss.all (hasTime t)

/-- The messages of a stream at the given times. -/
def atTimes (ts : List UInt64) (s : List (Msg V)) : List (Msg V) := s.filter fun m => ts.contains m.time


end Rtbot.Spec

namespace Rtbot.Spec
variable {V : Type}

/-- The messages waiting in the buffer of data port `p`. -/
def buffered (o : Op V) (p : Str) : List (Msg V) :=
  match o.core.dataIn.find? p with
  | some i => i.data
  | none => []

/-- Calls that send data to the ports `ps` or execute. -/
def DataOnly (ps : List Str) : Act V → Prop
  | .recvData p _ => p ∈ ps
  | .recvCtrl _ _ => False
  | _ => True

instance (ps : List Str) (a : Act V) : Decidable (DataOnly ps a) := by
  cases a <;> unfold DataOnly <;> infer_instance

/-- The names "i1".."in" in numeric order. -/
def iPorts (n : Nat) : List Str := (List.range n).map fun k => iPort (k + 1)

end Rtbot.Spec
