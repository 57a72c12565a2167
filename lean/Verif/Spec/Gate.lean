import Verif.Spec.Stream

/-! # Specification of the Input gate -/

namespace Rtbot.Spec
variable {V : Type}

/-- `t` is newer than the last forwarded time, if any. -/
def newer (last : Option UInt64) (t : UInt64) : Bool :=
  match last with
  | none => true
  | some l => l < t

/-- The strictly increasing records: messages newer than everything forwarded before. -/
def records : Option UInt64 → List (Msg V) → List (Msg V)
  | _, [] => []
  | last, m :: ms => if newer last m.time then m :: records (some m.time) ms else records last ms

/-- What a port of the gate forwards during a sequence of calls: at each execution the message received since the previous
execution (the latest, if several), if it is newer than everything forwarded before. `sole`: the port is the only one, so that a
message without port name is meant for it. -/
def gate (sole : Bool) (p : Str) : Option (Msg V) → Option UInt64 → List (Act V) → List (Msg V)
  | _, _, [] => []
  | pend, last, .recvData q m :: as => gate sole p (if q = p ∨ (q = [] ∧ sole = true) then some m else pend) last as
  | pend, last, .execData :: as =>
    match pend with
    | none => gate sole p none last as
    | some m => if newer last m.time then m :: gate sole p none (some m.time) as else gate sole p none last as
  | pend, last, _ :: as => gate sole p pend last as

/-- Feeding messages one at a time: receive, then execute. -/
def oneByOne (xs : List (Str × Msg V)) : List (Act V) := xs.flatMap fun x => [.recvData x.1 x.2, .execData]

end Rtbot.Spec
