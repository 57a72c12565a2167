import Verif.Spec.Grid

/-! # Specification of Variable: a history of data and one pending query -/

namespace Rtbot.Spec
variable {V : Type}

/-- Data received so far and the query that waits for an answer. -/
structure VarSt (V : Type) where
  data : List (Msg V)
  pending : Option (Msg V)

/-- The answer to query time `t` given the data so far: nothing while every message is older than `t` or there is none; the default
when the first message is newer than `t`; otherwise the value of the latest message at or before `t`. -/
def varAnswer (dflt : V) (data : List (Msg V)) (t : UInt64) : Option V :=
  match data.head? with
  | none => none
  | some a =>
    if t < a.time then some dflt
    else if data.any fun m => t ≤ m.time then (latestAt data t.toNat).map (·.value)
    else none

/-- One call: data and queries are recorded (a newer query takes the place of one that waits), and at each execution the
pending query is answered if possible. -/
def varStep (dflt : V) (s : VarSt V) : Act V → VarSt V × OpMsg V
  | .recvData _ m => ({ s with data := s.data ++ [m] }, [])
  | .recvCtrl _ q => ({ s with pending := some q }, [])
  | _ =>
    match s.pending with
    | none => (s, [])
    | some q =>
      match varAnswer dflt s.data q.time with
      | none => (s, [])
      | some v => ({ s with pending := none }, [(o1, [⟨q.time, v⟩])])

/-- Outputs of a sequence of calls. -/
def varRun (dflt : V) : VarSt V → List (Act V) → List (OpMsg V)
  | _, [] => []
  | s, a :: as => (varStep dflt s a).2 :: varRun dflt (varStep dflt s a).1 as

/-- Calls that name the operator's ports (or leave them to be deduced). -/
def ValidPort (data ctrl : Str) : Act V → Prop
  | .recvData p _ => p = data ∨ p = []
  | .recvCtrl p _ => p = ctrl ∨ p = []
  | _ => True

/-- All data messages of a sequence of calls. -/
def dataOf (as : List (Act V)) : List (Msg V) :=
  as.filterMap fun
    | .recvData _ m => some m
    | _ => none

/-- All control messages of a sequence of calls. -/
def ctrlOf (as : List (Act V)) : List (Msg V) :=
  as.filterMap fun
    | .recvCtrl _ m => some m
    | _ => none

end Rtbot.Spec
