import Verif.Model.Process

/-! # Specification vocabulary: histories, windows, feeding one operator -/

namespace Rtbot.Spec
variable {V : Type}

/-- The last `n` elements (all of them when there are fewer). -/
def lastN {α : Type} (n : Nat) (h : List α) : List α := h.drop (h.length - n)

/-- The messages of port "o1", nothing else. -/
def onO1 (ms : List (Msg V)) : OpMsg V := if ms = [] then [] else [(o1, ms)]

variable [Num V]

/-- One message: `receiveData` then `executeData`. -/
def step (o : Op V) (p : Str) (m : Msg V) : Res (Op V) (OpMsg V) :=
  match o.recvData m p with
  | .error e => .err e o
  | .ok o' => o'.execData

/-- Feed messages to one port one after the other; the result lists what each call hands to `emit`. -/
def feedOp (o : Op V) (p : Str) : List (Msg V) → Res (Op V) (List (OpMsg V))
  | [] => .ok [] o
  | m :: ms =>
    match step o p m with
    | .err e o' => .err e o'
    | .ok out o' =>
      match feedOp o' p ms with
      | .err e o'' => .err e o''
      | .ok outs o'' => .ok (out :: outs) o''

/-- The answers to a sequence of messages when the answer to each is a function of the earlier messages and the message itself. -/
def answers (f : List (Msg V) → Msg V → OpMsg V) : List (Msg V) → List (Msg V) → List (OpMsg V)
  | _, [] => []
  | h, m :: ms => f h m :: answers f (h ++ [m]) ms

/-- The operator answers every message sequence on port `p` without error, and what it emits at each message `m` is the
function `f h m` of the earlier messages `h` and of `m`. -/
def Computes (o : Op V) (p : Str) (f : List (Msg V) → Msg V → OpMsg V) : Prop :=
  ∀ ms : List (Msg V), ∃ o', feedOp o p ms = .ok (answers f [] ms) o'

/-- As `Computes`, for the sequences with property `P` only. -/
def ComputesOn (P : List (Msg V) → Prop) (o : Op V) (p : Str) (f : List (Msg V) → Msg V → OpMsg V) : Prop :=
  ∀ ms : List (Msg V), P ms → ∃ o', feedOp o p ms = .ok (answers f [] ms) o'

/-- The messages for port `q` in one answer. -/
def msgsOn (q : Str) (out : OpMsg V) : List (Msg V) :=
  match out.find? q with
  | some ms => ms
  | none => []

/-- All messages emitted on port `q`, in order. -/
def emittedOn (q : Str) (outs : List (OpMsg V)) : List (Msg V) := outs.flatMap (msgsOn q)

/-- Calls on a single operator. -/
inductive Act (V : Type)
  | recvData (p : Str) (m : Msg V)
  | recvCtrl (p : Str) (m : Msg V)
  | execData
  | execCtrl

/-- Effect of one call: the state afterwards, and the messages handed to `emit` or the error. -/
def act (o : Op V) : Act V → Op V × Except Err (OpMsg V)
  | .recvData p m => match o.recvData m p with
    | .ok o' => (o', .ok [])
    | .error e => (o, .error e)
  | .recvCtrl p m => match o.recvCtrl m p with
    | .ok o' => (o', .ok [])
    | .error e => (o, .error e)
  | .execData => match o.execData with
    | .ok out o' => (o', .ok out)
    | .err e o' => (o', .error e)
  | .execCtrl => match o.execCtrl with
    | .ok out o' => (o', .ok out)
    | .err e o' => (o', .error e)

/-- The state after a sequence of calls (exceptions are caught by the caller, who goes on). -/
def after (o : Op V) : List (Act V) → Op V
  | [] => o
  | a :: as => after (act o a).1 as

/-- The results of a sequence of calls. -/
def results (o : Op V) : List (Act V) → List (Except Err (OpMsg V))
  | [] => []
  | a :: as => (act o a).2 :: results (act o a).1 as

/-- Messages sent to data port `p` by a sequence of calls. -/
def sentTo (p : Str) (as : List (Act V)) : List (Msg V) :=
  as.filterMap fun
    | .recvData q m => if q = p then some m else none
    | _ => none

/-- Messages sent to control port `p` by a sequence of calls. -/
def ctrlTo (p : Str) (as : List (Act V)) : List (Msg V) :=
  as.filterMap fun
    | .recvCtrl q m => if q = p then some m else none
    | _ => none

/-- Strictly increasing timestamps. -/
def Increasing (ms : List (Msg V)) : Prop := ms.Pairwise fun a b => a.time < b.time

/-- The messages that a sequence of calls addresses to data port `p` of an operator: those naming `p`, and those naming no port
when `p` is the operator's only data port (`sole`). -/
def addressed (sole : Bool) (p : Str) (as : List (Act V)) : List (Msg V) :=
  as.filterMap fun
    | .recvData q m => if q = p ∨ (q = [] ∧ sole = true) then some m else none
    | _ => none

end Rtbot.Spec
