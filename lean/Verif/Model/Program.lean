import Verif.Model.Engine

/-! # Program: receive and receiveDebug

Model of libs/api/include/rtbot/Program.h. Creation from a description is in `Model/Create`, serialization in `Model/Codec`. -/

namespace Rtbot
variable {V : Type} [Num V]

/-- Data members of `Program` (Program.h:17-20). The operators live in the heap of `st`; `ops` is `all_op`. -/
structure Prog (V : Type) where
  json : Str
  ops : Map Nat
  entry : Str
  filter : Map (List Str)
  st : St V

/-- The inner loop of `receiveDebug` (Program.h:108-114): the messages for one port. -/
def feedPort (fuel a : Nat) (port : Str) (ms : PortMsg V) (out : ProgMsg V) : M (St V) (ProgMsg V) :=
  M.fold (fun out m => do
    let r ← feed fuel a port m
    pure (if r = [] then out else mergeProg out r)) ms out

/-- The loops of `receiveDebug` (Program.h:105-117) once the entry operator has been looked up. -/
def feedAll (fuel a : Nat) (msgs : OpMsg V) : M (St V) (ProgMsg V) :=
  M.fold (fun out (pm : Str × PortMsg V) => feedPort fuel a pm.1 pm.2 out) msgs []

/-- `Program::receiveDebug` (Program.h:101-118). -/
def Prog.receiveDebug (fuel : Nat) (P : Prog V) (msgs : OpMsg V) : Res (Prog V) (ProgMsg V) :=
  match P.ops.find? P.entry with
  | none => .err (.exc .runtime) P
  | some a =>
    match feedAll fuel a msgs P.st with
    | .ok r s => .ok r { P with st := s }
    | .err e s => .err e { P with st := s }

/-- The loop over the ports of one filter entry (Program.h:80-89); `outResults` is `r`. -/
def filterPorts (id : Str) (r : OpMsg V) : List Str → ProgMsg V → ProgMsg V
  | [], out => out
  | p :: ps, out =>
    match r.find? p with
    | none => filterPorts id r ps out
    | some ms =>
      match out.find? id with
      | none => filterPorts id r ps (out.emplace id [(p, ms)])
      | some x => filterPorts id r ps (out.put id (mergeOp x [(p, ms)]))

/-- The loop over the output filter (Program.h:77-91). -/
def filterReport (r : ProgMsg V) : Map (List Str) → ProgMsg V → ProgMsg V
  | [], out => out
  | (id, ports) :: rest, out =>
    match r.find? id with
    | none => filterReport r rest out
    | some x => filterReport r rest (filterPorts id x ports out)

/-- `Program::receive` (Program.h:71-98). -/
def Prog.receive (fuel : Nat) (P : Prog V) (msgs : OpMsg V) : Res (Prog V) (ProgMsg V) :=
  match P.receiveDebug fuel msgs with
  | .err e P' => .err e P'
  | .ok r P' => .ok (if P'.filter = [] then r else filterReport r P'.filter []) P'

end Rtbot
