import Verif.Model.Create

/-! # The registry of programs

Model of libs/api/include/rtbot/FactoryOp.h, the end of libs/api/src/FactoryOp.cpp and libs/api/src/bindings.cpp. The objects of different
programs are disjoint in memory (`Program` owns its operators by `unique_ptr`, connections are only made between operators of one program,
and there are no global variables besides the registry), so every program of the model has a heap of its own. -/

namespace Rtbot
variable {V : Type} [Num V]

/-- Data members of `FactoryOp` (FactoryOp.h:17-18). -/
structure Factory (V : Type) where
  programs : Map (Prog V)
  buffer : Map (OpMsg V)

/-- The registry after the static initialisation. -/
def Factory.empty : Factory V := ⟨[], []⟩

/-- `FactoryOp::serialize` (FactoryOp.cpp:432-435). -/
def Factory.serialize (F : Factory V) (id : Str) : Res (Factory V) Bytes :=
  match F.programs.find? id with
  | none => .err (.exc .runtime) F
  | some P => match P.serialize with
    | .error e => .err e F
    | .ok bs => .ok bs F

/-- `FactoryOp::createProgram(id, bytes)` (FactoryOp.cpp:437-441). -/
def Factory.createBytes (parse : Parser V) (junk : Junk V) (F : Factory V) (id : Str) (bytes : Bytes) : Res (Factory V) Str :=
  if F.programs.has id then .err (.exc .runtime) F
  else match Prog.ofBytes parse junk bytes with
    | .error e => .err e F
    | .ok P => .ok id { F with programs := F.programs.emplace id P }

/-- `FactoryOp::createProgram(id, json)` (FactoryOp.cpp:443-454). The program is constructed before `emplace` looks for the id. A
`parse_error` becomes a text, here `none`; other exceptions propagate. -/
def Factory.createJson (parse : Parser V) (junk : Junk V) (F : Factory V) (id : Str) (json : Str) : Res (Factory V) (Option Str) :=
  match Prog.create parse junk json with
  | .error (.exc .jsonParse) => .ok none F
  | .error e => .err e F
  | .ok P => .ok (some []) { F with programs := F.programs.emplace id P }

/-- `FactoryOp::deleteProgram` (FactoryOp.h:66). -/
def Factory.delete (F : Factory V) (id : Str) : Res (Factory V) Bool :=
  .ok (F.programs.has id) { F with programs := F.programs.erase id }

/-- `messageBuffer[apId]`, which inserts an empty map when there is none. -/
def Factory.buffered (F : Factory V) (id : Str) : OpMsg V :=
  match F.buffer.find? id with
  | none => []
  | some x => x

/-- `[portId].push_back(msg)`. -/
def pushMsg (x : OpMsg V) (port : Str) (m : Msg V) : OpMsg V :=
  match x.find? port with
  | none => x.put port [m]
  | some ms => x.put port (ms ++ [m])

/-- `FactoryOp::addToMessageBuffer` (FactoryOp.h:68-72). -/
def Factory.add (F : Factory V) (id port : Str) (m : Msg V) : Res (Factory V) Bool :=
  if F.programs.has id then .ok true { F with buffer := F.buffer.put id (pushMsg (F.buffered id) port m) }
  else .err (.exc .runtime) F

/-- `Program::receive` or `Program::receiveDebug`. -/
def Prog.answer (debug : Bool) (fuel : Nat) (P : Prog V) (msgs : OpMsg V) : Res (Prog V) (ProgMsg V) :=
  if debug then P.receiveDebug fuel msgs else P.receive fuel msgs

/-- `FactoryOp::processMessageMap` and `processMessageMapDebug` (FactoryOp.h:115-127). -/
def Factory.processMap (debug : Bool) (fuel : Nat) (F : Factory V) (id : Str) (msgs : OpMsg V) : Res (Factory V) (ProgMsg V) :=
  match F.programs.find? id with
  | none => .ok [] F
  | some P => match P.answer debug fuel msgs with
    | .err e P' => .err e { F with programs := F.programs.put id P' }
    | .ok r P' => .ok r { F with programs := F.programs.put id P' }

/-- `FactoryOp::processMessageBuffer` and `processMessageBufferDebug` (FactoryOp.h:74-98). -/
def Factory.processBuffer (debug : Bool) (fuel : Nat) (F : Factory V) (id : Str) : Res (Factory V) (ProgMsg V) :=
  if F.programs.has id then
    match F.buffer.find? id with
    | none => .ok [] F
    | some [] => .ok [] F
    | some msgs => match F.processMap debug fuel id msgs with
      | .err e F' => .err e F'
      | .ok r F' => .ok r { F' with buffer := F'.buffer.erase id }
  else .err (.exc .runtime) F

/-- `FactoryOp::getProgramEntryOperatorId` (FactoryOp.h:100-103, Program.h:58). -/
def Factory.entryId (F : Factory V) (id : Str) : Res (Factory V) Str :=
  match F.programs.find? id with
  | none => .err (.exc .runtime) F
  | some P => .ok P.entry F

/-- `Program::getProgramEntryPorts` (Program.h:60-66). -/
def Prog.entryPorts (P : Prog V) : Except Err (List Str) :=
  if P.entry = [] then throwExc .runtime
  else match P.ops.find? P.entry with
    | none => throwExc .runtime
    | some a => match P.st.heap a with
      | none => undefined .dangling
      | some o => .ok o.core.dataIn.keys

/-- `FactoryOp::getProgramEntryPorts` (FactoryOp.h:105-108). -/
def Factory.entryPorts (F : Factory V) (id : Str) : Res (Factory V) (List Str) :=
  match F.programs.find? id with
  | none => .err (.exc .runtime) F
  | some P => match P.entryPorts with
    | .error e => .err e F
    | .ok ps => .ok ps F

/-- `FactoryOp::getProgramOutputFilter` (FactoryOp.h:110-113, Program.h:68). -/
def Factory.outputFilter (F : Factory V) (id : Str) : Res (Factory V) (Map (List Str)) :=
  match F.programs.find? id with
  | none => .err (.exc .runtime) F
  | some P => .ok P.filter F

/-! ## Batches -/

/-- The loop of `addBatchToMessageBuffers` (bindings.cpp:162-167). -/
def Factory.addAll (F : Factory V) (id : Str) : List (UInt64 × V × Str) → Res (Factory V) Unit
  | [] => .ok () F
  | (t, v, port) :: rest => match F.add id port ⟨t, v⟩ with
    | .err e F' => .err e F'
    | .ok _ F' => F'.addAll id rest

/-- `addBatchToMessageBuffers` (bindings.cpp:156-168). -/
def Factory.addBatch (F : Factory V) (id : Str) (times : List UInt64) (values : List V) (ports : List Str) : Res (Factory V) Unit :=
  if times.length ≠ values.length ∨ times.length ≠ ports.length ∨ values.length ≠ ports.length then .err (.exc .runtime) F
  else F.addAll id (times.zip (values.zip ports))

/-- `processBatch` and `processBatchDebug` (bindings.cpp:170-196). -/
def Factory.batch (debug : Bool) (fuel : Nat) (F : Factory V) (id : Str) (times : List UInt64) (values : List V) (ports : List Str) :
    Res (Factory V) (ProgMsg V) :=
  match F.addBatch id times values ports with
  | .err e F' => .err e F'
  | .ok _ F' => F'.processBuffer debug fuel id

/-- `createProgram` of the bindings (bindings.cpp:104-112). The argument stands for `validate`, which checks the text against a JSON schema and
never throws; when it returns a text that text is the answer. -/
def Factory.createChecked (valid : Str → Option Str) (parse : Parser V) (junk : Junk V) (F : Factory V) (id : Str) (json : Str) :
    Res (Factory V) (Option Str) :=
  match valid json with
  | some t => .ok (some t) F
  | none => F.createJson parse junk id json

/-! ## All calls -/

/-- What does not depend on the registry: the parser and the schema check. -/
structure Env (V : Type) where
  parse : Parser V
  valid : Str → Option Str
  fuel : Nat

/-- The calls of the interface. Those that create operators carry the contents of uninitialised memory. -/
inductive Req (V : Type)
  | serialize (id : Str)
  | createBytes (junk : Junk V) (id : Str) (bytes : Bytes)
  | createJson (junk : Junk V) (id : Str) (json : Str)
  | createChecked (junk : Junk V) (id : Str) (json : Str)
  | delete (id : Str)
  | add (id port : Str) (m : Msg V)
  | processBuffer (debug : Bool) (id : Str)
  | processMap (debug : Bool) (id : Str) (msgs : OpMsg V)
  | batch (debug : Bool) (id : Str) (times : List UInt64) (values : List V) (ports : List Str)
  | entryId (id : Str)
  | entryPorts (id : Str)
  | outputFilter (id : Str)

/-- What a call returns. -/
inductive Reply (V : Type)
  | bytes (b : Bytes)
  | text (t : Str)
  | notParsed
  | flag (b : Bool)
  | report (r : ProgMsg V)
  | ports (ps : List Str)
  | filter (f : Map (List Str))

/-- Turn the result of a call into a reply. -/
def Res.as {σ α β : Type} (f : α → β) : Res σ α → Res σ β
  | .ok a s => .ok (f a) s
  | .err e s => .err e s

/-- The reply of `createProgram`. -/
def Reply.ofCreate : Option Str → Reply V
  | none => .notParsed
  | some t => .text t

/-- Serve a call. -/
def Factory.serve (env : Env V) (F : Factory V) : Req V → Res (Factory V) (Reply V)
  | .serialize id => (F.serialize id).as .bytes
  | .createBytes junk id bytes => (F.createBytes env.parse junk id bytes).as .text
  | .createJson junk id json => (F.createJson env.parse junk id json).as Reply.ofCreate
  | .createChecked junk id json => (F.createChecked env.valid env.parse junk id json).as Reply.ofCreate
  | .delete id => (F.delete id).as .flag
  | .add id port m => (F.add id port m).as .flag
  | .processBuffer debug id => (F.processBuffer debug env.fuel id).as .report
  | .processMap debug id msgs => (F.processMap debug env.fuel id msgs).as .report
  | .batch debug id ts vs ps => (F.batch debug env.fuel id ts vs ps).as .report
  | .entryId id => (F.entryId id).as .text
  | .entryPorts id => (F.entryPorts id).as .ports
  | .outputFilter id => (F.outputFilter id).as .filter

end Rtbot
