import Verif.Model.Process

/-! # The message propagation engine

Operators live in a heap; pointers are addresses. `exec` is `executeData`/`executeControl` including `emit`. The recursion
`emit → executeData → emit` need not terminate (feedback loops), hence a fuel argument that counts nested calls; running out of
fuel is the distinct outcome `Err.diverge`. The state carries a ghost log of what happens, which no definition reads. -/

namespace Rtbot
variable {V : Type} [Num V]

/-- Ghost events. `depth` counts the pipelines whose inner operators are being executed. -/
inductive Ev (V : Type)
  /-- operator at address `a` with the given id emits `m` on `port` -/
  | emit (depth : Nat) (a : Nat) (id port : Str) (m : Msg V)
  /-- `m` is handed to input `port` of `a`; `frm` is the connection source (address, output port) or `none` for a forwarded or
  external message -/
  | recv (frm : Option (Nat × Str)) (a : Nat) (port : Str) (ctrl : Bool) (m : Msg V)
  /-- `executeData` / `executeControl` is called on `a` -/
  | exec (a : Nat) (ctrl : Bool)

/-- Heap of operators plus ghost state. -/
structure St (V : Type) where
  heap : Nat → Option (Op V)
  depth : Nat
  log : List (Ev V)

/-- Overwrite one cell. -/
def St.setOp (s : St V) (a : Nat) (o : Op V) : St V :=
  { s with heap := fun b => if b = a then some o else s.heap b }

/-- Ghost: append an event. -/
def logEv (e : Ev V) : M (St V) Unit := fun s => .ok () { s with log := s.log ++ [e] }

/-- Dereference a pointer. -/
def getOp (a : Nat) : M (St V) (Op V) := fun s =>
  match s.heap a with
  | some o => .ok o s
  | none => .err (.ub .dangling) s

/-- Run a method of the object at `a` that only touches that object; its changes survive an exception. -/
def localRun {α : Type} (a : Nat) (f : Op V → Res (Op V) α) : M (St V) α := fun s =>
  match s.heap a with
  | none => .err (.ub .dangling) s
  | some o =>
    match f o with
    | .ok x o' => .ok x (s.setOp a o')
    | .err e o' => .err e (s.setOp a o')

/-- View an `Except` valued update as a method (no change on error). -/
def updWith (f : Op V → Except Err (Op V)) (o : Op V) : Res (Op V) Unit :=
  match f o with
  | .ok o' => .ok () o'
  | .error e => .err e o

/-- Sequential loop with accumulator. -/
def M.fold {σ α β : Type} (f : β → α → M σ β) : List α → β → M σ β
  | [], b => pure b
  | x :: xs, b => do
    let b' ← f b x
    M.fold f xs b'

/-! ## mergeOutput -/

/-- `mergeOutput(OperatorMessage&, OperatorMessage const&)` (Operator.h:640-645). -/
def mergeOp : OpMsg V → OpMsg V → OpMsg V
  | out, [] => out
  | out, (p, ms) :: rest =>
    let old := match out.find? p with
      | some l => l
      | none => []
    mergeOp (out.put p (old ++ ms)) rest

/-- `mergeOutput(ProgramMessage&, ProgramMessage const&)` (Operator.h:633-638). -/
def mergeProg : ProgMsg V → ProgMsg V → ProgMsg V
  | out, [] => out
  | out, (id, x) :: rest =>
    let old := match out.find? id with
      | some l => l
      | none => []
    mergeProg (out.put id (mergeOp old x)) rest

/-! ## Pipeline helpers -/

/-- `split2(s, ':')` (Pipeline.h:70-76): the parts before and after the first colon. (`getline(is, word2, char(0))` stops at a NUL
byte; strings with NUL bytes are not distinguished here.) -/
def split2 : Str → Str × Str
  | [] => ([], [])
  | c :: s => if c = 58 then ([], s) else let (a, b) := split2 s; (c :: a, b)

/-- Port resolution of `Pipeline::receiveData` (Pipeline.h:40-43). -/
def pipelinePort (inputs : Map Nat) (portsMap : Map Str) (p : Str) : Except Err Str :=
  if p = [] ∧ inputs.length = 1 then
    match inputs with
    | (k, _) :: _ => .ok k
    | [] => throwExc .outOfRange
  else match portsMap.find? p with
    | some q => .ok q
    | none => throwExc .outOfRange

/-- The translation of inner results to pipeline outputs (Pipeline.h:60-63). -/
def pipelineOutput (outputs : Map Nat) (portsMap : Map Str) : List (Str × Str × PortMsg V) → OpMsg V → Except Err (OpMsg V)
  | [], out => .ok out
  | (id, port, v) :: rest, out =>
    let key := id ++ [58] ++ port
    if outputs.has key then
      match portsMap.find? key with
      | some q => pipelineOutput outputs portsMap rest (out.emplace q v)
      | none => throwExc .outOfRange
    else pipelineOutput outputs portsMap rest out

/-- All (id, port, messages) of a report in iteration order. -/
def flatten (r : ProgMsg V) : List (Str × Str × PortMsg V) :=
  r.flatMap fun (id, op) => op.map fun (p, v) => (id, p, v)

/-! ## receiveData / receiveControl on the heap -/

/-- Virtual `receiveData` (Operator.h:394, Composite.h:305-310, Pipeline.h:39-47). -/
def recvData : Nat → Option (Nat × Str) → Nat → Msg V → Str → M (St V) Unit
  | 0, _, _, _, _ => M.throw .diverge
  | fuel + 1, frm, a, m, p => do
    logEv (.recv frm a p false m)
    let o ← getOp a
    match o.kind with
    | .composite (some i) _ => recvData fuel none i m p
    | .composite none _ => M.throw (.exc .runtime)
    | .pipeline inputs _ pm => do
      let key ← M.lift (pipelinePort inputs pm p)
      match inputs.find? key with
      | none => M.throw (.exc .outOfRange)
      | some t => do
        recvData fuel none t m (split2 key).2
        localRun a fun o => .ok () { o with core := { o.core with toProcess := setInsert o.core.toProcess key } }
    | _ => localRun a (updWith fun o => o.recvData m p)

/-- Virtual `receiveControl` (Operator.h:432, Composite.h:319-324). -/
def recvCtrl : Nat → Option (Nat × Str) → Nat → Msg V → Str → M (St V) Unit
  | 0, _, _, _, _ => M.throw .diverge
  | fuel + 1, frm, a, m, p => do
    logEv (.recv frm a p true m)
    let o ← getOp a
    match o.kind with
    | .composite (some i) _ => recvCtrl fuel none i m p
    | .composite none _ => M.throw (.exc .runtime)
    | _ => localRun a (updWith fun o => o.recvCtrl m p)

/-! ## emit -/

/-- First loop of `emit` (Operator.h:479-485): hand the message to one connection. -/
def deliver (fuel : Nat) (src : Nat × Str) (m : Msg V) (_ : Unit) (c : Conn) : M (St V) Unit := do
  let t ← getOp c.target
  if t.core.isData c.port then recvData fuel (some src) c.target m c.port
  else if t.core.isCtrl c.port then recvCtrl fuel (some src) c.target m c.port
  else pure ()

/-- Second loop of `emit` (Operator.h:486-492): execute one connected operator and merge its results. `ex ctrl a` is
`executeData`/`executeControl` of the operator at `a`. -/
def trigger (ex : Bool → Nat → M (St V) (ProgMsg V)) (out : ProgMsg V) (c : Conn) : M (St V) (ProgMsg V) := do
  let t ← getOp c.target
  if t.core.isData c.port then do
    let r ← ex false c.target
    pure (mergeProg out r)
  else if t.core.isCtrl c.port then do
    let r ← ex true c.target
    pure (mergeProg out r)
  else pure out

/-- `emit(Message, {port})` (Operator.h:466-497). Simplified to the single port that every caller passes. -/
def emitMsg (ex : Bool → Nat → M (St V) (ProgMsg V)) (fuel : Nat) (a : Nat) (port : Str) (m : Msg V) :
    M (St V) (ProgMsg V) := do
  let o ← getOp a
  let s ← M.get
  logEv (.emit s.depth a o.core.id port m)
  let out : ProgMsg V := [(o.core.id, [(port, [m])])]
  match o.core.outputs.find? port with
  | none => pure out
  | some conns => do
    M.fold (deliver fuel (a, port) m) conns ()
    M.fold (trigger ex) conns out

/-- `emit(PortMessage, {port})` (Operator.h:499-505). -/
def emitPort (ex : Bool → Nat → M (St V) (ProgMsg V)) (fuel : Nat) (a : Nat) (port : Str) (ms : PortMsg V) :
    M (St V) (ProgMsg V) :=
  M.fold (fun out m => do
    let r ← emitMsg ex fuel a port m
    pure (mergeProg out r)) ms []

/-- `emit(OperatorMessage)` (Operator.h:507-516). -/
def emitOp (ex : Bool → Nat → M (St V) (ProgMsg V)) (fuel : Nat) (a : Nat) (msgs : OpMsg V) : M (St V) (ProgMsg V) :=
  M.fold (fun out (pm : Str × PortMsg V) => do
    let o ← getOp a
    if o.core.outIds.contains pm.1 then do
      let r ← emitPort ex fuel a pm.1 pm.2
      pure (mergeProg out r)
    else M.throw (.exc .badPort)) msgs []

/-- One iteration of the loop of `Pipeline::executeData` (Pipeline.h:51-54). -/
def pipelineStep (ex : Bool → Nat → M (St V) (ProgMsg V)) (inputs : Map Nat) (out : ProgMsg V) (key : Str) :
    M (St V) (ProgMsg V) :=
  match inputs.find? key with
  | none => M.throw (.exc .outOfRange)
  | some t => do
    let r ← ex false t
    pure (mergeProg out r)

/-- Ghost: change the pipeline depth. -/
def setDepth (d : Nat) : M (St V) Unit := fun s => .ok () { s with depth := d }

/-- Virtual `executeData` (`ctrl = false`) and `executeControl` (`ctrl = true`) including `emit` (Operator.h:417-430, 456-462 and
the overrides cited in `Model/Process`, Composite.h:312-317, 326-331, Pipeline.h:49-65).
The loop of the pipeline runs over the set `toProcess` as it is at the beginning: its inner operators are connected only
among themselves, so they cannot change it. -/
def exec : Nat → Bool → Nat → M (St V) (ProgMsg V)
  | 0, _, _ => M.throw .diverge
  | fuel + 1, ctrl, a => do
    logEv (.exec a ctrl)
    let o ← getOp a
    match o.kind with
    | .composite (some i) _ => exec fuel ctrl i
    | .composite none _ => M.throw (.exc .runtime)
    | .pipeline inputs outputs pm =>
      if ctrl then pure []
      else do
        let s ← M.get
        setDepth (s.depth + 1)
        let r ← M.fold (pipelineStep (exec fuel) inputs) o.core.toProcess []
        setDepth s.depth
        localRun a fun o => .ok () { o with core := { o.core with toProcess := [] } }
        if r = [] then pure []
        else do
          let out ← M.lift (pipelineOutput outputs pm (flatten r) [])
          emitOp (exec fuel) fuel a out
    | _ => do
      let out ← localRun a (if ctrl then Op.execCtrl else Op.execData)
      emitOp (exec fuel) fuel a out

/-! ## connect -/

/-- `Operator::connect` (Operator.h:599-631) on the members of the two operators; `none` is the `nullptr` result. -/
def Core.connect (c child : Core V) (target : Nat) (outPort inPort : Str) : Except Err (Option (Core V)) :=
  let out := c.outIds
  let inp := child.allInputs
  let outPort := if outPort = [] then (match out with | [p] => p | _ => outPort) else outPort
  let inPort := if inPort = [] then (match inp with | [p] => if child.isData p then p else inPort | _ => inPort) else inPort
  if inPort = [] then throwExc .runtime
  else if outPort = [] then throwExc .runtime
  else if out.contains outPort && inp.contains inPort then
    let conn : Conn := ⟨target, inPort⟩
    match c.outputs.find? outPort with
    | none => .ok (some { c with outputs := c.outputs.emplace outPort [conn] })
    | some v => .ok (some { c with outputs := c.outputs.put outPort (v ++ [conn]) })
  else .ok none

/-- `Operator::connect` as a method of the operator: `true` when it returns the operator, `false` for `nullptr`. -/
def Op.connect (child : Core V) (target : Nat) (outPort inPort : Str) (o : Op V) : Res (Op V) Bool :=
  match o.core.connect child target outPort inPort with
  | .error e => .err e o
  | .ok none => .ok false o
  | .ok (some c) => .ok true { o with core := c }

/-- Virtual `connect` on the heap; Composite forwards to its output operator (Composite.h:337-351), whose `connect` is the base one. -/
def connectOp (a child : Nat) (outPort inPort : Str) : M (St V) Bool := do
  let o ← getOp a
  let t ← getOp child
  match o.kind with
  | .composite _ (some q) => localRun q (Op.connect t.core child outPort inPort)
  | .composite _ none => M.throw (.exc .runtime)
  | _ => localRun a (Op.connect t.core child outPort inPort)

/-- One call of the program loop body: `entry->receiveData(msg, port); entry->executeData()` (Program.h:109-110). -/
def feed (fuel : Nat) (a : Nat) (port : Str) (m : Msg V) : M (St V) (ProgMsg V) := do
  recvData fuel none a m port
  exec fuel false a

end Rtbot
