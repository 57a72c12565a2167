import Verif.Model.Factory
import Verif.Model.Schema

/-! # The JavaScript wrapper

Model of libs/wrappers/javascript/src/program.ts and api.ts.

Simplifications. Methods that wait for the library (`async`) are not interleaved with others. Attributes of a program that are texts are texts, as their types
say. The operator classes are generated (tools/generator/templates/typescript.hbs) and check their arguments with a library that is not in /repo; here an
operator is any object with an id, a type and the value that is written for it. Every exception is `Exc.runtime`. The callback for the progress and the printing
are left out. -/

namespace Rtbot
variable {V : Type} [Num V]

/-- `Operator` (program.ts:135-153): the id, the type and what `instanceToPlain` makes of it; the reference to the program is excluded (line 141). -/
structure JsOp (V : Type) where
  id : Str
  type : Str
  plain : Json V

/-- `Connection` (program.ts:119-121). -/
structure JsConn where
  src : Str
  dst : Str
  out : Str
  inp : Str
  deriving DecidableEq

/-- `Program` (program.ts:9-25); `none` is `undefined`. -/
structure JsProgram (V : Type) where
  operators : List (JsOp V)
  connections : List JsConn
  programId : Str
  defaultPort : Option Str
  entryOperator : Option Str
  title : Option Str
  description : Option Str
  date : Option Str
  author : Option Str
  license : Option Str
  apiVersion : Str

/-- `constructor` (program.ts:15-25); the id is random. -/
def JsProgram.new (id : Str) (entryOperator title description date author license : Option Str) (apiVersion : Str := b!"v1") : JsProgram V :=
  { operators := [], connections := [], programId := id, defaultPort := none, entryOperator, title, description, date, author, license, apiVersion }

/-- `addOperator` (program.ts:49-55). -/
def JsProgram.addOperator (p : JsProgram V) (op : JsOp V) : JsProgram V :=
  { p with operators := p.operators ++ [op], entryOperator := if op.type = b!"Input" then some op.id else p.entryOperator }

/-- `deleteOperator` (program.ts:57-60). -/
def JsProgram.deleteOperator (p : JsProgram V) (id : Str) : JsProgram V :=
  { p with operators := p.operators.filter fun op => op.id ≠ id, connections := p.connections.filter fun c => c.src ≠ id ∧ c.dst ≠ id }

/-- `deleteConnection` (program.ts:62-67); the defaults of the ports are "o1" and "i1". -/
def JsProgram.deleteConnection (p : JsProgram V) (c : JsConn) : JsProgram V :=
  { p with connections := p.connections.filter fun d => ¬ (d.src ≠ c.src ∧ d.dst ≠ c.dst ∧ d.out ≠ c.out ∧ d.inp ≠ c.inp) }

/-- `addConnection` (program.ts:69-83); of the operators only the ids are used. -/
def JsProgram.addConnection (p : JsProgram V) (c : JsConn) : Except Err (JsProgram V) :=
  if p.operators.any fun op => op.id == c.src then
    if p.operators.any fun op => op.id == c.dst then
      if p.connections.any fun d => d == c then throwExc .runtime else .ok { p with connections := p.connections ++ [c] }
    else throwExc .runtime
  else throwExc .runtime

/-- What is written for a connection. -/
def JsConn.plain (c : JsConn) : Json V := .obj [(b!"from", .str c.src), (b!"fromPort", .str c.out), (b!"to", .str c.dst), (b!"toPort", .str c.inp)]

/-- A member that is left out when it is `undefined`. -/
def jsSet (k : Str) (x : Option Str) (m : Map (Json V)) : Map (Json V) :=
  match x with
  | none => m
  | some s => m.put k (.str s)

/-- `toPlain` (program.ts:37-39), as `JSON.stringify` writes it. -/
def JsProgram.toPlain (p : JsProgram V) : Json V :=
  let m : Map (Json V) := [(b!"apiVersion", .str p.apiVersion), (b!"connections", .arr (p.connections.map JsConn.plain)),
    (b!"operators", .arr (p.operators.map (·.plain))), (b!"programId", .str p.programId)]
  let m := jsSet b!"defaultPort" p.defaultPort m
  let m := jsSet b!"entryOperator" p.entryOperator m
  let m := jsSet b!"title" p.title m
  let m := jsSet b!"description" p.description m
  let m := jsSet b!"date" p.date m
  let m := jsSet b!"author" p.author m
  .obj (jsSet b!"license" p.license m)

/-! ## Calls of the library -/

/-- What the calls depend on: the library, how `toPlain` is written, the check `Program.validate` (a generated schema of another library), what the bindings make of a number that
stands for a time (`unsigned long`, in wasm 32 bits; `none`: an exception), what they make of `undefined` as a value, how times are read from a report, and what
is read for a value: `null` for NaN and infinities. -/
structure JsEnv (V : Type) where
  api : Env V
  stringify : Json V → Str
  check : Json V → Bool
  time : V → Option UInt64
  undef : Option V
  shown : UInt64 → V
  read : V → Option V

/-- A message as JavaScript writes it; `none` is `undefined` (sent) or `null` (received). -/
abbrev JsMsg (V : Type) := V × Option V

/-- A report (api.ts:4-6). -/
abbrev JsReport (V : Type) := Map (Map (List (JsMsg V)))

/-- `JSON.parse` of a report. -/
def JsEnv.report (js : JsEnv V) (r : ProgMsg V) : JsReport V :=
  r.map fun e => (e.1, e.2.map fun x => (x.1, x.2.map fun m => (js.shown m.time, js.read m.value)))

/-- The messages of one port (api.ts:59). -/
def jsSend (js : JsEnv V) (id port : Str) : List (JsMsg V) → Factory V → Res (Factory V) Unit
  | [], F => .ok () F
  | m :: ms, F => match js.time m.1 with
    | none => .err (.exc .runtime) F
    | some t => match (match m.2 with | some v => some v | none => js.undef) with
      | none => .err (.exc .runtime) F
      | some v => match F.add id port ⟨t, v⟩ with
        | .err e F => .err e F
        | .ok _ F => jsSend js id port ms F

/-- `prepareInternalMessageBuffer` (api.ts:53-61). -/
def jsPrepare (js : JsEnv V) (id : Str) : List (Str × List (JsMsg V)) → Factory V → Res (Factory V) Unit
  | [], F => .ok () F
  | (port, ms) :: rest, F => match jsSend js id port ms F with
    | .err e F => .err e F
    | .ok _ F => jsPrepare js id rest F

/-- `process` and `processDebug` (api.ts:37-51). -/
def jsProcess (js : JsEnv V) (debug : Bool) (id : Str) (msgs : List (Str × List (JsMsg V))) (F : Factory V) : Res (Factory V) (JsReport V) :=
  match jsPrepare js id msgs F with
  | .err e F => .err e F
  | .ok _ F => match F.processBuffer debug js.api.fuel id with
    | .err e F => .err e F
    | .ok r F => .ok (js.report r) F

/-- The creation of a program and the check of the answer (program.ts:89-97, api.ts:101-110). -/
def jsCreate (js : JsEnv V) (junk : Junk V) (p : JsProgram V) (F : Factory V) : Res (Factory V) Unit :=
  match F.createChecked js.api.valid js.api.parse junk p.programId (js.stringify p.toPlain) with
  | .err e F => .err e F
  | .ok result F => if result = some [] then .ok () F else .err (.exc .runtime) F

/-- `start` (program.ts:87-100). -/
def JsProgram.start (js : JsEnv V) (junk : Junk V) (p : JsProgram V) (F : Factory V) : Res (Factory V) (JsProgram V) :=
  if js.check p.toPlain then
    match jsCreate js junk p F with
    | .err e F => .err e F
    | .ok _ F => match F.entryPorts p.programId with
      | .err e F => .err e F
      | .ok ports F => .ok { p with defaultPort := ports.head? } F
  else .err (.exc .runtime) F

/-- `processMessage` and `processMessageDebug` (program.ts:102-112). -/
def JsProgram.send (js : JsEnv V) (debug : Bool) (p : JsProgram V) (time value : V) (port : Option Str) (F : Factory V) : Res (Factory V) (JsReport V) :=
  match (match port with | some q => some q | none => p.defaultPort) with
  | none => .err (.exc .runtime) F
  | some [] => .err (.exc .runtime) F
  | some q => jsProcess js debug p.programId [(q, [(time, some value)])] F

/-- `stop` (program.ts:114-116). -/
def JsProgram.stop (p : JsProgram V) (F : Factory V) : Res (Factory V) Unit :=
  match F.delete p.programId with
  | .err e F => .err e F
  | .ok _ F => .ok () F

/-! ## RtBotRun -/

/-- The collapsed format (api.ts:73): times and values by "id:port". -/
abbrev Collapsed (V : Type) := Map (List V × List (Option V))

/-- The messages that are sent for a row (api.ts:119-120). Values without a port are ignored, and a port without a value gets `undefined`. -/
def jsRow (time : V) : List Str → List V → List (Str × List (JsMsg V))
  | [], _ => []
  | p :: ps, [] => (p, [(time, none)]) :: jsRow time ps []
  | p :: ps, v :: vs => (p, [(time, some v)]) :: jsRow time ps vs

/-- Append a message to the lists of a port (api.ts:128-135). -/
def jsPush (key : Str) (m : JsMsg V) (c : Collapsed V) : Collapsed V :=
  match c.find? key with
  | none => c.put key ([m.1], [m.2])
  | some (ts, vs) => c.put key (ts ++ [m.1], vs ++ [m.2])

/-- Append the messages of a report (api.ts:125-137). -/
def jsCollect (r : JsReport V) (c : Collapsed V) : Collapsed V :=
  r.foldl (fun c e => e.2.foldl (fun c x => x.2.foldl (fun c m => jsPush (joinName e.1 x.1) m c) c) c) c

/-- The loop of `run` (api.ts:118-148) for a function that records what was sent and the report. -/
def jsRows {O : Type} (js : JsEnv V) (record : List (Str × List (JsMsg V)) → JsReport V → O → O) (id : Str) (ports : List Str) :
    List (V × List V) → O → Factory V → Res (Factory V) O
  | [], out, F => .ok out F
  | (t, vs) :: rows, out, F => match jsProcess js true id (jsRow t ports vs) F with
    | .err e F => .err e F
    | .ok r F => jsRows js record id ports rows (record (jsRow t ports vs) r out) F

/-- `run` (api.ts:98-152). -/
def jsRun {O : Type} (js : JsEnv V) (record : List (Str × List (JsMsg V)) → JsReport V → O → O) (junk : Junk V) (p : JsProgram V) (rows : List (V × List V))
    (out : O) (F : Factory V) : Res (Factory V) O :=
  match jsCreate js junk p F with
  | .err e F => .err e F
  | .ok _ F => match F.entryPorts p.programId with
    | .err e F => .err e F
    | .ok ports F => match jsRows js record p.programId ports rows out F with
      | .err e F => .err e F
      | .ok out F => match F.delete p.programId with
        | .err e F => .err e F
        | .ok _ F => .ok out F

/-- `run` in the collapsed format (api.ts:124-137). -/
def jsRunCollapsed (js : JsEnv V) := jsRun js fun _ r (c : Collapsed V) => jsCollect r c

/-- `run` in the extended format (api.ts:138-140). -/
def jsRunExtended (js : JsEnv V) := jsRun js fun s r (out : List (List (Str × List (JsMsg V)) × JsReport V)) => out ++ [(s, r)]

end Rtbot
