import Verif.Model.Javascript

/-! # The debugger of the command line

Model of apps/cli/src/tui/store.ts and of apps/cli/src/commands/debug.ts.

Simplifications. The screen (tui/index.ts, output-table.ts, select-operators-form.ts) only shows `columns` and calls the actions of the store; it is left out. Of an
entry of the result only `out` is kept, the only part that the store uses (store.ts:88-89). The text of a message, with its rounded value (store.ts:91), is the parameter `cell`. A
`TypeError` or `RangeError` is `Exc.runtime`. The member "numPorts" of an operator is a number or missing, as the schema says. Reading the files and splitting the
data into rows is left to libraries that are not in /repo. -/

namespace Rtbot
variable {V : Type} [Num V]

/-- `DebuggerOperatorDef` (store.ts:17). -/
structure DbgOp where
  id : Str
  type : Str
  selected : Bool
  ports : List Str
  deriving DecidableEq

/-- `DebuggerState` (store.ts:19-29); `timeCursor` is never used. -/
structure Dbg (V : Type) where
  iteration : Nat
  maxIteration : Nat
  program : Option (List (JsOp V))
  result : Option (List (JsReport V))
  operators : List DbgOp
  columns : List (List Str)

/-- The first state (store.ts:32-36). -/
def Dbg.start : Dbg V := ⟨0, 0, none, none, [], []⟩

/-- The ports of an operator (store.ts:52-56). `Array(n)` is a `RangeError` when `n` is not an integer from 0 below 2^32. -/
def dbgPorts (op : Json V) : Except Err (List Str) :=
  match op with
  | .obj m => match Map.find? m b!"numPorts" with
    | some (.uint n) =>
      if n = 0 then .ok [b!"o1"] else if n < 4294967296 then .ok ((List.range n.toNat).map fun i => oPort (i + 1)) else throwExc .runtime
    | some (.int i) => if i = 0 then .ok [b!"o1"] else throwExc .runtime
    | some (.float _) => throwExc .runtime
    | _ => .ok [b!"o1"]
  | _ => .ok [b!"o1"]

/-- One operator of the list (store.ts:48-57). -/
def dbgOp (op : JsOp V) : Except Err DbgOp := do
  let ports ← dbgPorts op.plain
  .ok ⟨op.id, op.type, true, ports⟩

/-- `computeOperators` (store.ts:46-58). -/
def Dbg.computeOperators (d : Dbg V) : Res (Dbg V) Unit :=
  match d.program with
  | none => .err (.exc .runtime) d
  | some ops => match ops.mapM dbgOp with
    | .error e => .err e d
    | .ok l => .ok () { d with operators := l }

/-- The first entry with the id (store.ts:62-63). -/
def setSelected (id : Str) (sel : Bool) : List DbgOp → List DbgOp
  | [] => []
  | op :: ops => if op.id = id then { op with selected := sel } :: ops else op :: setSelected id sel ops

/-- `updateOperator` (store.ts:59-65). -/
def Dbg.updateOperator (id : Str) (sel : Bool) (d : Dbg V) : Dbg V := { d with operators := setSelected id sel d.operators }

/-- The headers of an operator (store.ts:73-74). -/
def dbgHeaders (op : DbgOp) : List Str := if 1 < op.ports.length then op.ports.map fun p => joinName op.id p else [op.id]

/-- `const [opId, port] = h.split(":")` (store.ts:87). -/
def dbgSplit (h : Str) : Str × Option Str :=
  (h.takeWhile (· ≠ 58), match h.dropWhile (· ≠ 58) with
    | [] => none
    | _ :: rest => some (rest.takeWhile (· ≠ 58)))

/-- What every object inherits; `out[name]` finds it when the object has no such member of its own. -/
def inherited : List Str := [b!"constructor", b!"__defineGetter__", b!"__defineSetter__", b!"hasOwnProperty", b!"__lookupGetter__", b!"__lookupSetter__",
  b!"isPrototypeOf", b!"propertyIsEnumerable", b!"toString", b!"valueOf", b!"__proto__", b!"toLocaleString"]

/-- `Math.round(value * 100) / 100` of `null` is 0 (store.ts:91). -/
def dbgMsg (cell : V → V → Str) (m : JsMsg V) : Str :=
  match m.2 with
  | some v => cell m.1 v
  | none => cell m.1 (Num.ofNat 0)

/-- `join(", ")` (store.ts:92). -/
def joinComma : List Str → Str
  | [] => []
  | [a] => a
  | a :: b :: l => a ++ b!", " ++ joinComma (b :: l)

/-- One cell (store.ts:86-95). The report is missing when the result has no such entry. None of what is inherited has a list under any name. -/
def dbgCell (cell : V → V → Str) (r : Option (JsReport V)) (h : Str) : Except Err Str :=
  let (id, port) := dbgSplit h
  if id = [] then .ok b!"-"
  else match r with
    | none => throwExc .runtime
    | some out => match out.find? id with
      | none => if inherited.contains id then throwExc .runtime else .ok b!"-"
      | some ports => match ports.find? (match port with | some p => p | none => b!"o1") with
        | none => throwExc .runtime
        | some ms => .ok (joinComma (ms.map (dbgMsg cell)))

/-- One row (store.ts:85-96). -/
def dbgRow (cell : V → V → Str) (result : Option (List (JsReport V))) (headers : List Str) (i : Nat) : Except Err (List Str) :=
  match result with
  | none => throwExc .runtime
  | some rs => do
    let row ← headers.mapM (dbgCell cell rs[i]?)
    .ok (toStr i :: row)

/-- `computeColumns` (store.ts:66-101). A state is only set when the function returns. -/
def Dbg.computeColumns (cell : V → V → Str) (d : Dbg V) : Res (Dbg V) Unit :=
  let opHeaders := (d.operators.filter (·.selected)).flatMap dbgHeaders
  let headers := b!"iter" :: opHeaders
  if d.iteration = 0 then .ok () { d with columns := [headers] }
  else
    let first := d.iteration - 1
    match (List.range' first (min d.iteration d.maxIteration + 10 - first)).mapM (dbgRow cell d.result opHeaders) with
    | .error e => .err e d
    | .ok rows => .ok () { d with columns := headers :: rows }

/-- `init` (store.ts:37-43). -/
def Dbg.init (cell : V → V → Str) (ops : List (JsOp V)) (result : List (JsReport V)) (d : Dbg V) : Res (Dbg V) Unit :=
  match ({ d with program := some ops, result := some result, maxIteration := result.length } : Dbg V).computeOperators with
  | .err e d => .err e d
  | .ok _ d => d.computeColumns cell

/-- What the user can do (tui/index.ts:23-43, select-operators-form.ts:35-40). -/
inductive DbgAct
  | forward
  | backward
  | select (id : Str) (sel : Bool)
  deriving DecidableEq

/-- `forward`, `backward` and `selectOperator` (store.ts:102-116). -/
def Dbg.act (cell : V → V → Str) (a : DbgAct) (d : Dbg V) : Res (Dbg V) Unit :=
  match a with
  | .forward => ({ d with iteration := min (d.iteration + 1) d.maxIteration } : Dbg V).computeColumns cell
  | .backward => ({ d with iteration := d.iteration - 1 } : Dbg V).computeColumns cell
  | .select id sel => (d.updateOperator id sel).computeColumns cell

/-- The state after some actions, each of which may have thrown. -/
def Dbg.acts (cell : V → V → Str) (l : List DbgAct) (d : Dbg V) : Dbg V := l.foldl (fun d a => (d.act cell a).state) d

/-! ## The command -/

/-- The rows that are sent (debug.ts:82-96). `time` and `value` are what the two factors make of the text of a column, `none` for `NaN`; a missing column is
`undefined`. -/
def dbgPrepare (time value : Option Str → Option V) : List (List Str) → List (V × List V)
  | [] => []
  | row :: rows => match time row[0]?, value row[1]? with
    | some t, some v => (t, [v]) :: dbgPrepare time value rows
    | _, _ => dbgPrepare time value rows

/-- The command with the interactive screen (debug.ts:82-109), from the rows of the data to the first table. -/
def dbgCommand (js : JsEnv V) (cell : V → V → Str) (junk : Junk V) (time value : Option Str → Option V) (p : JsProgram V) (rows : List (List Str)) (F : Factory V) :
    Res (Factory V) (Dbg V) :=
  match jsRunExtended js junk p (dbgPrepare time value rows) [] F with
  | .err e F => .err e F
  | .ok out F => match Dbg.init cell p.operators (out.map (·.2)) Dbg.start with
    | .err e _ => .err e F
    | .ok _ d => .ok d F

end Rtbot
