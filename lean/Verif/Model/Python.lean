import Verif.Model.Factory
import Verif.Model.Schema

/-! # The Python wrapper

Model of libs/wrappers/python/rtbot.py, of the operator classes that tools/generator/src/index.ts (lines 155-168) makes with the template
tools/generator/templates/python.hbs, and of the functions of the bindings they call (libs/wrappers/python/rtbot.cpp).

Simplifications. Values of Python that are written with `json.dumps` and read back by the library are JSON values from the start: the text in between is
taken to preserve them (it does not for NaN, infinities and integers beyond 64 bits). Arguments of constructors are passed by keyword. Rows are never
empty. Every exception of Python is `Exc.runtime`; the class and the message are not modelled. -/

namespace Rtbot
variable {V : Type} [Num V]

/-! ## Generated operator classes -/

/-- The "default" entries in the front matter: Input.md:21, Output.md:20, Demultiplexer.md:20, Join.md:19, TimeShift.md:18 and 25, Variable.md:21. Properties without
one get `None` (index.ts:164). -/
def paramDefault (type key : Str) : Json V :=
  if key = b!"numPorts" then if type = b!"Join" then .uint 2 else .uint 1
  else if key = b!"dt" ∨ key = b!"times" then .uint 1
  else if type = b!"Variable" ∧ key = b!"value" then .uint 0
  else .null

/-- The parameters of the constructor and whether they are required (index.ts:160-165). -/
def pyParams : Schema → List (Str × Bool)
  | .object props required _ => (props.filter fun p => p.1 ≠ b!"type").map fun p => (p.1, required.contains p.1)
  | _ => []

/-- The dictionary the constructor passes on (python.hbs:20-31). -/
def pyArgs (type : Str) (args : Map (Json V)) : List (Str × Bool) → Map (Json V) → Except Err (Map (Json V))
  | [], m => .ok m
  | (k, required) :: ps, m =>
    match args.find? k with
    | some v => pyArgs type args ps (m.put k v)
    | none => if required then throwExc .runtime else pyArgs type args ps (m.put k (paramDefault type k))

/-- The construction of an object of the class `type` (python.hbs:6-31): unexpected and missing arguments raise an error, and so does a dictionary that
`validateOperator` does not accept. -/
def pyOperator (type : Str) (args : Map (Json V)) : Except Err (Json V) :=
  match Map.find? opSchemas type with
  | none => throwExc .runtime
  | some s =>
    if args.keys.all fun k => (pyParams s).any fun p => p.1 == k then do
      let m ← pyArgs type args (pyParams s) [(b!"type", .str type)]
      if s.accepts (.obj m) then .ok (.obj m) else throwExc .runtime
    else throwExc .runtime

/-! ## Program -/

/-- The attributes of `Program` (rtbot.py:78-87); `null` is `None`. -/
structure PyProgram (V : Type) where
  id : Str
  operators : Json V
  connections : Json V
  entryOperator : Json V
  title : Json V
  description : Json V
  apiVersion : Json V
  date : Json V
  author : Json V
  license : Json V

/-- The parameters of `Program.__init__` (rtbot.py:67-75). -/
def pyProgramKeys : List Str :=
  [b!"operators", b!"connections", b!"entryOperator", b!"title", b!"description", b!"apiVersion", b!"date", b!"author", b!"license"]

/-- A keyword argument or its default. -/
def pyArg (args : Map (Json V)) (k : Str) (dflt : Json V) : Json V :=
  match args.find? k with
  | some v => v
  | none => dflt

/-- `x if x is not None else []`. -/
def pyOrList : Json V → Json V
  | .null => .arr []
  | x => x

/-- `Program(**args)` (rtbot.py:65-87); the id is random. -/
def PyProgram.new (id : Str) (args : Map (Json V)) : Except Err (PyProgram V) :=
  if args.keys.all fun k => pyProgramKeys.contains k then
    .ok { id, operators := pyOrList (pyArg args b!"operators" .null), connections := pyOrList (pyArg args b!"connections" .null),
          entryOperator := pyArg args b!"entryOperator" .null, title := pyArg args b!"title" .null,
          description := pyArg args b!"description" .null, apiVersion := pyArg args b!"apiVersion" (.str b!"v1"),
          date := pyArg args b!"date" .null, author := pyArg args b!"author" .null, license := pyArg args b!"license" .null }
  else throwExc .runtime

/-- The truth value of a Python object. -/
def pyTruthy : Json V → Bool
  | .null => false
  | .bool b => b
  | .uint n => n != 0
  | .int i => i != 0
  | .float v => !Num.eq v (Num.ofNat 0)
  | .str s => !s.isEmpty
  | .arr l => !l.isEmpty
  | .obj m => !m.isEmpty

/-- `if x: obj[k] = y`. -/
def pySetIf (x : Json V) (k : Str) (y : Json V) (m : Map (Json V)) : Map (Json V) := if pyTruthy x then m.put k y else m

/-- The dictionary that `Program.toJson` writes (rtbot.py:89-113). The entry operator is included when there is a date (line 110). -/
def PyProgram.toJson (p : PyProgram V) : Json V :=
  let m : Map (Json V) := [(b!"apiVersion", p.apiVersion), (b!"connections", p.connections), (b!"operators", p.operators)]
  let m := pySetIf p.title b!"title" p.title m
  let m := pySetIf p.author b!"author" p.author m
  let m := pySetIf p.description b!"description" p.description m
  let m := pySetIf p.license b!"license" p.license m
  let m := pySetIf p.date b!"date" p.date m
  .obj (pySetIf p.date b!"entryOperator" p.entryOperator m)

/-- `Program.validate` (rtbot.py:115-116): the member "valid" of the result. -/
def PyProgram.validate (p : PyProgram V) : Bool := programSchema.accepts p.toJson

/-- `parse` (rtbot.py:53-61); the argument is the result of `json.loads`. -/
def pyParse (id : Str) (j : Json V) : Except Err (PyProgram V) :=
  match j with
  | .obj args => do
    let p ← PyProgram.new id args
    if p.validate then .ok p else throwExc .runtime
  | _ => throwExc .runtime

/-- `x[k]`. -/
def pyItem (x : Json V) (k : Str) : Except Err (Json V) :=
  match x with
  | .obj m => match Map.find? m k with
    | some y => .ok y
    | none => throwExc .runtime
  | _ => throwExc .runtime

/-- The elements of a list; other values raise an error somewhere in the methods that use it. -/
def pyList : Json V → Except Err (List (Json V))
  | .arr l => .ok l
  | _ => throwExc .runtime

/-- `list(map(lambda op: op["id"], operators))`. -/
def pyIds : List (Json V) → Except Err (List (Json V))
  | [] => .ok []
  | x :: xs => do
    let id ← pyItem x b!"id"
    let ids ← pyIds xs
    .ok (id :: ids)

/-- Whether a text is in a list. -/
def pyMem (s : Str) : List (Json V) → Bool
  | [] => false
  | .str t :: l => t == s || pyMem s l
  | _ :: l => pyMem s l

/-- `Operator.validate` (python.hbs:14-15). -/
def pyValid (op : Json V) : Except Err Bool := do
  match ← pyItem op b!"type" with
  | .str t => .ok (match Map.find? opSchemas t with
    | none => false
    | some s => s.accepts op)
  | _ => throwExc .runtime

/-- `Program.addOperator` (rtbot.py:118-130). A valid operator has a text as id. -/
def PyProgram.addOperator (p : PyProgram V) (op : Json V) : Except Err (PyProgram V) := do
  let ids ← pyIds (← pyList p.operators)
  if ← pyValid op then
    match ← pyItem op b!"id" with
    | .str id => if pyMem id ids then throwExc .runtime else .ok { p with operators := .arr ((← pyList p.operators) ++ [op]) }
    | _ => throwExc .runtime
  else throwExc .runtime

/-- `Connection.__init__` (rtbot.py:175-181). -/
def pyConnection (src dst out inp : Str) : Json V :=
  .obj [(b!"from", .str src), (b!"fromPort", .str out), (b!"to", .str dst), (b!"toPort", .str inp)]

/-- `Program.addConnection` (rtbot.py:132-143); the defaults of the ports are "o1" and "i1". -/
def PyProgram.addConnection (p : PyProgram V) (src dst out inp : Str) : Except Err (PyProgram V) := do
  let ids ← pyIds (← pyList p.operators)
  if pyMem src ids then
    if pyMem dst ids then .ok { p with connections := .arr ((← pyList p.connections) ++ [pyConnection src dst out inp]) }
    else throwExc .runtime
  else throwExc .runtime

/-! ## Run -/

/-- The collected columns: times and values by "id:port". -/
abbrev Columns (V : Type) := Map (List UInt64 × List V)

/-- What the run depends on: the library, how `toJson` is written, and what `float(…)` makes of a value that was written into the report: nothing for NaN and
infinities, which are written as `null`. -/
structure PyEnv (V : Type) where
  api : Env V
  dumps : Json V → Str
  wire : V → Option V

/-- Send the values of a row (rtbot.py:35-36). -/
def pyFill (id : Str) (t : UInt64) : List Str → List V → Factory V → Res (Factory V) Unit
  | _, [], F => .ok () F
  | [], _ :: _, F => .err (.exc .runtime) F
  | p :: ps, v :: vs, F => match F.add id p ⟨t, v⟩ with
    | .err e F' => .err e F'
    | .ok _ F' => pyFill id t ps vs F'

/-- The messages of one port (rtbot.py:45-47). -/
def pyMsgs (wire : V → Option V) (key : Str) : List (Msg V) → Columns V → Except Err (Columns V)
  | [], c => .ok c
  | m :: ms, c => match c.find? key with
    | none => throwExc .runtime
    | some (ts, vs) => match wire m.value with
      | none => throwExc .runtime
      | some v => pyMsgs wire key ms (c.put key (ts ++ [m.time], vs ++ [v]))

/-- The ports of one operator (rtbot.py:41-47). -/
def pyPorts (wire : V → Option V) (id : Str) : OpMsg V → Columns V → Except Err (Columns V)
  | [], c => .ok c
  | (port, ms) :: rest, c => do
    let c ← pyMsgs wire (joinName id port) ms (c.emplace (joinName id port) ([], []))
    pyPorts wire id rest c

/-- The operators of a report (rtbot.py:40-47). -/
def pyCollect (wire : V → Option V) : ProgMsg V → Columns V → Except Err (Columns V)
  | [], c => .ok c
  | (id, x) :: rest, c => do
    let c ← pyPorts wire id x c
    pyCollect wire rest c

/-- The loop over the rows (rtbot.py:33-47). -/
def pyRows (py : PyEnv V) (id : Str) (ports : List Str) : List (UInt64 × List V) → Columns V → Factory V → Res (Factory V) (Columns V)
  | [], c, F => .ok c F
  | (t, vs) :: rows, c, F =>
    match pyFill id t ports vs F with
    | .err e F => .err e F
    | .ok _ F =>
      match F.processBuffer true py.api.fuel id with
      | .err e F => .err e F
      | .ok r F =>
        match pyCollect py.wire r c with
        | .error e => .err e F
        | .ok c => pyRows py id ports rows c F

/-- `Run.exec` (rtbot.py:19-50). The ports are asked for before the result of the creation is looked at; the program is deleted only at the end. -/
def pyExec (py : PyEnv V) (junk : Junk V) (p : PyProgram V) (rows : List (UInt64 × List V)) (F : Factory V) : Res (Factory V) (Columns V) :=
  match F.createChecked py.api.valid py.api.parse junk p.id (py.dumps p.toJson) with
  | .err e F => .err e F
  | .ok result F =>
    match F.entryPorts p.id with
    | .err e F => .err e F
    | .ok ports F =>
      if result = some [] then
        match pyRows py p.id ports rows [] F with
        | .err e F => .err e F
        | .ok c F => match F.delete p.id with
          | .err e F => .err e F
          | .ok _ F => .ok c F
      else .err (.exc .runtime) F

end Rtbot
