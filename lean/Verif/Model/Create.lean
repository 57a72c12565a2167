import Verif.Model.Json
import Verif.Model.Codec

/-! # Creating operators and programs from descriptions

Model of `FactoryOp::readOp`, the `from_json`/`to_json` functions (libs/api/src/FactoryOp.cpp), the constructor of `Pipeline`
(libs/api/src/Pipeline.cpp), `Program::init` and the constructor of `Program` from bytes (libs/api/src/Program.cpp,
libs/api/include/rtbot/Program.h).

Simplifications:
* The text parser is the parameter `parse`. `readOp(x.dump())` works on the value `x` itself: writing a parsed value and parsing it again
  gives the same value. The same holds for `j.at("prog").dump()`.
* The intermediate default constructed and copied objects (`make_unique<Op>(json)`) are left out.
* Where C++ leaves the order of evaluation of arguments open, the model evaluates from left to right; this matters only for which of two
  errors is reported.
* Exhaustion of memory is not modelled. -/

namespace Rtbot
variable {V : Type} [Num V]

/-- The operators allocated so far, at the addresses below `next`. -/
structure Mem (V : Type) where
  heap : Nat → Option (Op V)
  next : Nat

omit [Num V] in
/-- Place a new operator. -/
def Mem.alloc (m : Mem V) (o : Op V) : Mem V := { heap := fun b => if b = m.next then some o else m.heap b, next := m.next + 1 }

omit [Num V] in
/-- The memory as a state of the engine. -/
def Mem.st (m : Mem V) : St V := ⟨m.heap, 0, []⟩

/-- Unspecified contents of the memory at an address, for the members of ConstantResampler that its constructor leaves out. -/
abbrev Junk (V : Type) := Nat → UInt64 × V

/-- `for (int i = 1; i <= numPorts; i++)` overflows when the bound, a `size_t`, is not below 2^31 (Input.h:16, Output.h:20, Join.h:18,
Demultiplexer.h:16). -/
def portCount (n : Nat) : Except Err Nat := if n < 2 ^ 31 then .ok n else undefined .signedOverflow

/-- A parameter of type `size_t` given an `int`. -/
def intSize (i : Int) : Nat := (UInt64.ofInt i).toNat

/-- The points of a Function (FactoryOp.cpp:422-424). -/
def readPoints : List (Json V) → Except Err (List (V × V))
  | [] => .ok []
  | p :: ps => do
    let x ← (← p.idx 0).getNum
    let y ← (← p.idx 1).getNum
    let rest ← readPoints ps
    .ok ((x, y) :: rest)

/-- The second parameter of the constructor of `Function` (Function.h:29-35). -/
def interpOf (s : Str) : Option Interp :=
  if s = b!"linear" then some .linear else if s = b!"hermite" then some .hermite else none

/-- The type names that have a two-port arithmetic or logic operator behind them (FactoryOp.cpp:144-237, 466-471, 491-492). -/
def binOpOf (type : Str) : Option BinOp :=
  if type = b!"And" then some .and else if type = b!"Or" then some .or
  else if type = b!"Plus" then some .plus else if type = b!"Minus" then some .minus
  else if type = b!"Multiplication" then some .mul else if type = b!"Division" then some .div
  else if type = b!"GreaterThanStream" then some .gtStream else if type = b!"LessThanStream" then some .ltStream
  else none

/-- The operators with one parameter "value" (FactoryOp.cpp:239-287, 329-347). -/
def valueOpOf (type : Str) : Option (Str → V → Op V) :=
  if type = b!"GreaterThan" then some fun id v => Op.newFilter id .greaterThan v
  else if type = b!"LessThan" then some fun id v => Op.newFilter id .lessThan v
  else if type = b!"EqualTo" then some fun id v => Op.newFilter id .equalTo v
  else if type = b!"Constant" then some Op.newConstant
  else if type = b!"Add" then some Op.newAdd
  else if type = b!"Scale" then some Op.newScale
  else if type = b!"Power" then some Op.newPower
  else none

/-- The operators with one parameter "n" (FactoryOp.cpp:80-98, 134-142, 379-387). -/
def sizeOpOf (type : Str) : Option (Str → Nat → Op V) :=
  if type = b!"MovingAverage" then some Op.newMovAvg
  else if type = b!"StandardDeviation" then some Op.newStdDev
  else if type = b!"PeakDetector" then some Op.newPeak
  else if type = b!"RelativeStrengthIndex" then some Op.newRsi
  else none

/-- The operators without parameters (FactoryOp.cpp:309-327, 349-357, 369-377). -/
def plainOpOf (type : Str) : Option (Str → Op V) :=
  if type = b!"CumulativeSum" then some Op.newCumSum
  else if type = b!"Count" then some Op.newCount
  else if type = b!"Difference" then some fun id => Op.newDifference id true
  else if type = b!"Identity" then some Op.newIdentity
  else none

/-- The remaining operators but Pipeline (FactoryOp.cpp:50-78, 100-132, 219-237, 289-307, 359-367, 400-428). `none` when the type is not
registered. -/
def otherOpOf (type : Str) (j : Json V) (junk : UInt64 × V) : Option (Except Err (Op V)) :=
  if type = b!"Input" then some do
    let id ← (← j.sub b!"id").getStr
    let n ← j.value b!"numPorts" 1 Json.getInt
    let n ← portCount (intSize n)
    Op.newInput id n
  else if type = b!"Output" then some do
    let id ← (← j.sub b!"id").getStr
    let n ← j.value b!"numPorts" 1 Json.getInt
    let n ← portCount (intSize n)
    Op.newOutput id n
  else if type = b!"Demultiplexer" then some do
    let id ← (← j.sub b!"id").getStr
    let n ← j.value b!"numPorts" 1 Json.getInt
    let n ← portCount (intSize n)
    Op.newDemux id n
  else if type = b!"Join" then some do
    let id ← (← j.sub b!"id").getStr
    let n ← (← j.sub b!"numPorts").getU64
    let n ← portCount n.toNat
    Op.newJoin id n
  else if type = b!"CosineResampler" then some do
    let id ← (← j.sub b!"id").getStr
    let dt ← (← j.sub b!"dt").getU64
    .ok (Op.newCosRes id dt)
  else if type = b!"HermiteResampler" then some do
    let id ← (← j.sub b!"id").getStr
    let dt ← (← j.sub b!"dt").getU64
    .ok (Op.newHermRes id dt)
  else if type = b!"FiniteImpulseResponse" then some do
    let id ← (← j.sub b!"id").getStr
    let coeff ← (← j.sub b!"coeff").getNums
    .ok (Op.newFir id coeff)
  else if type = b!"Linear" then some do
    let id ← (← j.sub b!"id").getStr
    let coeff ← (← j.sub b!"coeff").getNums
    Op.newLinear id coeff
  else if type = b!"AutoRegressive" then some do
    let id ← (← j.sub b!"id").getStr
    let coeff ← (← j.sub b!"coeff").getNums
    .ok (Op.newAutoReg id coeff)
  else if type = b!"Variable" then some do
    let id ← (← j.sub b!"id").getStr
    let v ← j.value b!"value" 0 Json.getInt
    .ok (Op.newVariable id (Json.ofInt v))
  else if type = b!"TimeShift" then some do
    let id ← (← j.sub b!"id").getStr
    let dt ← j.value b!"dt" 1 Json.getInt
    let times ← j.value b!"times" 1 Json.getInt
    .ok (Op.newTimeShift id (UInt64.ofInt dt) times)
  else if type = b!"ConstantResampler" then some do
    let id ← (← j.sub b!"id").getStr
    let dt ← (← j.sub b!"interval").getU64
    Op.newConstRes id dt junk.1 junk.2
  else if type = b!"Function" then some do
    let ps ← j.sub b!"points"
    let points ← readPoints ps.items
    let id ← (← j.sub b!"id").getStr
    let t ← j.value b!"type" b!"linear" Json.getStr
    Op.newFunction id points (interpOf t)
  else none

/-- All registered types but Pipeline: the factory (FactoryOp.cpp:458-496). -/
def simpleOpOf (type : Str) (j : Json V) (junk : UInt64 × V) : Option (Except Err (Op V)) :=
  match binOpOf type with
  | some op => some do
    let id ← (← j.sub b!"id").getStr
    .ok (Op.newBinary id op)
  | none => match (valueOpOf type : Option (Str → V → Op V)) with
  | some new => some do
    let id ← (← j.sub b!"id").getStr
    let v ← (← j.sub b!"value").getNum
    .ok (new id v)
  | none => match (sizeOpOf type : Option (Str → Nat → Op V)) with
  | some new => some do
    let id ← (← j.sub b!"id").getStr
    let n ← (← j.sub b!"n").getU64
    .ok (new id n.toNat)
  | none => match (plainOpOf type : Option (Str → Op V)) with
  | some new => some do
    let id ← (← j.sub b!"id").getStr
    .ok (new id)
  | none => otherOpOf type j junk

/-! ## Operators and connections of a program or pipeline -/

/-- The loop over "operators" (Program.cpp:53-56, Pipeline.cpp:42-45): an operator whose id is taken is destroyed. -/
def buildOps (read : Json V → Mem V → Except Err (Op V × Mem V)) : List (Json V) → Map Nat → Mem V → Except Err (Map Nat × Mem V)
  | [], ops, m => .ok (ops, m)
  | x :: xs, ops, m => do
    let idj ← x.sub b!"id"
    let (o, m) ← read x m
    let id ← idj.getStr
    if ops.has id then buildOps read xs ops m
    else buildOps read xs (ops.put id m.next) (m.alloc o)

/-- `OpConnection` (Program.cpp:14-26, Pipeline.cpp:12-24). -/
structure ConnDesc where
  from' : Str
  to : Str
  toPort : Str
  fromPort : Str

omit [Num V] in
/-- `from_json` of a connection (Program.cpp:32-34, Pipeline.cpp:30-32). -/
def readConn (j : Json V) : Except Err ConnDesc := do
  let f ← (← j.sub b!"from").getStr
  let t ← (← j.sub b!"to").getStr
  let tp ← j.value b!"toPort" [] Json.getStr
  let fp ← j.value b!"fromPort" [] Json.getStr
  .ok ⟨f, t, tp, fp⟩

omit [Num V] in
/-- `map::at`. -/
def mapAt {β : Type} (m : Map β) (k : Str) : Except Err β :=
  match m.find? k with
  | some x => .ok x
  | none => throwExc .outOfRange

/-- Make one connection (Program.cpp:60-62, Pipeline.cpp:52-56). -/
def makeConn (ops : Map Nat) (x : ConnDesc) (m : Mem V) : Except Err (Mem V) := do
  let a ← mapAt ops x.from'
  let b ← mapAt ops x.to
  match connectOp a b x.fromPort x.toPort m.st with
  | .err e _ => .error e
  | .ok true s => .ok { m with heap := s.heap }
  | .ok false _ => throwExc .runtime

/-- The loop over "connections" of a program (Program.cpp:59-63). -/
def makeConns (ops : Map Nat) : List (Json V) → Mem V → Except Err (Mem V)
  | [], m => .ok m
  | j :: js, m => do
    let x ← readConn j
    let m ← makeConn ops x m
    makeConns ops js m

/-! ## Pipeline -/

omit [Num V] in
/-- The name `id:port`. -/
def joinName (id port : Str) : Str := id ++ [58] ++ port

omit [Num V] in
/-- The input port a connection uses (Pipeline.cpp:59-62). -/
def usedInput (x : ConnDesc) (c : Core V) : Str :=
  match c.dataIn, c.ctrlIn with
  | [(p, _)], [] => joinName x.to p
  | _, _ => joinName x.to x.toPort

omit [Num V] in
/-- The output port a connection uses (Pipeline.cpp:65-68). -/
def usedOutput (x : ConnDesc) (c : Core V) : Str :=
  match c.outIds with
  | [p] => joinName x.from' p
  | _ => joinName x.from' x.fromPort

/-- Read the object at an address. -/
def Mem.op (m : Mem V) (a : Nat) : Except Err (Op V) :=
  match m.heap a with
  | some o => .ok o
  | none => undefined .dangling

/-- The loop over "connections" of a pipeline (Pipeline.cpp:50-69) with the sets of used ports. -/
def pipeConns (ops : Map Nat) : List (Json V) → Mem V → List Str → List Str → Except Err (Mem V × List Str × List Str)
  | [], m, ui, uo => .ok (m, ui, uo)
  | j :: js, m, ui, uo => do
    let x ← readConn j
    let m ← makeConn ops x m
    let o2 ← m.op (← mapAt ops x.to)
    let o1 ← m.op (← mapAt ops x.from')
    pipeConns ops js m (setInsert ui (usedInput x o2.core)) (setInsert uo (usedOutput x o1.core))

omit [Num V] in
/-- `emplace(id + ":" + key, op)` for the unused ones among the ports (Pipeline.cpp:73-75, 77-79). -/
def exposePorts (id : Str) (a : Nat) (used : List Str) : List Str → Map Nat → Map Nat
  | [], out => out
  | p :: ps, out => exposePorts id a used ps (if used.contains (joinName id p) then out else out.emplace (joinName id p) a)

/-- The loop over the inner operators (Pipeline.cpp:72-80). -/
def exposeOps (m : Mem V) (ui uo : List Str) : Map Nat → Map Nat → Map Nat → Except Err (Map Nat × Map Nat)
  | [], ins, outs => .ok (ins, outs)
  | (id, a) :: rest, ins, outs => do
    let o ← m.op a
    exposeOps m ui uo rest (exposePorts id a ui o.core.dataIn.keys ins) (exposePorts id a uo o.core.outIds outs)

/-- The registration of the input ports "i1", … (Pipeline.cpp:83-88). -/
def nameInputs : List Str → Nat → Core V → Map Str → Except Err (Core V × Map Str)
  | [], _, c, pm => .ok (c, pm)
  | key :: keys, n, c, pm => do
    let c ← c.addDataInput (iPort n) 1
    nameInputs keys (n + 1) c (pm.emplace (iPort n) key)

omit [Num V] in
/-- The registration of the output ports "o1", … (Pipeline.cpp:91-96). -/
def nameOutputs : List Str → Nat → Core V → Map Str → Core V × Map Str
  | [], _, c, pm => (c, pm)
  | key :: keys, n, c, pm => nameOutputs keys (n + 1) (c.addOutput (oPort n)) (pm.emplace key (oPort n))

/-- `Pipeline(id, json_prog)` (Pipeline.cpp:34-97). -/
def newPipeline (read : Json V → Mem V → Except Err (Op V × Mem V)) (id : Str) (prog : Json V) (m : Mem V) :
    Except Err (Op V × Mem V) := do
  let os ← prog.at' b!"operators"
  let (ops, m) ← buildOps read os.items [] m
  let cs ← prog.at' b!"connections"
  let (m, ui, uo) ← pipeConns ops cs.items m [] []
  let (ins, outs) ← exposeOps m ui uo ops [] []
  let (c, pm) ← nameInputs ins.keys 1 (Core.new id) []
  let (c, pm) := nameOutputs outs.keys 1 c pm
  .ok (⟨c, .pipeline ins outs pm⟩, m)

/-- `FactoryOp::readOp` (FactoryOp.cpp:500-506) with `from_json` of Pipeline (FactoryOp.cpp:394-397). The first argument bounds the nesting of
pipelines; the depth of the value is always enough. -/
def readOp (junk : Junk V) : Nat → Json V → Mem V → Except Err (Op V × Mem V)
  | 0, _, _ => .error .diverge
  | fuel + 1, j, m => do
    let type ← (← j.at' b!"type").getStr
    if type = b!"Pipeline" then do
      let id ← (← j.at' b!"id").getStr
      let prog ← j.at' b!"prog"
      newPipeline (readOp junk fuel) id prog m
    else match simpleOpOf type j (junk m.next) with
      | none => throwExc .runtime
      | some r => do
        let o ← r
        .ok (o, m)

/-! ## Program -/

/-- Text to value: the result of `json::parse`, or the exception it throws. -/
abbrev Parser (V : Type) := Str → Except Exc (Json V)

omit [Num V] in
/-- The output filter; every exception is swallowed (Program.cpp:47-50). -/
def readFilter (j : Json V) : Map (List Str) :=
  match (do (← j.at' b!"output").getStrMap : Except Err (Map (List Str))) with
  | .ok f => f
  | .error _ => []

omit [Num V] in
/-- A program without operators. -/
def Prog.empty (json : Str) : Prog V := { json := json, ops := [], entry := [], filter := [], st := ⟨fun _ => none, 0, []⟩ }

/-- `Program::init` on the parsed description (Program.cpp:42-77). The two `runtime_error(...)` at the end are constructed and not thrown: when
the entry operator is missing the following `all_op.at("")` throws; when it has control inputs the program stays without operators. -/
def Prog.initWith (junk : Junk V) (json : Str) (j : Json V) : Except Err (Prog V) := do
  let entry ← j.value b!"entryOperator" [] Json.getStr
  if entry = [] then throwExc .runtime
  else do
    let os ← j.at' b!"operators"
    let (ops, m) ← buildOps (readOp junk (j.depth + 1)) os.items [] ⟨fun _ => none, 0⟩
    let cs ← j.at' b!"connections"
    let m ← makeConns ops cs.items m
    match ops.find? entry with
    | none => throwExc .outOfRange
    | some a => do
      let o ← m.op a
      if o.core.ctrlIn.isEmpty then .ok { json := json, ops := ops, entry := entry, filter := readFilter j, st := m.st }
      else .ok (Prog.empty json)

/-- `Program(json_string)` (Program.cpp:36-39, 42). -/
def Prog.create (parse : Parser V) (junk : Junk V) (json : Str) : Except Err (Prog V) :=
  match parse json with
  | .error e => throwExc e
  | .ok j => Prog.initWith junk json j

/-- `Program(bytes)` (Program.h:24-48). -/
def Prog.ofBytes (parse : Parser V) (junk : Junk V) (bytes : Bytes) : Except Err (Prog V) := do
  let (json, rest) ← getStr bytes
  let P ← Prog.create parse junk json
  let s ← restoreOps P.ops rest.length P.st rest
  .ok { P with st := s }

end Rtbot
