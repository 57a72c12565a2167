import Verif.Model.Base
import Verif.Model.Num

/-! # Operators: state, construction, receiving

Model of libs/core/include/rtbot/Operator.h and of the data members and constructors of all operator classes. -/

namespace Rtbot
variable {V : Type}

/-- `numeric_limits<size_t>::max()` (Operator.h:51). -/
def sizeMax : Nat := 2 ^ 64 - 1

/-- `Operator::Input`, a port buffer (Operator.h:48-138). `data` is the deque, oldest message first. -/
structure Inp (V : Type) where
  id : Str
  max : Nat
  sum : V
  data : List (Msg V)

/-- Constructor of `Operator::Input` (Operator.h:49-53): size 0 means unbounded. -/
def Inp.new [Num V] (id : Str) (max : Nat) : Inp V :=
  { id := id, max := if max = 0 then sizeMax else max, sum := Num.ofNat 0, data := [] }

/-- `push_back` followed by `setSum(getSum() + back().value)` (Operator.h:409-411, Join.h:37-39, Demultiplexer.h:36-38). -/
def Inp.push [Num V] (i : Inp V) (m : Msg V) : Inp V :=
  { i with data := i.data ++ [m], sum := i.sum +. m.value }

/-- `setSum(getSum() - front().value); pop_front()` (Operator.h:402-404, Join.h:64-65); `none` on an empty deque (undefined). -/
def Inp.popSum [Num V] (i : Inp V) : Option (Inp V) :=
  match i.data with
  | [] => none
  | m :: rest => some { i with data := rest, sum := i.sum -. m.value }

/-- `Operator::Connection` (Operator.h:42-45); the pointer `fOperator` is an address in the heap of `Model/Engine`. -/
structure Conn where
  target : Nat
  port : Str
  deriving DecidableEq, Repr

/-- Data members of class `Operator` (Operator.h:140-145). -/
structure Core (V : Type) where
  id : Str
  dataIn : Map (Inp V)
  ctrlIn : Map (Inp V)
  outIds : List Str
  outputs : Map (List Conn)
  toProcess : List Str

/-- `explicit Operator(string const &id)` (Operator.h:281). -/
def Core.new (id : Str) : Core V :=
  { id := id, dataIn := [], ctrlIn := [], outIds := [], outputs := [], toProcess := [] }

/-- The binary operations of the `BinaryJoin` subclasses. -/
inductive BinOp | and | or | plus | minus | mul | div | gtStream | ltStream
  deriving DecidableEq, Repr

/-- The predicates of the `FilterByValue` subclasses. -/
inductive FilterOp | lessThan | greaterThan | equalTo
  deriving DecidableEq, Repr

/-- `Function::InterpolationType` (Function.h:17). -/
inductive Interp | linear | hermite
  deriving DecidableEq, Repr

/-- The dynamic type of an operator with the data members the subclass adds. -/
inductive Kind (V : Type)
  /-- Input.h:107-110 -/
  | input (portsMap : Map Str) (lastSent : Map (Msg V))
  /-- Output.h:46-47 -/
  | output (portsMap : Map Str)
  /-- Collector.h -/
  | collector
  /-- Join.h:100-101 -/
  | join (controlMap : Map Str)
  /-- BinaryJoin.h:43-44, And.h, Or.h, Plus.h, Minus.h, Multiplication.h, Division.h, GreaterThanStream.h, LessThanStream.h -/
  | binary (op : BinOp)
  /-- Linear.h:48-49 -/
  | linear (coeff : List V)
  /-- Demultiplexer.h:74-75 -/
  | demux (controlMap : Map Str)
  /-- FilterByValue.h:14, LessThan.h, GreaterThan.h, EqualTo.h -/
  | filter (f : FilterOp) (value : V)
  /-- Add.h:37-38 -/
  | add (value : V)
  /-- Scale.h:40-41 -/
  | scale (value : V)
  /-- Power.h:42-43 -/
  | power (value : V)
  /-- Constant.h:37-38 -/
  | constant (value : V)
  /-- Identity.h -/
  | identity
  /-- Count.h:12 -/
  | count (n : UInt64)
  /-- CumulativeSum.h:59 -/
  | cumSum (accumulated : V)
  /-- Difference.h:45 -/
  | difference (useOldestTime : Bool)
  /-- MovingAverage.h -/
  | movAvg
  /-- StandardDeviation.h -/
  | stdDev
  /-- PeakDetector.h -/
  | peak
  /-- FiniteImpulseResponse.h:49-50 -/
  | fir (coeff : List V)
  /-- AutoRegressive.h:12 -/
  | autoReg (coeff : List V)
  /-- TimeShift.h:49-51; `times` is an `int` -/
  | timeShift (dt : UInt64) (times : Int)
  /-- Variable.h:65-67 -/
  | variable (value : V) (initialized : Bool)
  /-- ConstantResampler.h:12-15. `nextEmit` and `lastValue` hold unspecified values while `initiated` is false; the
  constructor `Op.newConstRes` takes them as arbitrary arguments. -/
  | constRes (dt nextEmit : UInt64) (initiated : Bool) (lastValue : V)
  /-- CosineResampler.h:17-18 -/
  | cosRes (dt carryOver : UInt64)
  /-- HermiteResampler.h:18-19, 134 -/
  | hermRes (dt carryOver : UInt64) (before : Option (Msg V))
  /-- Function.h:137-139 -/
  | function (points : List (V × V)) (type : Interp)
  /-- RelativeStrengthIndex.h:84-89; `none` while `initialized` is false, otherwise `(prevAverageGain, prevAverageLoss)`.
  `averageGain`/`averageLoss` always equal the `prev` members after a call (line 64-65), so they are not duplicated. -/
  | rsi (prev : Option (V × V))
  /-- Composite.h:353-356; the `ops` map only matters during construction -/
  | composite (input output : Option Nat)
  /-- Pipeline.h:14-17 -/
  | pipeline (inputs outputs : Map Nat) (portsMap : Map Str)

/-- An operator object. -/
structure Op (V : Type) where
  core : Core V
  kind : Kind V

/-- `OperatorMessage`, `PortMessage`, `ProgramMessage` (Message.h:54-77). -/
abbrev PortMsg (V : Type) := List (Msg V)
@[inherit_doc PortMsg] abbrev OpMsg (V : Type) := Map (PortMsg V)
@[inherit_doc PortMsg] abbrev ProgMsg (V : Type) := Map (OpMsg V)

/-! ## Ports -/

/-- `addDataInput` (Operator.h:518-527). -/
def Core.addDataInput [Num V] (c : Core V) (p : Str) (max : Nat) : Except Err (Core V) :=
  if p = [] then throwExc .runtime
  else if c.dataIn.has p || c.ctrlIn.has p then throwExc .runtime
  else .ok { c with dataIn := c.dataIn.emplace p (Inp.new p max) }

/-- `addControlInput` (Operator.h:529-538). -/
def Core.addControlInput [Num V] (c : Core V) (p : Str) (max : Nat) : Except Err (Core V) :=
  if p = [] then throwExc .runtime
  else if c.dataIn.has p || c.ctrlIn.has p then throwExc .runtime
  else .ok { c with ctrlIn := c.ctrlIn.emplace p (Inp.new p max) }

/-- `addOutput` (Operator.h:564-567). -/
def Core.addOutput (c : Core V) (p : Str) : Core V := { c with outIds := setInsert c.outIds p }

/-- Automatic deduction of the data port: `if (inputPort.empty()) { if (in.size() == 1) inputPort = in.at(0); }`
(Operator.h:311-314, 395-398). -/
def Core.resolveData (c : Core V) (p : Str) : Str :=
  if p = [] then (match c.dataIn with | [(k, _)] => k | _ => p) else p

/-- The same for control ports (Operator.h:433-436). -/
def Core.resolveCtrl (c : Core V) (p : Str) : Str :=
  if p = [] then (match c.ctrlIn with | [(k, _)] => k | _ => p) else p

/-- `isDataInput` (Operator.h:575-580), `isControlInput` (582-587). -/
def Core.isData (c : Core V) (p : Str) : Bool := c.dataIn.has p
@[inherit_doc Core.isData] def Core.isCtrl (c : Core V) (p : Str) : Bool := c.ctrlIn.has p

/-- `getAllInputs` (Operator.h:556-562). -/
def Core.allInputs (c : Core V) : List Str := c.dataIn.keys ++ c.ctrlIn.keys

/-! ## Accessors used by `processData` -/

/-- `getDataInputMessage` (Operator.h:335-345): unknown port throws, empty buffer gives `{}`, bad index throws. -/
def Core.dataMsg [Num V] (c : Core V) (p : Str) (idx : Nat) : Except Err (Msg V) :=
  match c.dataIn.find? p with
  | none => throwExc .badPort
  | some i =>
    if i.data = [] then .ok Msg.zero
    else match i.data[idx]? with
      | some m => .ok m
      | none => throwExc .outOfRange

/-- `getDataInputLastMessage` (Operator.h:347-357). -/
def Core.dataLast [Num V] (c : Core V) (p : Str) : Except Err (Msg V) :=
  match c.dataIn.find? p with
  | none => throwExc .badPort
  | some i => match i.data.getLast? with
    | some m => .ok m
    | none => .ok Msg.zero

/-- `getDataInputFirstMessage` (Operator.h:383-392). -/
def Core.dataFirst [Num V] (c : Core V) (p : Str) : Except Err (Msg V) :=
  match c.dataIn.find? p with
  | none => throwExc .badPort
  | some i => match i.data.head? with
    | some m => .ok m
    | none => .ok Msg.zero

/-- `dataInputs.find(port)->second` after the port was obtained from `getDataInputs`; also `getDataInputSum`,
`getDataInputSize`, `getDataInputMaxSize` (Operator.h:302-333), which throw for an unknown port. -/
def Core.dataPort (c : Core V) (p : Str) : Except Err (Inp V) :=
  match c.dataIn.find? p with
  | none => throwExc .badPort
  | some i => .ok i

/-- The prologue of most `processData` methods, e.g. MovingAverage.h:22-27: the single data port or an exception. -/
def Core.solePort (c : Core V) : Except Err Str :=
  match c.dataIn with
  | [(k, _)] => .ok k
  | _ => throwExc .runtime

/-! ## receiveData / receiveControl -/

/-- The sliding window update (Operator.h:401-411; the same code in 439-450). -/
def Inp.receive [Num V] (i : Inp V) (m : Msg V) : Except Err (Inp V) :=
  if i.max = i.data.length then
    match i.popSum with
    | none => undefined .emptyDeque
    | some i' => .ok (i'.push m)
  else if i.max < i.data.length then throwExc .runtime
  else .ok (i.push m)

/-- `Operator::receiveData` (Operator.h:394-415). -/
def Core.receiveDataBase [Num V] (c : Core V) (m : Msg V) (port : Str) : Except Err (Core V) :=
  let p := c.resolveData port
  match c.dataIn.find? p with
  | none => throwExc .badPort
  | some i => do
    let i' ← i.receive m
    .ok { c with dataIn := c.dataIn.put p i', toProcess := setInsert c.toProcess p }

/-- `Operator::receiveControl` (Operator.h:432-454). -/
def Core.receiveCtrlBase [Num V] (c : Core V) (m : Msg V) (port : Str) : Except Err (Core V) :=
  let p := c.resolveCtrl port
  match c.ctrlIn.find? p with
  | none => throwExc .badPort
  | some i => do
    let i' ← i.receive m
    .ok { c with ctrlIn := c.ctrlIn.put p i' }

/-- `Join::receiveData` (Join.h:31-42): unbounded, no `toProcess`, port mandatory. -/
def Core.receiveDataJoin [Num V] (c : Core V) (m : Msg V) (port : Str) : Except Err (Core V) :=
  if port = [] then throwExc .runtime
  else match c.dataIn.find? port with
  | none => throwExc .badPort
  | some i => .ok { c with dataIn := c.dataIn.put port (i.push m) }

/-- `Demultiplexer::receiveData` (Demultiplexer.h:29-41). -/
def Core.receiveDataDemux [Num V] (c : Core V) (m : Msg V) (port : Str) : Except Err (Core V) :=
  let p := c.resolveData port
  match c.dataIn.find? p with
  | none => throwExc .badPort
  | some i => .ok { c with dataIn := c.dataIn.put p (i.push m) }

/-- `Demultiplexer::receiveControl` (Demultiplexer.h:49-62). -/
def Core.receiveCtrlDemux [Num V] (c : Core V) (m : Msg V) (port : Str) : Except Err (Core V) :=
  let p := c.resolveCtrl port
  match c.ctrlIn.find? p with
  | none => throwExc .badPort
  | some i => .ok { c with ctrlIn := c.ctrlIn.put p (i.push m) }

/-- `AutoRegressive::receiveData` (AutoRegressive.h:24-38): fill up with (0,0) messages to the maximum size, then append.
When the coefficient list is empty the maximum size is 2^64-1 and the fill loop cannot complete: outcome `diverge`. -/
def Core.receiveDataAR [Num V] (c : Core V) (m : Msg V) (port : Str) : Except Err (Core V) :=
  let p := c.resolveData port
  match c.dataIn.find? p with
  | none => throwExc .badPort
  | some i =>
    if i.max = sizeMax ∧ i.data.length < i.max then .error .diverge
    else
      let padded := i.data ++ List.replicate (i.max - i.data.length) Msg.zero
      .ok { c with dataIn := c.dataIn.put p { i with data := padded ++ [m] } }

/-- `receiveData` of an operator other than Composite and Pipeline (those forward to other objects, see `Model/Engine`):
virtual dispatch. -/
def Op.recvData [Num V] (o : Op V) (m : Msg V) (port : Str) : Except Err (Op V) := do
  let c ← match o.kind with
    | .join _ | .binary _ | .linear _ => o.core.receiveDataJoin m port
    | .demux _ => o.core.receiveDataDemux m port
    | .autoReg _ => o.core.receiveDataAR m port
    | _ => o.core.receiveDataBase m port
  .ok { o with core := c }

/-- `receiveControl`, virtual dispatch. -/
def Op.recvCtrl [Num V] (o : Op V) (m : Msg V) (port : Str) : Except Err (Op V) := do
  let c ← match o.kind with
    | .demux _ => o.core.receiveCtrlDemux m port
    | _ => o.core.receiveCtrlBase m port
  .ok { o with core := c }

end Rtbot
