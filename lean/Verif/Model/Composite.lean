import Verif.Model.Create

/-! # Model: building a Composite (Composite.h)

A Composite is an object at address `self` that owns the operators in the table `ops`. Its member functions that create operators allocate them in the
memory. The forwarding of messages (Composite.h:305-331) and `connect` (Composite.h:337-351) are in `Model/Engine`.

Simplified: an address is never used again, so the operators stay where they are as long as the Composite lives. -/

namespace Rtbot
variable {V : Type} [Num V]

/-- A Composite in its memory: its address and the private member `ops` (Composite.h:354). The members `input` and `output` (Composite.h:355-356) are in
the object itself, see `Kind.composite`. -/
structure Comp (V : Type) where
  mem : Mem V
  self : Nat
  ops : Map Nat

/-- `Composite(id)` (Composite.h:46). -/
def Comp.new (m : Mem V) (id : Str) : Comp V := ⟨m.alloc ⟨Core.new id, .composite none none⟩, m.next, []⟩

/-- The member functions `create…` other than `createInput` and `createOutput`, with their arguments. -/
inductive Creator (V : Type)
  | add (value : V) | autoRegressive (coeff : List V) | constant (value : V) | cosineResampler (dt : UInt64) | count | cumulativeSum
  | difference (useOldestTime : Bool) | join (numPorts : Nat) | division | minus | linear (coeff : List V) | equalTo (value : V)
  | greaterThan (value : V) | lessThan (value : V) | hermiteResampler (dt : UInt64) | identity | movingAverage (n : Nat)
  | finiteImpulseResponse (coeff : List V) | «variable» (value : V) | peakDetector (n : Nat) | standardDeviation (n : Nat)
  | demultiplexer (numOutputPorts : Nat) | power (value : V) | scale (value : V) | timeShift (dt : UInt64) (times : Int)

/-- The operator each of them makes: `make_shared<…>(id, …)` in Composite.h:66-201, 218-279. -/
def Creator.make (id : Str) : Creator V → Except Err (Op V)
  | .add v => .ok (Op.newAdd id v)
  | .autoRegressive c => .ok (Op.newAutoReg id c)
  | .constant v => .ok (Op.newConstant id v)
  | .cosineResampler dt => .ok (Op.newCosRes id dt)
  | .count => .ok (Op.newCount id)
  | .cumulativeSum => .ok (Op.newCumSum id)
  | .difference b => .ok (Op.newDifference id b)
  | .join n => do Op.newJoin id (← portCount n)
  | .division => .ok (Op.newBinary id .div)
  | .minus => .ok (Op.newBinary id .minus)
  | .linear c => Op.newLinear id c
  | .equalTo v => .ok (Op.newFilter id .equalTo v)
  | .greaterThan v => .ok (Op.newFilter id .greaterThan v)
  | .lessThan v => .ok (Op.newFilter id .lessThan v)
  | .hermiteResampler dt => .ok (Op.newHermRes id dt)
  | .identity => .ok (Op.newIdentity id)
  | .movingAverage n => .ok (Op.newMovAvg id n)
  | .finiteImpulseResponse c => .ok (Op.newFir id c)
  | .variable v => .ok (Op.newVariable id v)
  | .peakDetector n => .ok (Op.newPeak id n)
  | .standardDeviation n => .ok (Op.newStdDev id n)
  | .demultiplexer n => do Op.newDemux id (← portCount n)
  | .power v => .ok (Op.newPower id v)
  | .scale v => .ok (Op.newScale id v)
  | .timeShift dt t => .ok (Op.newTimeShift id dt t)

/-- The common part of the functions `create…` (for example Composite.h:66-72): the id must be new; when the constructor throws nothing is added. -/
def Comp.create (k : Creator V) (id : Str) (c : Comp V) : Res (Comp V) Str :=
  if c.ops.has id then .err (.exc .runtime) c
  else match k.make id with
    | .error e => .err e c
    | .ok o => .ok id { c with mem := c.mem.alloc o, ops := c.ops.emplace id c.mem.next }

/-- Write the object itself. -/
def Comp.setSelf (c : Comp V) (o : Op V) : Comp V :=
  { c with mem := { c.mem with heap := fun b => if b = c.self then some o else c.mem.heap b } }

/-- The loops that give the ports of the Input to the Composite (Composite.h:55-56): the core so far, and the exception that ends it. -/
def copyInputs (add : Core V → Str → Except Err (Core V)) : List Str → Core V → Res (Core V) Unit
  | [], c => .ok () c
  | p :: ps, c =>
    match add c p with
    | .error e => .err e c
    | .ok c => copyInputs add ps c

/-- The loop that gives the ports of the Output to the Composite (Composite.h:207). -/
def copyOutputs (outs : List Str) (c : Core V) : Core V := outs.foldl Core.addOutput c

/-- `createInput(id, numPorts)` (Composite.h:52-64). The member `input` is set before the ports are copied and the operator is entered in the table. -/
def Comp.createInput (id : Str) (n : Nat) (c : Comp V) : Res (Comp V) Str :=
  match c.mem.heap c.self with
  | none => .err (.ub .dangling) c
  | some me =>
    match me.kind with
    | .composite inp out =>
      if c.ops.has id then .err (.exc .runtime) c
      else match inp with
        | some _ => .err (.exc .runtime) c
        | none =>
          match (do Op.newInput id (← portCount n) : Except Err (Op V)) with
          | .error e => .err e c
          | .ok o =>
            let a := c.mem.next
            let c := { c with mem := c.mem.alloc o }
            let kind := Kind.composite (some a) out
            match copyInputs (fun k p => k.addDataInput p 1) o.core.dataIn.keys me.core with
            | .err e k => .err e (c.setSelf ⟨k, kind⟩)
            | .ok _ k =>
              match copyInputs (fun k p => k.addControlInput p 1) o.core.ctrlIn.keys k with
              | .err e k => .err e (c.setSelf ⟨k, kind⟩)
              | .ok _ k => .ok id { c.setSelf ⟨k, kind⟩ with ops := c.ops.emplace id a }
    | _ => .err (.ub .dangling) c

/-- `createOutput(id, numPorts)` (Composite.h:203-216). -/
def Comp.createOutput (id : Str) (n : Nat) (c : Comp V) : Res (Comp V) Str :=
  match c.mem.heap c.self with
  | none => .err (.ub .dangling) c
  | some me =>
    match me.kind with
    | .composite inp out =>
      if c.ops.has id then .err (.exc .runtime) c
      else match out with
        | some _ => .err (.exc .runtime) c
        | none =>
          match (do Op.newOutput id (← portCount n) : Except Err (Op V)) with
          | .error e => .err e c
          | .ok o =>
            let a := c.mem.next
            let c := { c with mem := c.mem.alloc o }
            .ok id { c.setSelf ⟨copyOutputs o.core.outIds me.core, .composite inp (some a)⟩ with ops := c.ops.emplace id a }
    | _ => .err (.ub .dangling) c

/-- `getOperator(id)` (Composite.h:281-286): its address. -/
def Comp.getOperator (id : Str) (c : Comp V) : Except Err Nat :=
  match c.ops.find? id with
  | some a => .ok a
  | none => throwExc .runtime

/-- `createInternalConnection(operatorId, childId, outputPort, inputPort)` (Composite.h:288-303). -/
def Comp.createInternalConnection (a b outPort inPort : Str) (c : Comp V) : Res (Comp V) Unit :=
  match c.ops.find? a with
  | none => .err (.exc .runtime) c
  | some x =>
    match c.ops.find? b with
    | none => .err (.exc .runtime) c
    | some y =>
      match connectOp x y outPort inPort c.mem.st with
      | .err e s => .err e { c with mem := { c.mem with heap := s.heap } }
      | .ok true s => .ok () { c with mem := { c.mem with heap := s.heap } }
      | .ok false s => .err (.exc .runtime) { c with mem := { c.mem with heap := s.heap } }

end Rtbot
