import Verif.Model.Composite
import Verif.Spec.Wiring
import Verif.Spec.Built
import Verif.Spec.Factory
import Verif.Spec.Create

/-! # Specification vocabulary: what the calls that build a Composite ask for -/

namespace Rtbot.Spec
variable {V : Type} [Num V]

/-- The description of a program that asks for the same operator, when there is one: a Difference can only be described with the oldest time, and a Variable only with
a natural number. -/
inductive Says (id : Str) : Creator V → Json V → Prop
  | add (v : V) : Says id (.add v) (.obj [(b!"id", .str id), (b!"type", .str b!"Add"), (b!"value", .float v)])
  | autoRegressive (vs : List V) : Says id (.autoRegressive vs) (.obj [(b!"coeff", .arr (vs.map .float)), (b!"id", .str id), (b!"type", .str b!"AutoRegressive")])
  | constant (v : V) : Says id (.constant v) (.obj [(b!"id", .str id), (b!"type", .str b!"Constant"), (b!"value", .float v)])
  | cosineResampler (dt : UInt64) : Says id (.cosineResampler dt) (.obj [(b!"dt", .uint dt), (b!"id", .str id), (b!"type", .str b!"CosineResampler")])
  | count : Says id .count (.obj [(b!"id", .str id), (b!"type", .str b!"Count")])
  | cumulativeSum : Says id .cumulativeSum (.obj [(b!"id", .str id), (b!"type", .str b!"CumulativeSum")])
  | difference : Says id (.difference true) (.obj [(b!"id", .str id), (b!"type", .str b!"Difference")])
  | join (n : UInt64) (h : n.toNat < 2 ^ 31) : Says id (.join n.toNat) (.obj [(b!"id", .str id), (b!"numPorts", .uint n), (b!"type", .str b!"Join")])
  | division : Says id .division (.obj [(b!"id", .str id), (b!"type", .str b!"Division")])
  | minus : Says id .minus (.obj [(b!"id", .str id), (b!"type", .str b!"Minus")])
  | linear (vs : List V) : Says id (.linear vs) (.obj [(b!"coeff", .arr (vs.map .float)), (b!"id", .str id), (b!"type", .str b!"Linear")])
  | equalTo (v : V) : Says id (.equalTo v) (.obj [(b!"id", .str id), (b!"type", .str b!"EqualTo"), (b!"value", .float v)])
  | greaterThan (v : V) : Says id (.greaterThan v) (.obj [(b!"id", .str id), (b!"type", .str b!"GreaterThan"), (b!"value", .float v)])
  | lessThan (v : V) : Says id (.lessThan v) (.obj [(b!"id", .str id), (b!"type", .str b!"LessThan"), (b!"value", .float v)])
  | hermiteResampler (dt : UInt64) : Says id (.hermiteResampler dt) (.obj [(b!"dt", .uint dt), (b!"id", .str id), (b!"type", .str b!"HermiteResampler")])
  | identity : Says id .identity (.obj [(b!"id", .str id), (b!"type", .str b!"Identity")])
  | movingAverage (n : UInt64) : Says id (.movingAverage n.toNat) (.obj [(b!"id", .str id), (b!"n", .uint n), (b!"type", .str b!"MovingAverage")])
  | finiteImpulseResponse (vs : List V) :
    Says id (.finiteImpulseResponse vs) (.obj [(b!"coeff", .arr (vs.map .float)), (b!"id", .str id), (b!"type", .str b!"FiniteImpulseResponse")])
  | «variable» (n : UInt64) (h : n.toNat < 2 ^ 31) :
    Says id (.variable (Num.ofNat n.toNat)) (.obj [(b!"id", .str id), (b!"type", .str b!"Variable"), (b!"value", .uint n)])
  | peakDetector (n : UInt64) : Says id (.peakDetector n.toNat) (.obj [(b!"id", .str id), (b!"n", .uint n), (b!"type", .str b!"PeakDetector")])
  | standardDeviation (n : UInt64) : Says id (.standardDeviation n.toNat) (.obj [(b!"id", .str id), (b!"n", .uint n), (b!"type", .str b!"StandardDeviation")])
  | demultiplexer (n : UInt64) (h : n.toNat < 2 ^ 31) :
    Says id (.demultiplexer n.toNat) (.obj [(b!"id", .str id), (b!"numPorts", .uint n), (b!"type", .str b!"Demultiplexer")])
  | power (v : V) : Says id (.power v) (.obj [(b!"id", .str id), (b!"type", .str b!"Power"), (b!"value", .float v)])
  | scale (v : V) : Says id (.scale v) (.obj [(b!"id", .str id), (b!"type", .str b!"Scale"), (b!"value", .float v)])
  | timeShift (dt times : UInt64) (hd : dt.toNat < 2 ^ 31) (ht : times.toNat < 2 ^ 31) :
    Says id (.timeShift dt times.toNat) (.obj [(b!"dt", .uint dt), (b!"id", .str id), (b!"times", .uint times), (b!"type", .str b!"TimeShift")])

/-- A call of a member function that builds. -/
inductive CompCall (V : Type)
  | input (id : Str) (numPorts : Nat)
  | output (id : Str) (numPorts : Nat)
  | create (id : Str) (k : Creator V)
  | connect (src dst outPort inPort : Str)

/-- The call on the Composite. -/
def CompCall.on (c : Comp V) : CompCall V → Res (Comp V) Unit
  | .input id n => (c.createInput id n).as fun _ => ()
  | .output id n => (c.createOutput id n).as fun _ => ()
  | .create id k => (c.create k id).as fun _ => ()
  | .connect a b p q => c.createInternalConnection a b p q

/-- The Composite after some calls, whether they returned or threw. -/
def Comp.built (c : Comp V) : List (CompCall V) → Comp V
  | [] => c
  | x :: xs => Comp.built (x.on c).state xs

/-- A connection between operators known by their ids. -/
structure Link where
  src : Str
  out : Str
  dst : Str
  inp : Str

/-- What a Composite is meant to be: operators by id, as their constructors make them and in the order in which they were asked for, the ids of the Input and
of the Output, and the connections in the order in which they were asked for. -/
structure Plan (V : Type) where
  ops : List (Str × Op V)
  input : Option Str
  output : Option Str
  links : List Link

/-- Nothing yet. -/
def Plan.empty : Plan V := ⟨[], none, none, []⟩

/-- There is an operator of this id. -/
def Plan.Used (p : Plan V) (id : Str) : Prop := ∃ o, (id, o) ∈ p.ops

/-- The call is permitted and changes the plan like this. -/
inductive Plan.Takes (p : Plan V) : CompCall V → Plan V → Prop
  | input {id : Str} {n : Nat} {o : Op V} (new : ¬ p.Used id) (none : p.input = none) (size : n < 2 ^ 31) (make : Op.newInput id n = .ok o) :
    Takes p (.input id n) { p with ops := p.ops ++ [(id, o)], input := some id }
  | output {id : Str} {n : Nat} {o : Op V} (new : ¬ p.Used id) (none : p.output = none) (size : n < 2 ^ 31) (make : Op.newOutput id n = .ok o) :
    Takes p (.output id n) { p with ops := p.ops ++ [(id, o)], output := some id }
  | create {id : Str} {k : Creator V} {o : Op V} (new : ¬ p.Used id) (make : k.make id = .ok o) :
    Takes p (.create id k) { p with ops := p.ops ++ [(id, o)] }
  | connect {a b out inp x y : Str} {o o' : Op V} (src : (a, o) ∈ p.ops) (dst : (b, o') ∈ p.ops) (source : MeansOutput o.core out x)
    (target : MeansInput o'.core inp y) : Takes p (.connect a b out inp) { p with links := p.links ++ [⟨a, x, b, y⟩] }

/-- The plan after some calls: those that are not permitted change nothing. -/
inductive Plan.After : Plan V → List (CompCall V) → Plan V → Prop
  | done (p : Plan V) : After p [] p
  | taken {p p' p'' : Plan V} {x : CompCall V} {xs : List (CompCall V)} (h : p.Takes x p') (t : After p' xs p'') : After p (x :: xs) p''
  | refused {p p'' : Plan V} {x : CompCall V} {xs : List (CompCall V)} (h : ∀ p', ¬ p.Takes x p') (t : After p xs p'') : After p (x :: xs) p''

/-- The connections a plan has for an output of an operator, given where the operators are. -/
def Plan.conns (p : Plan V) (place : Map Nat) (id out : Str) : List Conn :=
  p.links.filterMap fun l => if l.src = id ∧ l.out = out then (place.find? l.dst).map fun a => ⟨a, l.inp⟩ else none

/-- The Composite `c`, built in the memory `m`, is as planned. -/
structure Carries (m : Mem V) (id0 : Str) (c : Comp V) (p : Plan V) : Prop where
  /-- the operators have their own places, away from everything else, -/
  place : ∀ id a, c.ops.find? id = some a → m.next < a
  apart : ∀ id id' a, c.ops.find? id = some a → c.ops.find? id' = some a → id = id'
  once : (p.ops.map Prod.fst).Nodup
  /-- they are the operators of the plan with its connections, -/
  ops : ∀ id a, c.ops.find? id = some a → ∃ o outs, (id, o) ∈ p.ops ∧ c.mem.heap a = some { o with core := { o.core with outputs := outs } } ∧
    ∀ q, connsOf c.mem.heap a q = p.conns c.ops id q
  all : ∀ id, p.Used id → ∃ a, c.ops.find? id = some a
  /-- the Composite knows its Input and its Output and has their ports, -/
  self : ∃ me, c.mem.heap c.self = some me ∧ me.core.id = id0 ∧ me.kind = .composite (p.input.bind fun i => c.ops.find? i) (p.output.bind fun i => c.ops.find? i) ∧
    (∀ q, q ∈ me.core.dataIn.keys ↔ ∃ i o, p.input = some i ∧ (i, o) ∈ p.ops ∧ q ∈ o.core.dataIn.keys) ∧ me.core.ctrlIn = [] ∧
    ∀ q, q ∈ me.core.outIds ↔ ∃ i o, p.output = some i ∧ (i, o) ∈ p.ops ∧ q ∈ o.core.outIds
  /-- and everything else is as it was. -/
  others : ∀ a, a < m.next → c.mem.heap a = m.heap a

end Rtbot.Spec
