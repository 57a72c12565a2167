import Mathlib.Data.List.Forall2
import Verif.Model.Create
import Verif.Spec.Built

/-! # Specification vocabulary for program descriptions -/

namespace Rtbot.Spec
variable {V : Type}

/-- The member of a description with the given key. -/
def Member (j : Json V) (k : Str) (x : Json V) : Prop := ∃ m, j = .obj m ∧ Map.find? m k = some x

/-- The description of an operator names the type. -/
def HasType (j : Json V) (t : Str) : Prop := Member j b!"type" (.str t)

/-- The description of an operator names the id. -/
def HasId (j : Json V) (id : Str) : Prop := Member j b!"id" (.str id)

/-- The descriptions of the operators of a program or pipeline, in order. -/
def Lists (j : Json V) (xs : List (Json V)) : Prop := Member j b!"operators" (.arr xs)

/-- The program uses no Pipeline. -/
def Flat (j : Json V) : Prop := ∀ os, Member j b!"operators" os → ∀ x ∈ os.items, ¬ HasType x b!"Pipeline"

/-- Every connection leads from an existing output port to an existing input port of an existing operator. -/
def ConnsOK (h : Nat → Option (Op V)) : Prop :=
  ∀ a o, h a = some o → ∀ p cs, (p, cs) ∈ o.core.outputs → p ∈ o.core.outIds ∧
    ∀ c ∈ cs, ∃ t, h c.target = some t ∧ (c.port ∈ t.core.dataIn.keys ∨ c.port ∈ t.core.ctrlIn.keys)

/-- The table of operators lists every operator under its id, and nothing else. -/
structure Indexed (ops : Map Nat) (h : Nat → Option (Op V)) : Prop where
  listed : ∀ id a, ops.find? id = some a → ∃ o, h a = some o ∧ o.core.id = id
  all : ∀ a o, h a = some o → ops.find? o.core.id = some a

/-! ## What a description says -/

variable [Num V]

/-- The number a value of a description stands for. -/
inductive Denotes : Json V → V → Prop
  | whole (n : UInt64) : Denotes (.uint n) (Num.ofNat n.toNat)
  | natural (n : Nat) : Denotes (.int n) (Num.ofNat n)
  | negative (n : Nat) (h : 0 < n) : Denotes (.int (-n)) (Num.neg (Num.ofNat n))
  | float (v : V) : Denotes (.float v) v

/-- The member, when present, is the natural number; when absent, the number is 1. -/
def Counts (j : Json V) (k : Str) (n : UInt64) : Prop := Member j k (.uint n) ∨ (∀ x, ¬ Member j k x) ∧ n = 1

/-- The operator the description of type, id and parameters asks for. The numbers behind "numPorts", "times", the "dt" of a TimeShift and
the "value" of a Variable are natural numbers below 2^31. The pair fills the members of a ConstantResampler that are not initialised.
There is no way to describe a Function, whose kind of interpolation is read from the member "type". -/
inductive Describes (junk : UInt64 × V) (j : Json V) : Op V → Prop
  | binary {t id op} (ht : HasType j t) (hid : HasId j id) (h : (t, op) ∈ [(b!"And", BinOp.and), (b!"Or", .or), (b!"Plus", .plus), (b!"Minus", .minus),
      (b!"Multiplication", .mul), (b!"Division", .div), (b!"GreaterThanStream", .gtStream), (b!"LessThanStream", .ltStream)]) :
      Describes junk j (Op.newBinary id op)
  | filter {t id f x v} (ht : HasType j t) (hid : HasId j id) (h : (t, f) ∈ [(b!"GreaterThan", FilterOp.greaterThan), (b!"LessThan", .lessThan),
      (b!"EqualTo", .equalTo)]) (hx : Member j b!"value" x) (hv : Denotes x v) : Describes junk j (Op.newFilter id f v)
  | constant {id x v} (ht : HasType j b!"Constant") (hid : HasId j id) (hx : Member j b!"value" x) (hv : Denotes x v) : Describes junk j (Op.newConstant id v)
  | add {id x v} (ht : HasType j b!"Add") (hid : HasId j id) (hx : Member j b!"value" x) (hv : Denotes x v) : Describes junk j (Op.newAdd id v)
  | scale {id x v} (ht : HasType j b!"Scale") (hid : HasId j id) (hx : Member j b!"value" x) (hv : Denotes x v) : Describes junk j (Op.newScale id v)
  | power {id x v} (ht : HasType j b!"Power") (hid : HasId j id) (hx : Member j b!"value" x) (hv : Denotes x v) : Describes junk j (Op.newPower id v)
  | movAvg {id n} (ht : HasType j b!"MovingAverage") (hid : HasId j id) (hn : Member j b!"n" (.uint n)) : Describes junk j (Op.newMovAvg id n.toNat)
  | stdDev {id n} (ht : HasType j b!"StandardDeviation") (hid : HasId j id) (hn : Member j b!"n" (.uint n)) : Describes junk j (Op.newStdDev id n.toNat)
  | peak {id n} (ht : HasType j b!"PeakDetector") (hid : HasId j id) (hn : Member j b!"n" (.uint n)) : Describes junk j (Op.newPeak id n.toNat)
  | rsi {id n} (ht : HasType j b!"RelativeStrengthIndex") (hid : HasId j id) (hn : Member j b!"n" (.uint n)) : Describes junk j (Op.newRsi id n.toNat)
  | cumSum {id} (ht : HasType j b!"CumulativeSum") (hid : HasId j id) : Describes junk j (Op.newCumSum id)
  | count {id} (ht : HasType j b!"Count") (hid : HasId j id) : Describes junk j (Op.newCount id)
  | difference {id} (ht : HasType j b!"Difference") (hid : HasId j id) : Describes junk j (Op.newDifference id true)
  | identity {id} (ht : HasType j b!"Identity") (hid : HasId j id) : Describes junk j (Op.newIdentity id)
  | input {id n o} (ht : HasType j b!"Input") (hid : HasId j id) (hn : Counts j b!"numPorts" n) (hb : n.toNat < 2 ^ 31)
      (h : Op.newInput id n.toNat = .ok o) : Describes junk j o
  | output {id n o} (ht : HasType j b!"Output") (hid : HasId j id) (hn : Counts j b!"numPorts" n) (hb : n.toNat < 2 ^ 31)
      (h : Op.newOutput id n.toNat = .ok o) : Describes junk j o
  | demux {id n o} (ht : HasType j b!"Demultiplexer") (hid : HasId j id) (hn : Counts j b!"numPorts" n) (hb : n.toNat < 2 ^ 31)
      (h : Op.newDemux id n.toNat = .ok o) : Describes junk j o
  | join {id n o} (ht : HasType j b!"Join") (hid : HasId j id) (hn : Member j b!"numPorts" (.uint n)) (hb : n.toNat < 2 ^ 31)
      (h : Op.newJoin id n.toNat = .ok o) : Describes junk j o
  | cosRes {id dt} (ht : HasType j b!"CosineResampler") (hid : HasId j id) (hd : Member j b!"dt" (.uint dt)) : Describes junk j (Op.newCosRes id dt)
  | hermRes {id dt} (ht : HasType j b!"HermiteResampler") (hid : HasId j id) (hd : Member j b!"dt" (.uint dt)) : Describes junk j (Op.newHermRes id dt)
  | constRes {id dt o} (ht : HasType j b!"ConstantResampler") (hid : HasId j id) (hd : Member j b!"interval" (.uint dt))
      (h : Op.newConstRes id dt junk.1 junk.2 = .ok o) : Describes junk j o
  | fir {id xs vs} (ht : HasType j b!"FiniteImpulseResponse") (hid : HasId j id) (hx : Member j b!"coeff" (.arr xs)) (hv : List.Forall₂ Denotes xs vs) :
      Describes junk j (Op.newFir id vs)
  | autoReg {id xs vs} (ht : HasType j b!"AutoRegressive") (hid : HasId j id) (hx : Member j b!"coeff" (.arr xs)) (hv : List.Forall₂ Denotes xs vs) :
      Describes junk j (Op.newAutoReg id vs)
  | linear {id xs vs o} (ht : HasType j b!"Linear") (hid : HasId j id) (hx : Member j b!"coeff" (.arr xs)) (hv : List.Forall₂ Denotes xs vs)
      (h : Op.newLinear id vs = .ok o) : Describes junk j o
  | timeShift {id dt times} (ht : HasType j b!"TimeShift") (hid : HasId j id) (hd : Counts j b!"dt" dt) (hdb : dt.toNat < 2 ^ 31)
      (hn : Counts j b!"times" times) (hnb : times.toNat < 2 ^ 31) : Describes junk j (Op.newTimeShift id dt times.toNat)
  | variable {id} {n : UInt64} (ht : HasType j b!"Variable") (hid : HasId j id)
      (hv : Member j b!"value" (.uint n) ∨ (∀ x, ¬ Member j b!"value" x) ∧ n = 0) (hb : n.toNat < 2 ^ 31) : Describes junk j (Op.newVariable id (Num.ofNat n.toNat))

/-- The parameters that must be integers are given as natural numbers, below 2^31 where the code reads an `int`. -/
structure Whole (j : Json V) : Prop where
  natural : ∀ k ∈ [b!"n", b!"dt", b!"interval", b!"numPorts", b!"times"], ∀ x, Member j k x → ∃ n, x = .uint n
  small : ∀ k ∈ [b!"numPorts", b!"times"], ∀ n, Member j k (.uint n) → n.toNat < 2 ^ 31
  shift : HasType j b!"TimeShift" → ∀ n, Member j b!"dt" (.uint n) → n.toNat < 2 ^ 31
  value : HasType j b!"Variable" → ∀ x, Member j b!"value" x → ∃ n : UInt64, x = .uint n ∧ n.toNat < 2 ^ 31

/-- All numbers in the parameters are finite, and the ones that are read as an `int` are of that type. -/
def Writable (o : Op V) : Prop :=
  match o.kind with
  | .filter _ v | .add v | .scale v | .power v | .constant v => Num.eq (v -. v) (v -. v) = true
  | .linear coeff | .fir coeff | .autoReg coeff => ∀ v ∈ coeff, Num.eq (v -. v) (v -. v) = true
  | .input _ _ | .output _ | .join _ => o.core.dataIn.length < 2 ^ 31
  | .demux _ => o.core.outIds.length < 2 ^ 31
  | .movAvg | .stdDev | .peak => ∀ e ∈ o.core.dataIn, e.2.max < 2 ^ 64
  | .timeShift dt times => dt.toNat < 2 ^ 31 ∧ - 2 ^ 31 ≤ times ∧ times < 2 ^ 31
  | .variable v _ => Num.eq (v -. v) (v -. v) = true ∧ ∃ n : UInt64, n.toNat < 2 ^ 31 ∧ v = Num.ofNat n.toNat ∧ Num.toTime v = some n
  | .difference useOldest => useOldest = true
  | .rsi _ | .function _ _ | .collector | .composite _ _ | .pipeline _ _ _ => False
  | _ => True

end Rtbot.Spec
