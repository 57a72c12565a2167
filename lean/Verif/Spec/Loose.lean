import Verif.Spec.Create

/-! # Specification vocabulary: what the factory makes of any description -/

namespace Rtbot.Spec
variable {V : Type} [Num V]

/-- What a value is as an integer of 64 bits: negative numbers modulo 2^64, numbers with a fraction without it. -/
inductive Reads64 : Json V → UInt64 → Prop
  | natural (n : UInt64) : Reads64 (.uint n) n
  | signed (i : Int) (n : UInt64) (h : (n.toNat : Int) = i % 2 ^ 64) : Reads64 (.int i) n
  | float (v : V) (n : UInt64) (h : Num.toTime v = some n) : Reads64 (.float v) n

/-- What a value is as an integer of 32 bits with a sign: modulo 2^32, without a fraction, and 0 or 1 for a truth value. -/
inductive Reads32 : Json V → Int → Prop
  | natural (n : UInt64) (i : Int) (h : (n.toNat : Int) % 2 ^ 32 = i % 2 ^ 32) (lo : -2 ^ 31 ≤ i) (hi : i < 2 ^ 31) : Reads32 (.uint n) i
  | signed (k i : Int) (h : k % 2 ^ 32 = i % 2 ^ 32) (lo : -2 ^ 31 ≤ i) (hi : i < 2 ^ 31) : Reads32 (.int k) i
  | positive (v : V) (n : UInt64) (h : Num.toTime v = some n) (hi : n.toNat < 2 ^ 31) : Reads32 (.float v) n.toNat
  | negative (v : V) (n : UInt64) (h : Num.toTime v = none) (h' : Num.toTime (Num.neg v) = some n) (hi : n.toNat ≤ 2 ^ 31) : Reads32 (.float v) (-n.toNat)
  | yes : Reads32 (.bool true) 1
  | no : Reads32 (.bool false) 0

/-- The member as an integer, or a default when it is absent. -/
def Given32 (j : Json V) (k : Str) (d i : Int) : Prop := (∃ x, Member j k x ∧ Reads32 x i) ∨ (∀ x, ¬ Member j k x) ∧ i = d

/-- The double with the value of an integer. -/
inductive AsInt : Int → V → Prop
  | natural (n : Nat) : AsInt n (Num.ofNat n)
  | negative (n : Nat) (h : 0 < n) : AsInt (-n) (Num.neg (Num.ofNat n))

/-- The operator that is made of a description, whatever the values of its parameters. -/
inductive Loosely (junk : UInt64 × V) (j : Json V) : Op V → Prop
  | exact {o} (h : Describes junk j o) : Loosely junk j o
  | movAvg {id x n} (ht : HasType j b!"MovingAverage") (hid : HasId j id) (hx : Member j b!"n" x) (hn : Reads64 x n) : Loosely junk j (Op.newMovAvg id n.toNat)
  | stdDev {id x n} (ht : HasType j b!"StandardDeviation") (hid : HasId j id) (hx : Member j b!"n" x) (hn : Reads64 x n) : Loosely junk j (Op.newStdDev id n.toNat)
  | peak {id x n} (ht : HasType j b!"PeakDetector") (hid : HasId j id) (hx : Member j b!"n" x) (hn : Reads64 x n) : Loosely junk j (Op.newPeak id n.toNat)
  | rsi {id x n} (ht : HasType j b!"RelativeStrengthIndex") (hid : HasId j id) (hx : Member j b!"n" x) (hn : Reads64 x n) : Loosely junk j (Op.newRsi id n.toNat)
  | input {id o} {n : Nat} (ht : HasType j b!"Input") (hid : HasId j id) (hn : Given32 j b!"numPorts" 1 n) (h : Op.newInput id n = .ok o) : Loosely junk j o
  | output {id o} {n : Nat} (ht : HasType j b!"Output") (hid : HasId j id) (hn : Given32 j b!"numPorts" 1 n) (h : Op.newOutput id n = .ok o) : Loosely junk j o
  | demux {id o} {n : Nat} (ht : HasType j b!"Demultiplexer") (hid : HasId j id) (hn : Given32 j b!"numPorts" 1 n) (h : Op.newDemux id n = .ok o) : Loosely junk j o
  | join {id x n o} (ht : HasType j b!"Join") (hid : HasId j id) (hx : Member j b!"numPorts" x) (hn : Reads64 x n) (hb : n.toNat < 2 ^ 31)
      (h : Op.newJoin id n.toNat = .ok o) : Loosely junk j o
  | cosRes {id x dt} (ht : HasType j b!"CosineResampler") (hid : HasId j id) (hx : Member j b!"dt" x) (hd : Reads64 x dt) : Loosely junk j (Op.newCosRes id dt)
  | hermRes {id x dt} (ht : HasType j b!"HermiteResampler") (hid : HasId j id) (hx : Member j b!"dt" x) (hd : Reads64 x dt) : Loosely junk j (Op.newHermRes id dt)
  | constRes {id x dt o} (ht : HasType j b!"ConstantResampler") (hid : HasId j id) (hx : Member j b!"interval" x) (hd : Reads64 x dt)
      (h : Op.newConstRes id dt junk.1 junk.2 = .ok o) : Loosely junk j o
  | timeShift {id i times} {dt : UInt64} (ht : HasType j b!"TimeShift") (hid : HasId j id) (hd : Given32 j b!"dt" 1 i) (hdt : (dt.toNat : Int) = i % 2 ^ 64)
      (hn : Given32 j b!"times" 1 times) : Loosely junk j (Op.newTimeShift id dt times)
  | variable {id i v} (ht : HasType j b!"Variable") (hid : HasId j id) (hi : Given32 j b!"value" 0 i) (hv : AsInt i v) : Loosely junk j (Op.newVariable id v)

end Rtbot.Spec
