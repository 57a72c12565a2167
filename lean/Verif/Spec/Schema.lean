import Verif.Spec.Wiring

/-! # Specification vocabulary: what the documentation of the operators asks for -/

namespace Rtbot.Spec
variable {V : Type}

/-- A number. -/
inductive IsNumber : Json V → Prop
  | uint (n : UInt64) : IsNumber (.uint n)
  | int (i : Int) : IsNumber (.int i)
  | float (v : V) : IsNumber (.float v)

/-- A number written as an integer. -/
inductive IsInteger : Json V → Prop
  | uint (n : UInt64) : IsInteger (.uint n)
  | int (i : Int) : IsInteger (.int i)

/-- An integer between a positive bound and 2^63. -/
inductive AtLeast (lo : Nat) : Json V → Prop
  | uint (n : UInt64) (h : lo ≤ n.toNat) (hb : n.toNat < 2 ^ 63) : AtLeast lo (.uint n)
  | int (i : Int) (h : lo ≤ i) : AtLeast lo (.int i)

/-- A text. -/
def IsText (x : Json V) : Prop := ∃ s, x = .str s

/-- A list of the given kind. -/
def ListOf (P : Json V → Prop) (x : Json V) : Prop := ∃ l, x = .arr l ∧ ∀ y ∈ l, P y

/-- The member exists and is of the given kind. -/
def Needs (j : Json V) (k : Str) (P : Json V → Prop) : Prop := ∃ x, Member j k x ∧ P x

/-- The member, when it exists, is of the given kind. -/
def May (j : Json V) (k : Str) (P : Json V → Prop) : Prop := ∀ x, Member j k x → P x

/-- The parameters that the documentation of an operator type describes are present and of the right kind. -/
inductive DocParams (j : Json V) : Str → Prop
  | plain {t} (h : t ∈ [b!"And", b!"Or", b!"Plus", b!"Minus", b!"Multiplication", b!"Division", b!"GreaterThanStream", b!"LessThanStream",
      b!"CumulativeSum", b!"Count", b!"Difference", b!"Identity"]) : DocParams j t
  | value {t} (h : t ∈ [b!"Add", b!"Scale", b!"Power", b!"Constant", b!"GreaterThan", b!"EqualTo"]) (hv : Needs j b!"value" IsNumber) : DocParams j t
  | lessThan (hv : Needs j b!"value" IsInteger) : DocParams j b!"LessThan"
  | window {t} (h : t ∈ [b!"MovingAverage", b!"PeakDetector"]) (hn : Needs j b!"n" IsInteger) : DocParams j t
  | stdDev (hn : Needs j b!"n" IsNumber) : DocParams j b!"StandardDeviation"
  | resampler {t} (h : t ∈ [b!"CosineResampler", b!"HermiteResampler"]) (hn : Needs j b!"dt" IsInteger) : DocParams j t
  | constRes (hn : Needs j b!"interval" (AtLeast 1)) : DocParams j b!"ConstantResampler"
  | ports {t} (h : t ∈ [b!"Input", b!"Output", b!"Demultiplexer"]) (hn : May j b!"numPorts" (AtLeast 1)) : DocParams j t
  | join (hn : May j b!"numPorts" (AtLeast 2)) : DocParams j b!"Join"
  | fir (hc : Needs j b!"coeff" (ListOf IsNumber)) : DocParams j b!"FiniteImpulseResponse"
  | autoReg (hc : Needs j b!"coeff" fun x => ListOf IsNumber x ∧ x ≠ .arr []) : DocParams j b!"AutoRegressive"
  | linear (hc : May j b!"coeff" fun x => ListOf IsNumber x ∧ 2 ≤ x.items.length) : DocParams j b!"Linear"
  | timeShift (hd : May j b!"dt" (AtLeast 1)) (ht : May j b!"times" IsInteger) : DocParams j b!"TimeShift"
  | variable (hv : May j b!"value" IsNumber) : DocParams j b!"Variable"
  | function (hp : Needs j b!"points" fun x => ListOf (fun p => ∃ a b, p = .arr [a, b] ∧ IsNumber a ∧ IsNumber b) x ∧ 2 ≤ x.items.length) :
      DocParams j b!"Function"

/-- The description of an operator of a documented type. -/
structure DocOp (j : Json V) (t : Str) : Prop where
  type : HasType j t
  id : Needs j b!"id" IsText
  params : DocParams j t

/-- The documented description of a connection. -/
structure DocConn (j : Json V) : Prop where
  src : Needs j b!"from" IsText
  dst : Needs j b!"to" IsText
  out : May j b!"fromPort" IsText
  inp : May j b!"toPort" IsText
  only : ∀ m, j = .obj m → ∀ k ∈ Map.keys m, k ∈ [b!"from", b!"to", b!"fromPort", b!"toPort"]

/-- The character of a decimal digit. -/
def digit (n : Nat) : UInt8 := UInt8.ofNat (48 + n)

/-- The lengths of the months of a year. -/
def monthLengths (year : Nat) : List Nat :=
  [31, if 400 ∣ year ∨ 4 ∣ year ∧ ¬ 100 ∣ year then 29 else 28, 31, 30, 31, 30, 31, 31, 30, 31, 30, 31]

/-- A calendar date, yyyy-mm-dd. -/
def IsDate (x : Json V) : Prop :=
  ∃ y1 y2 y3 y4 m1 m2 d1 d2 n, x = .str [digit y1, digit y2, digit y3, digit y4, 45, digit m1, digit m2, 45, digit d1, digit d2] ∧
    (∀ d ∈ [y1, y2, y3, y4, m1, m2, d1, d2], d ≤ 9) ∧ 1 ≤ m1 * 10 + m2 ∧
    (monthLengths (y1 * 1000 + y2 * 100 + y3 * 10 + y4))[m1 * 10 + m2 - 1]? = some n ∧ 1 ≤ d1 * 10 + d2 ∧ d1 * 10 + d2 ≤ n

/-- The keys of an output filter that are checked: upper case letters, digits, lower case letters from a to t, underscore and hyphen. -/
def Checked (k : Str) : Prop := k ≠ [] ∧ ∀ c ∈ k, (65 ≤ c ∧ c ≤ 90) ∨ (48 ≤ c ∧ c ≤ 57) ∨ (97 ≤ c ∧ c ≤ 116) ∨ c = 95 ∨ c = 45

/-- The description of a program that follows the documentation. -/
structure DocProgram (j : Json V) : Prop where
  entry : Needs j b!"entryOperator" IsText
  operators : Needs j b!"operators" (ListOf fun x => ∃ t, DocOp x t)
  connections : Needs j b!"connections" (ListOf DocConn)
  output : May j b!"output" fun x => ∃ m, x = .obj m ∧ ∀ k y, (k, y) ∈ m → Checked k → ListOf IsText y
  texts : ∀ k ∈ [b!"title", b!"description", b!"author", b!"license"], May j k IsText
  version : May j b!"apiVersion" fun x => x = .str b!"v1"
  date : May j b!"date" IsDate

/-- A description in which the parameters are such that the code takes them as they are: the integers are natural numbers in range (see `Whole`),
the parameters of a Join and a Linear are present, and it is not a Function. -/
structure Sane (x : Json V) : Prop where
  whole : Whole x
  join : HasType x b!"Join" → ∃ y, Member x b!"numPorts" y
  linear : HasType x b!"Linear" → ∃ y, Member x b!"coeff" y
  noFunction : ¬ HasType x b!"Function"

/-- The descriptions the factory reads and the documentation covers: not a RelativeStrengthIndex, a LessThan with an integer, an Input or Output
with ports, an AutoRegressive with coefficients, a TimeShift that shifts, an interval that is a positive `int64_t`. -/
structure Documented (x : Json V) : Prop where
  notRsi : ¬ HasType x b!"RelativeStrengthIndex"
  lessThan : HasType x b!"LessThan" → ∀ y, Member x b!"value" y → IsInteger y
  input : HasType x b!"Input" → ¬ Member x b!"numPorts" (.uint 0)
  output : HasType x b!"Output" → ¬ Member x b!"numPorts" (.uint 0)
  autoReg : HasType x b!"AutoRegressive" → ¬ Member x b!"coeff" (.arr [])
  shift : HasType x b!"TimeShift" → ¬ Member x b!"dt" (.uint 0)
  interval : HasType x b!"ConstantResampler" → ∀ n, Member x b!"interval" (.uint n) → n.toNat < 2 ^ 63

/-- The operators of the description are sane. -/
def AllSane (j : Json V) : Prop := ∀ os, Member j b!"operators" os → ∀ x ∈ os.items, Sane x

/-- The first description of an operator with this id. -/
def FirstWith (xs : List (Json V)) (id : Str) (x : Json V) : Prop := ∃ pre post, xs = pre ++ x :: post ∧ HasId x id ∧ ∀ y ∈ pre, ¬ HasId y id

/-- The connection leads from an output port to an input port of described operators. -/
def Connectable [Num V] (xs : List (Json V)) (c : Json V) : Prop :=
  ∃ f t x y junk o o', Member c b!"from" (.str f) ∧ Member c b!"to" (.str t) ∧ FirstWith xs f x ∧ FirstWith xs t y ∧
    Describes junk x o ∧ Describes junk y o' ∧ (∃ n p, NamesPort c b!"fromPort" n ∧ MeansOutput o.core n p) ∧
    ∃ n q, NamesPort c b!"toPort" n ∧ MeansInput o'.core n q

/-- The types of operators with a documentation. -/
def docTypes : List Str :=
  [b!"Add", b!"And", b!"AutoRegressive", b!"Constant", b!"ConstantResampler", b!"CosineResampler", b!"Count", b!"CumulativeSum", b!"Demultiplexer",
   b!"Difference", b!"Division", b!"EqualTo", b!"FiniteImpulseResponse", b!"Function", b!"GreaterThan", b!"GreaterThanStream", b!"HermiteResampler",
   b!"Identity", b!"Input", b!"Join", b!"LessThan", b!"LessThanStream", b!"Linear", b!"Minus", b!"MovingAverage", b!"Multiplication", b!"Or",
   b!"Output", b!"PeakDetector", b!"Plus", b!"Power", b!"Scale", b!"StandardDeviation", b!"TimeShift", b!"Variable"]

/-- A description as the answer of the parser. -/
def parsed (j : Json V) : Parser V := fun _ => .ok j

end Rtbot.Spec
