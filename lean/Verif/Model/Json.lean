import Verif.Model.Process

/-! # JSON values

What the library uses of `nlohmann::json`: the value type and the accessors that occur in libs/api/src/FactoryOp.cpp, Program.cpp and
Pipeline.cpp. The text parser is not modelled; it is a parameter of the definitions in `Model/Create`. -/

namespace Rtbot

/-- `b!"text"` is the byte string of a literal. -/
syntax:max "b!" str : term
macro_rules
  | `(b! $s:str) => do
    let xs ← s.getString.toUTF8.toList.mapM fun b => `(($(Lean.quote b.toNat) : UInt8))
    `(([$(xs.toArray),*] : List UInt8))

/-- `nlohmann::json`. The parser produces `uint` (`number_unsigned`) for integer literals without sign, `int` (`number_integer`) for
negative ones and `float` for the rest; literals that do not fit 64 bits become `float`. Objects are `std::map`s. -/
inductive Json (V : Type)
  | null
  | bool (b : Bool)
  | uint (n : UInt64)
  | int (i : Int)
  | float (v : V)
  | str (s : Str)
  | arr (l : List (Json V))
  | obj (m : List (Str × Json V))

namespace Json
variable {V : Type}

/-- Const `operator[]` with a key: an exception when the value is not an object, undefined when the key is missing. -/
def sub (j : Json V) (k : Str) : Except Err (Json V) :=
  match j with
  | .obj m => match Map.find? m k with
    | some x => .ok x
    | none => undefined .endDeref
  | _ => throwExc .jsonOther

/-- `at(key)`: an exception in both cases. -/
def at' (j : Json V) (k : Str) : Except Err (Json V) :=
  match j with
  | .obj m => match Map.find? m k with
    | some x => .ok x
    | none => throwExc .jsonOther
  | _ => throwExc .jsonOther

/-- Const `operator[]` with an index: an exception when the value is not an array, undefined when the index is too large. -/
def idx (j : Json V) (n : Nat) : Except Err (Json V) :=
  match j with
  | .arr l => match l[n]? with
    | some x => .ok x
    | none => undefined .outOfBounds
  | _ => throwExc .jsonOther

/-- The values a range-based `for` visits: the elements of an array, the values of an object, nothing for `null`, the value itself
for a scalar. -/
def items : Json V → List (Json V)
  | .null => []
  | .arr l => l
  | .obj m => m.map (·.2)
  | j => [j]

/-- `get<string>()`. -/
def getStr : Json V → Except Err Str
  | .str s => .ok s
  | _ => throwExc .jsonOther

/-- Conversion of a signed integer to double. -/
def ofInt [Num V] (i : Int) : V := if i < 0 then Num.neg (Num.ofNat i.natAbs) else Num.ofNat i.natAbs

/-- `get<double>()`. -/
def getNum [Num V] : Json V → Except Err V
  | .uint n => .ok (Num.ofNat n.toNat)
  | .int i => .ok (ofInt i)
  | .float v => .ok v
  | _ => throwExc .jsonOther

/-- `get<uint64_t>()`, `get<size_t>()`: signed values modulo 2^64, floating point values truncated (undefined out of range). -/
def getU64 [Num V] : Json V → Except Err UInt64
  | .uint n => .ok n
  | .int i => .ok (UInt64.ofInt i)
  | .float v => toTimeE v
  | _ => throwExc .jsonOther

/-- Conversion of an integer to a 32 bit `int`. -/
def wrap32 (i : Int) : Int := (i + 2 ^ 31) % 2 ^ 32 - 2 ^ 31

/-- `(int) x` of a double: truncation, undefined out of range. -/
def truncInt [Num V] (v : V) : Except Err Int :=
  match Num.toTime v with
  | some t => if t.toNat < 2 ^ 31 then .ok t.toNat else undefined .badConversion
  | none => match Num.toTime (Num.neg v) with
    | some t => if t.toNat ≤ 2 ^ 31 then .ok (-t.toNat) else undefined .badConversion
    | none => undefined .badConversion

/-- `get<int>()`, which also accepts booleans. -/
def getInt [Num V] : Json V → Except Err Int
  | .uint n => .ok (wrap32 n.toNat)
  | .int i => .ok (wrap32 i)
  | .float v => truncInt v
  | .bool b => .ok (if b then 1 else 0)
  | _ => throwExc .jsonOther

/-- `value(key, default)` followed by the conversion to the type of the default. -/
def value {α : Type} (j : Json V) (k : Str) (dflt : α) (get : Json V → Except Err α) : Except Err α :=
  match j with
  | .obj m => match Map.find? m k with
    | some x => get x
    | none => .ok dflt
  | _ => throwExc .jsonOther

/-- The elements of an array (`get<vector<…>>()`). -/
def getArr : Json V → Except Err (List (Json V))
  | .arr l => .ok l
  | _ => throwExc .jsonOther

/-- `get<vector<double>>()`. -/
def getNums [Num V] (j : Json V) : Except Err (List V) := do
  let l ← j.getArr
  l.mapM getNum

/-- `get<vector<string>>()`. -/
def getStrs (j : Json V) : Except Err (List Str) := do
  let l ← j.getArr
  l.mapM getStr

/-- The loop of `get<map<string, vector<string>>>()`. -/
def getEntries : List (Str × Json V) → Map (List Str) → Except Err (Map (List Str))
  | [], out => .ok out
  | (k, x) :: rest, out => do
    let v ← x.getStrs
    getEntries rest (out.emplace k v)

/-- `get<map<string, vector<string>>>()`. -/
def getStrMap : Json V → Except Err (Map (List Str))
  | .obj m => getEntries m []
  | _ => throwExc .jsonOther

mutual
/-- Nesting depth. -/
def depth : Json V → Nat
  | .arr l => depthList l + 1
  | .obj m => depthMap m + 1
  | _ => 0
@[inherit_doc depth] def depthList : List (Json V) → Nat
  | [] => 0
  | x :: l => max (depth x) (depthList l)
@[inherit_doc depth] def depthMap : List (Str × Json V) → Nat
  | [] => 0
  | (_, x) :: m => max (depth x) (depthMap m)
end

end Json
end Rtbot
