/-! # Base vocabulary of the model

Byte strings, sorted maps and sets (`std::map<std::string, _>`, `std::set<std::string>`), outcomes (normal return, C++ exception,
undefined behaviour, non-termination) and the small state/outcome monad used by the rest of the model. -/

namespace Rtbot

/-- `std::string`: a sequence of bytes. Port names, operator ids, program ids. -/
abbrev Str := List UInt8

/-- `operator<` of `std::string`: lexicographic order on unsigned bytes. This is the iteration order of every
`std::map<std::string, _>` / `std::set<std::string>` used in libs/core/include/rtbot/Operator.h:141-145. -/
def strLt : Str → Str → Bool
  | [], [] => false
  | [], _ :: _ => true
  | _ :: _, [] => false
  | a :: as, b :: bs => a < b || (a == b && strLt as bs)

/-- Reversed decimal digits with explicit fuel (`fuel > n` is always enough). -/
def decRev : Nat → Nat → Str
  | 0, _ => []
  | f + 1, n => if n < 10 then [UInt8.ofNat (48 + n)] else UInt8.ofNat (48 + n % 10) :: decRev f (n / 10)

/-- `std::to_string` of a non-negative integer. -/
def toStr (n : Nat) : Str := (decRev (n + 1) n).reverse

/-- `string("i") + to_string(n)` (Join.h:19, Input.h:17, Output.h:21, Linear.h:19, Pipeline.cpp:85). -/
def iPort (n : Nat) : Str := 105 :: toStr n
/-- `string("o") + to_string(n)` (Join.h:20, Input.h:18, Demultiplexer.h:18, Pipeline.cpp:93). -/
def oPort (n : Nat) : Str := 111 :: toStr n
/-- `string("c") + to_string(n)` (Demultiplexer.h:17). -/
def cPort (n : Nat) : Str := 99 :: toStr n

/-- The literals "i1", "i2", "o1", "c1" that occur all over libs/std. -/
def i1 : Str := [105, 49]
@[inherit_doc i1] def i2 : Str := [105, 50]
@[inherit_doc i1] def o1 : Str := [111, 49]
@[inherit_doc i1] def c1 : Str := [99, 49]

/-- `std::map<std::string, β>` as the list of its entries in iteration order. -/
abbrev Map (β : Type) := List (Str × β)

namespace Map
variable {β : Type}

/-- `m.find(k)`. -/
def find? : Map β → Str → Option β
  | [], _ => none
  | (k', v) :: m, k => if k' = k then some v else find? m k

/-- `m.count(k) > 0`. -/
def has (m : Map β) (k : Str) : Bool := (m.find? k).isSome

/-- `m[k] = v`: replace or insert at the sorted position. -/
def put : Map β → Str → β → Map β
  | [], k, v => [(k, v)]
  | (k', v') :: m, k, v =>
    if k' = k then (k, v) :: m
    else if strLt k k' then (k, v) :: (k', v') :: m
    else (k', v') :: put m k v

/-- `m.emplace(k, v)` / `m.insert({k, v})`: no effect when the key is present. -/
def emplace (m : Map β) (k : Str) (v : β) : Map β := if m.has k then m else m.put k v

/-- `m.erase(k)`. -/
def erase (m : Map β) (k : Str) : Map β := m.filter (fun e => e.1 ≠ k)

/-- The keys in iteration order. -/
def keys (m : Map β) : List Str := m.map (·.1)

end Map

/-- `std::set<std::string>::insert` on the sorted list of elements. -/
def setInsert : List Str → Str → List Str
  | [], k => [k]
  | k' :: s, k => if k' = k then k' :: s else if strLt k k' then k :: k' :: s else k' :: setInsert s k

/-- C++ exceptions that the library throws. Only the kind is kept, not the message text; the `std::runtime_error`s that report
a port that does not exist form a kind of their own. -/
inductive Exc
  | runtime      -- std::runtime_error, any other text
  | badPort      -- std::runtime_error with text "... refers to a non existing ... port"
  | outOfRange   -- std::out_of_range (vector/deque/map::at)
  | jsonParse    -- nlohmann::json::parse_error
  | jsonOther    -- other nlohmann::json exceptions (missing key with at(), wrong type)
  deriving DecidableEq, Repr

/-- Kinds of undefined behaviour. -/
inductive UB
  | dangling       -- dereferencing a pointer that designates no operator
  | emptyDeque     -- front/back/pop on an empty deque
  | outOfBounds    -- reading past the end of a buffer
  | endDeref       -- dereferencing map::end()
  | badConversion  -- floating point to integer conversion out of range
  | signedOverflow -- int overflow
  | uninitialised  -- reading an uninitialised scalar
  | badBool        -- reading a bool from a byte that is neither 0 nor 1
  deriving DecidableEq, Repr

/-- Abnormal outcomes: an exception, undefined behaviour, or no termination (also used for exhausted fuel and for loops
that would need 2^64 allocations). -/
inductive Err
  | exc (e : Exc)
  | ub (u : UB)
  | diverge
  deriving DecidableEq, Repr

/-- Outcome of a state transformer: a result or an abnormal outcome, both with the state reached. Keeping the state of the
throw point models that C++ does not roll back. -/
inductive Res (σ α : Type)
  | ok (a : α) (s : σ)
  | err (e : Err) (s : σ)

/-- The state reached. -/
def Res.state {σ α : Type} : Res σ α → σ
  | .ok _ s => s
  | .err _ s => s

/-- State transformers with outcomes. -/
def M (σ α : Type) : Type := σ → Res σ α

namespace M
variable {σ α β : Type}

def pure (a : α) : M σ α := fun s => .ok a s
def bind (x : M σ α) (f : α → M σ β) : M σ β := fun s =>
  match x s with
  | .ok a s' => f a s'
  | .err e s' => .err e s'

instance : Monad (M σ) where
  pure := pure
  bind := bind

def get : M σ σ := fun s => .ok s s
def set (s : σ) : M σ Unit := fun _ => .ok () s
def throw (e : Err) : M σ α := fun s => .err e s

/-- Run a computation that does not touch the state. -/
def lift (x : Except Err α) : M σ α := fun s =>
  match x with
  | .ok a => .ok a s
  | .error e => .err e s

end M

/-- Throw a C++ exception. -/
def throwExc {α : Type} (e : Exc) : Except Err α := .error (.exc e)
/-- Undefined behaviour. -/
def undefined {α : Type} (u : UB) : Except Err α := .error (.ub u)

end Rtbot
