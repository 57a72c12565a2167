import Verif.Model.Program

/-! # Serialization of operators and programs

Model of `collect` and `restore` (libs/core/include/rtbot/Message.h, Operator.h, Input.h and the operators of libs/std that add
members) and of `Program::serialize`. Numbers are copied as they are in memory; the model fixes the little endian layout with
8 byte `size_t`, `uint64_t` and `double`, 4 byte `int` and 1 byte `bool`. Reading is a `reinterpret_cast` at an iterator: reading
past the end of the buffer is the outcome `ub outOfBounds`. (That the addresses may be misaligned for the type read is ignored.) -/

namespace Rtbot
variable {V : Type} [Num V]

/-- `std::vector<unsigned char>` (Message.h:9). -/
abbrev Bytes := List UInt8

/-! ## Writing -/

/-- The `k` low bytes of a number, lowest first. -/
def leBytes : Nat → Nat → Bytes
  | 0, _ => []
  | k + 1, n => UInt8.ofNat (n % 256) :: leBytes k (n / 256)

/-- Append a `uint64_t` (Message.h:27-29). -/
def putU64 (x : UInt64) : Bytes := leBytes 8 x.toNat

/-- Append a `size_t` (e.g. Operator.h:82-84). -/
def putSize (n : Nat) : Bytes := leBytes 8 n

/-- Append a `double` (Message.h:31-33). -/
def putVal (v : V) : Bytes := putU64 (Num.bits v)

/-- Append a `bool` (Variable.h:33-34). -/
def putBool (b : Bool) : Bytes := [if b then 1 else 0]

/-- Append the size and the characters of a string (Operator.h:81-85). -/
def putStr (s : Str) : Bytes := putSize s.length ++ s

/-- `Message::collect` (Message.h:24-36). -/
def Msg.collect (m : Msg V) : Bytes := putU64 m.time ++ putVal m.value

/-- `Input::collect` (Operator.h:78-105). -/
def Inp.collect (i : Inp V) : Bytes :=
  putStr i.id ++ putSize i.max ++ putVal i.sum ++ putSize i.data.length ++ i.data.flatMap Msg.collect

/-- One of the two loops over the inputs with the count before it (Operator.h:155-169, 172-185). -/
def collectInputs (m : Map (Inp V)) : Bytes := putSize m.length ++ m.flatMap fun e => putStr e.1 ++ e.2.collect

/-- `Operator::collect` (Operator.h:147-201). -/
def Core.collect (c : Core V) : Bytes :=
  collectInputs c.dataIn ++ collectInputs c.ctrlIn ++ (putSize c.toProcess.length ++ c.toProcess.flatMap putStr)

/-- The bytes a subclass appends: Input.h:25-45, Count.h:22-28, Variable.h:25-37, ConstantResampler.h:28-41,
CosineResampler.h:29-37, HermiteResampler.h:30-49, Function.h:41-62. -/
def Kind.collect : Kind V → Bytes
  | .input _ last => putSize last.length ++ last.flatMap fun e => putStr e.1 ++ e.2.collect
  | .count n => putU64 n
  | .variable v ini => putVal v ++ putBool ini
  | .constRes dt next ini last => putU64 dt ++ putU64 next ++ putBool ini ++ putVal last
  | .cosRes _ carry => putU64 carry
  | .hermRes _ carry before =>
    putU64 carry ++ (match before with
      | none => putBool false
      | some m => putBool true ++ m.collect)
  | .function points type =>
    putSize points.length ++ points.flatMap (fun p => putVal p.1 ++ putVal p.2) ++
      leBytes 4 (match type with | .linear => 0 | .hermite => 1)
  | _ => []

/-- Virtual `collect`. `CumulativeSum` does not call the base class (CumulativeSum.h:22-30); Composite and Pipeline do not override
the base class. -/
def Op.collect (o : Op V) : Bytes :=
  match o.kind with
  | .cumSum acc => putVal acc
  | k => o.core.collect ++ k.collect

/-! ## Reading -/

/-- A function that reads at an iterator: the result and the remaining bytes. -/
def Reader (α : Type) : Type := Bytes → Except Err (α × Bytes)

namespace Reader
variable {α β : Type}

def pure (a : α) : Reader α := fun bs => .ok (a, bs)
def bind (r : Reader α) (f : α → Reader β) : Reader β := fun bs =>
  match r bs with
  | .ok (a, bs') => f a bs'
  | .error e => .error e

instance : Monad Reader where
  pure := pure
  bind := bind

end Reader

/-- Undefined behaviour while reading. -/
def Reader.undefined {α : Type} (u : UB) : Reader α := fun _ => .error (.ub u)

/-- `k` bytes. -/
def getBytes : Nat → Reader Bytes
  | 0 => pure []
  | k + 1 => fun bs =>
    match bs with
    | [] => .error (.ub .outOfBounds)
    | b :: bs => (do
      let rest ← getBytes k
      pure (b :: rest)) bs

/-- The number written by `leBytes`. -/
def ofLe : Bytes → Nat
  | [] => 0
  | b :: bs => b.toNat + 256 * ofLe bs

/-- `*reinterpret_cast<const size_t *>(&(*it)); it += sizeof(size_t)` (e.g. Operator.h:109-110). -/
def getSize : Reader Nat := do
  let bs ← getBytes 8
  pure (ofLe bs)

/-- Read a `uint64_t` (Message.h:40-41). -/
def getU64 : Reader UInt64 := do
  let n ← getSize
  pure (UInt64.ofNat n)

/-- Read a `double` (Message.h:44-45). -/
def getVal : Reader V := do
  let x ← getU64
  pure (Num.ofBits x)

/-- Read a `bool` (Variable.h:47-48); any byte but 0 and 1 is a trap representation. -/
def getBool : Reader Bool := do
  let bs ← getBytes 1
  if bs = [0] then pure false else if bs = [1] then pure true else Reader.undefined .badBool

/-- `string port(it, it + portSize)` after reading the size (Operator.h:210-213). -/
def getStr : Reader Str := do
  let n ← getSize
  getBytes n

/-- A loop that reads `n` items. -/
def getMany {α : Type} (r : Reader α) : Nat → Reader (List α)
  | 0 => pure []
  | n + 1 => do
    let a ← r
    let as ← getMany r n
    pure (a :: as)

/-- `Message::restore` (Message.h:38-46). -/
def getMsg : Reader (Msg V) := do
  let t ← getU64
  let v ← getVal
  pure ⟨t, v⟩

/-- `Input::restore` into a new `Input input("")` (Operator.h:107-131, 215-216). -/
def getInp : Reader (Inp V) := do
  let id ← getStr
  let max ← getSize
  let sum ← getVal
  let n ← getSize
  let data ← getMany getMsg n
  pure { id := id, max := max, sum := sum, data := data }

/-- `erase(input.getId()); insert({input.getId(), input})` for the inputs read (Operator.h:217-218, 235-236). -/
def restoreInputs : Map (Inp V) → List (Inp V) → Map (Inp V)
  | m, [] => m
  | m, i :: is => restoreInputs ((m.erase i.id).emplace i.id i) is

/-- One input with the port word before it, which is read and not used (Operator.h:209-216, 227-233). -/
def getPortInp : Reader (Inp V) := do
  let _ ← getStr
  getInp

/-- `Operator::restore` (Operator.h:203-252). -/
def Core.restore (c : Core V) : Reader (Core V) := do
  let n ← getSize
  let ins ← getMany getPortInp n
  let k ← getSize
  let cns ← getMany getPortInp k
  let t ← getSize
  let tps ← getMany getStr t
  pure { c with dataIn := restoreInputs c.dataIn ins, ctrlIn := restoreInputs c.ctrlIn cns, toProcess := tps.foldl setInsert c.toProcess }

/-- An entry of `lastSent` (Input.h:55-62). -/
def getLast : Reader (Str × Msg V) := do
  let p ← getStr
  let m ← getMsg
  pure (p, m)

/-- A point of a function (Function.h:72-77). -/
def getPoint : Reader (V × V) := do
  let x ← getVal
  let y ← getVal
  pure (x, y)

/-- `erase(port); insert({port, msg})` for the entries read (Input.h:63-64). -/
def restoreLast : Map (Msg V) → List (Str × Msg V) → Map (Msg V)
  | m, [] => m
  | m, (p, x) :: es => restoreLast ((m.erase p).emplace p x) es

/-- What a subclass reads: Input.h:47-66, Count.h:30-35, Variable.h:39-49, ConstantResampler.h:43-54, CosineResampler.h:39-44,
HermiteResampler.h:51-66, Function.h:64-84. -/
def Kind.restore : Kind V → Reader (Kind V)
  | .input pm last => do
    let n ← getSize
    let es ← getMany getLast n
    pure (.input pm (restoreLast last es))
  | .count _ => do
    let n ← getU64
    pure (.count n)
  | .variable _ _ => do
    let v ← getVal
    let ini ← getBool
    pure (.variable v ini)
  | .constRes _ _ _ _ => do
    let dt ← getU64
    let next ← getU64
    let ini ← getBool
    let last ← getVal
    pure (.constRes dt next ini last)
  | .cosRes dt _ => do
    let carry ← getU64
    pure (.cosRes dt carry)
  | .hermRes dt _ before => do
    let carry ← getU64
    let has ← getBool
    if has then do
      let m ← getMsg
      pure (.hermRes dt carry (some m))
    else pure (.hermRes dt carry before)
  | .function _ _ => do
    let n ← getSize
    let ps ← getMany getPoint n
    let t ← getBytes 4
    pure (.function ps (if ofLe t = 0 then .linear else .hermite))
  | k => pure k

/-- Virtual `restore` (CumulativeSum.h:32-36 for the exception). Interpolation types other than 0 behave like 1. -/
def Op.restore (o : Op V) : Reader (Op V) :=
  match o.kind with
  | .cumSum _ => do
    let acc ← getVal
    pure { o with kind := .cumSum acc }
  | k => do
    let c ← o.core.restore
    let k' ← k.restore
    pure ⟨c, k'⟩

/-! ## Programs -/

/-- The loop of `Program::serialize` (Program.cpp:88-99). -/
def serializeOps (h : Nat → Option (Op V)) : Map Nat → Except Err Bytes
  | [] => .ok []
  | (id, a) :: rest =>
    match h a with
    | none => undefined .dangling
    | some o => do
      let bs ← serializeOps h rest
      .ok (putStr id ++ o.collect ++ bs)

/-- `Program::serialize` (Program.cpp:79-102). -/
def Prog.serialize (P : Prog V) : Except Err Bytes := do
  let bs ← serializeOps P.st.heap P.ops
  .ok (putStr P.json ++ bs)

/-- The loop that restores the operators (Program.h:38-47); every turn consumes at least 8 bytes, so as many turns as there are
bytes suffice. -/
def restoreOps (ops : Map Nat) : Nat → St V → Bytes → Except Err (St V)
  | 0, s, bs => if bs = [] then .ok s else .error .diverge
  | n + 1, s, bs =>
    if bs = [] then .ok s
    else match getStr bs with
      | .error e => .error e
      | .ok (id, bs) =>
        match ops.find? id with
        | none => throwExc .outOfRange
        | some a =>
          match s.heap a with
          | none => undefined .dangling
          | some o =>
            match o.restore bs with
            | .error e => .error e
            | .ok (o', bs) => restoreOps ops n (s.setOp a o') bs

end Rtbot
