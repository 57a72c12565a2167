import Verif.Model.Operator

/-! # `processData`, `processControl`, `executeData`, `executeControl`

One function per operator class. `Op.execData o` is the part of `executeData` before `emit`: it returns the messages handed to
`emit` together with the new state of the operator (Composite and Pipeline forward to other objects, see `Model/Engine`).

Simplification that concerns the whole file: loop counters of type `int`/`unsigned` that index the buffer (FiniteImpulseResponse.h:38,
AutoRegressive.h:63, PeakDetector.h:32, HermiteResampler.h:146, Linear.h:29) are natural numbers, i.e. buffers of 2^31 or more
messages are outside the model; the `int j` of the two interpolating resamplers, which counts emitted messages, is modelled with
its overflow. -/

namespace Rtbot
variable {V : Type} [Num V]

/-- `outputMsgs.emplace("o1", {out})`. -/
def single (m : Msg V) : OpMsg V := [(o1, [m])]

/-- `size_t` subtraction, modulo 2^64. -/
def subSize (a b : Nat) : Nat := (a + 2 ^ 64 - b % 2 ^ 64) % 2 ^ 64

/-! ## Ports forwarded one to one -/

/-- One iteration of the loop in `Input::processData` (Input.h:84-103). -/
def inputStep (c : Core V) (portsMap : Map Str) (acc : OpMsg V × Map (Msg V)) (p : Str) :
    Except Err (OpMsg V × Map (Msg V)) := do
  let m0 ← c.dataMsg p 0
  let (out, last) := acc
  let send : Except Err (OpMsg V × Map (Msg V)) :=
    match portsMap.find? p with
    | none => undefined .endDeref
    | some q => .ok (out.emplace q [m0], (last.erase p).emplace p m0)
  match last.find? p with
  | some l => if l.time < m0.time then send else .ok acc
  | none => send

/-- `Input::processData` (Input.h:82-105). The loop takes the ports of `toProcess` in set order. -/
def procInput (c : Core V) (portsMap : Map Str) (last : Map (Msg V)) : Except Err (OpMsg V × Kind V) := do
  let (out, last') ← c.toProcess.foldlM (inputStep c portsMap) ([], last)
  .ok (out, .input portsMap last')

/-- `Output::processData` (Output.h:33-44). -/
def procOutput (c : Core V) (portsMap : Map Str) : Except Err (OpMsg V × Kind V) := do
  let out ← c.toProcess.foldlM (fun (out : OpMsg V) p => do
    let m ← c.dataLast p
    match portsMap.find? p with
    | none => undefined .endDeref
    | some q => .ok (out.emplace q [m])) []
  .ok (out, .output portsMap)

/-! ## Pointwise operators and filters -/

/-- Common shape of Add.h:19-33, Scale.h:22-36, Power.h:24-38, Constant.h:19-33: last message of the sole port, value mapped. -/
def procLast (c : Core V) (f : Msg V → Except Err (OpMsg V × Kind V)) : Except Err (OpMsg V × Kind V) := do
  let p ← c.solePort
  let m ← c.dataLast p
  f m

/-- The predicates given to `FilterByValue` (LessThan.h:12, GreaterThan.h:12, EqualTo.h:12). -/
def FilterOp.eval (f : FilterOp) (x value : V) : Bool :=
  match f with
  | .lessThan => Num.lt x value
  | .greaterThan => Num.lt value x
  | .equalTo => Num.eq x value

/-- `FilterByValue::processData` (FilterByValue.h:23-39). -/
def procFilter (c : Core V) (f : FilterOp) (value : V) : Except Err (OpMsg V × Kind V) :=
  procLast c fun m => .ok (if f.eval m.value value then single m else [], .filter f value)

/-- `Identity::processData` (Identity.h:21-34), which reads the *first* message. -/
def procIdentity (c : Core V) : Except Err (OpMsg V × Kind V) := do
  let p ← c.solePort
  let m ← c.dataFirst p
  .ok (single m, .identity)

/-- `TimeShift::processData` (TimeShift.h:25-43). `dt * times` is computed in `uint64_t` (the `int` is converted modulo 2^64), so
the test `dt * times < 0` is always false. -/
def timeShiftTime (dt : UInt64) (times : Int) (t : UInt64) : UInt64 :=
  let d := dt * UInt64.ofInt times
  if d > 0 then t + d else 0

/-! ## Windows -/

/-- Conversion double → `uint64_t`, undefined when out of range. -/
def toTimeE (x : V) : Except Err UInt64 :=
  match Num.toTime x with
  | some t => .ok t
  | none => undefined .badConversion

/-- `Difference::processData` (Difference.h:22-39). `out.time = useOldestTime ? m1.time : m0.value`: the conditional expression has
the common type `double`, so the time is converted to double and back; the second branch converts the *value* of the oldest
message. -/
def procDifference (c : Core V) (useOldest : Bool) : Except Err (OpMsg V × Kind V) := do
  let p ← c.solePort
  let m1 ← c.dataMsg p 1
  let m0 ← c.dataMsg p 0
  let t ← toTimeE (if useOldest then ofTime m1.time else m0.value)
  .ok (single ⟨t, m1.value -. m0.value⟩, .difference useOldest)

/-- `MovingAverage::processData` (MovingAverage.h:21-38). -/
def procMovAvg (c : Core V) : Except Err (OpMsg V × Kind V) := do
  let p ← c.solePort
  let i ← c.dataPort p
  let l ← c.dataLast p
  .ok (single ⟨l.time, i.sum /. Num.ofNat i.data.length⟩, .movAvg)

/-- `StandardDeviation::processData` (StandardDeviation.h:25-51). -/
def procStdDev (c : Core V) : Except Err (OpMsg V × Kind V) := do
  let p ← c.solePort
  let i ← c.dataPort p
  let l ← c.dataLast p
  let n := i.data.length
  let average := i.sum /. Num.ofNat n
  let acc := i.data.foldl (fun s m => s +. Num.pow (m.value -. average) (Num.ofNat 2)) (Num.ofNat 0)
  .ok (single ⟨l.time, Num.sqrt (acc /. Num.ofNat (subSize n 1))⟩, .stdDev)

/-- `PeakDetector::processData` (PeakDetector.h:21-38). -/
def procPeak (c : Core V) : Except Err (OpMsg V × Kind V) := do
  let p ← c.solePort
  let i ← c.dataPort p
  let mid ← c.dataMsg p (i.data.length / 2)
  .ok (if i.data.any (fun m => Num.lt mid.value m.value) then [] else single mid, .peak)

/-- The loop of `FiniteImpulseResponse::processData` (FiniteImpulseResponse.h:38-40): newest message times first coefficient
first; `coeff.at(i)` throws when the coefficients run out. Argument 2 is the buffer, newest first. -/
def firLoop : V → List (Msg V) → List V → Except Err V
  | acc, [], _ => .ok acc
  | _, _ :: _, [] => throwExc .outOfRange
  | acc, m :: ms, a :: as => firLoop (acc +. m.value *. a) ms as

/-- `FiniteImpulseResponse::processData` (FiniteImpulseResponse.h:22-45). -/
def procFir (c : Core V) (coeff : List V) : Except Err (OpMsg V × Kind V) := do
  let p ← c.solePort
  let i ← c.dataPort p
  let l ← c.dataLast p
  let v ← firLoop (Num.ofNat 0) i.data.reverse coeff
  .ok (single ⟨l.time, v⟩, .fir coeff)

/-- `Count::processData` (Count.h:44-59); `size_t` counter. -/
def procCount (c : Core V) (n : UInt64) : Except Err (OpMsg V × Kind V) :=
  procLast c fun m => .ok (single ⟨m.time, ofTime (n + 1)⟩, .count (n + 1))

/-- `CumulativeSum::processData` (CumulativeSum.h:40-55). -/
def procCumSum (c : Core V) (acc : V) : Except Err (OpMsg V × Kind V) :=
  procLast c fun m => .ok (single ⟨m.time, acc +. m.value⟩, .cumSum (acc +. m.value))

/-! ## Relative strength index -/

/-- The gains and losses loop (RelativeStrengthIndex.h:37-43) over consecutive pairs of values. -/
def rsiSums : V × V → List (Msg V) → V × V
  | s, a :: b :: rest =>
    let diff := b.value -. a.value
    let s' := if Num.lt (Num.ofNat 0) diff then (s.1 +. diff, s.2)
      else if Num.lt diff (Num.ofNat 0) then (s.1, s.2 -. diff) else s
    rsiSums s' (b :: rest)
  | s, _ => s

/-- Final part of `RelativeStrengthIndex::processData` (lines 67-72): the index from the two averages. -/
def rsiValue (gain loss : V) : V :=
  if Num.lt (Num.ofNat 0) loss then
    Num.ofNat 100 -. (Num.ofNat 100 /. (Num.ofNat 1 +. gain /. loss))
  else Num.ofNat 100

/-- `RelativeStrengthIndex::processData` (RelativeStrengthIndex.h:23-82). -/
def procRsi (c : Core V) (prev : Option (V × V)) : Except Err (OpMsg V × Kind V) := do
  let p ← c.solePort
  let i ← c.dataPort p
  let n := i.data.length
  let (gain, loss) ← match prev with
    | none =>
      let s := rsiSums (Num.ofNat 0, Num.ofNat 0) i.data
      .ok (s.1 /. Num.ofNat (subSize n 1), s.2 /. Num.ofNat (subSize n 1))
    | some (pg, pl) => do
      let b ← c.dataMsg p (subSize n 1)
      let a ← c.dataMsg p (subSize n 2)
      let diff := b.value -. a.value
      let (g, l) := if Num.lt (Num.ofNat 0) diff then (diff, Num.ofNat 0)
        else if Num.lt diff (Num.ofNat 0) then (Num.ofNat 0, Num.neg diff) else (Num.ofNat 0, Num.ofNat 0)
      .ok ((pg *. Num.ofNat (subSize n 2) +. g) /. Num.ofNat (subSize n 1),
           (pl *. Num.ofNat (subSize n 2) +. l) /. Num.ofNat (subSize n 1))
  let l ← c.dataLast p
  .ok (single ⟨l.time, rsiValue gain loss⟩, .rsi (some (gain, loss)))

/-! ## Resamplers -/

/-- The `while (nextEmit < msg.time)` loop of `ConstantResampler::processData` (ConstantResampler.h:81-87). `nextEmit` has 2^64
values, so `fuel = 2^64` steps without leaving the loop mean that it never ends. -/
def constLoop (dt t : UInt64) (lastValue : V) : Nat → UInt64 → Except Err (List (Msg V) × UInt64)
  | 0, _ => .error .diverge
  | fuel + 1, next =>
    if next < t then do
      let (ms, next') ← constLoop dt t lastValue fuel (next + dt)
      .ok (⟨next, lastValue⟩ :: ms, next')
    else .ok ([], next)

/-- `ConstantResampler::processData` (ConstantResampler.h:58-107). -/
def procConstRes (c : Core V) (dt next : UInt64) (initiated : Bool) (lastValue : V) : Except Err (OpMsg V × Kind V) :=
  procLast c fun m =>
    if initiated then do
      let (ms, next') ← constLoop dt m.time lastValue (2 ^ 64) next
      let (ms, next'') := if next' = m.time then (ms ++ [⟨m.time, m.value⟩], next' + dt) else (ms, next')
      .ok (if ms = [] then [] else [(o1, ms)], .constRes dt next'' true m.value)
    else .ok ([], .constRes dt (m.time + dt) true m.value)

/-- The loop shared by `CosineResampler::processData` (lines 58-70) and `HermiteResampler::lookAt` (lines 111-124):
`int j = 1; while (d >= (j * dt) - carryOver) { ...; j++; }`. It returns the values `(j * dt) - carryOver` of the iterations and
the final `j`. `fuel` is the number of increments of `j` that do not overflow `int`; the next one is undefined. -/
def gridLoop (d dt carry : UInt64) : Nat → Nat → Except Err (List UInt64 × Nat)
  | fuel, j =>
    let off := UInt64.ofNat j * dt - carry
    if d ≥ off then
      match fuel with
      | 0 => undefined .signedOverflow
      | fuel + 1 => do
        let (offs, j') ← gridLoop d dt carry fuel (j + 1)
        .ok (off :: offs, j')
    else .ok ([], j)

/-- Number of increments of an `int` starting at 1 before overflow. -/
def intFuel : Nat := 2 ^ 31 - 2

/-- The assignment to `carryOver` after the loop (CosineResampler.h:72-73, HermiteResampler.h:126). -/
def newCarry (t0 t1 dt carry : UInt64) (j : Nat) : UInt64 := t1 - (t0 + (UInt64.ofNat (j - 1) * dt - carry))

/-- `cosineInterpolate` (CosineResampler.h:86-90). -/
def cosineInterpolate (y1 y2 mu : V) : V :=
  let mu2 := (Num.ofNat 1 -. Num.cos (mu *. Num.pi)) /. Num.ofNat 2
  y1 *. (Num.ofNat 1 -. mu2) +. y2 *. mu2

/-- `CosineResampler::processData` (CosineResampler.h:48-80). -/
def procCosRes (c : Core V) (dt carry : UInt64) : Except Err (OpMsg V × Kind V) := do
  let p ← c.solePort
  let b ← c.dataMsg p 1
  let a ← c.dataMsg p 0
  let d := b.time - a.time
  let (offs, j) ← gridLoop d dt carry intFuel 1
  let ms : List (Msg V) := offs.map fun off => ⟨a.time + off, cosineInterpolate a.value b.value (ofTime off /. ofTime d)⟩
  .ok (if ms = [] then [] else [(o1, ms)], .cosRes dt (newCarry a.time b.time dt carry j))

/-- `hermiteInterpolate` of the resampler with the default tension 0 and bias 0 (HermiteResampler.h:206-222). -/
def hermiteInterpolate (y0 y1 y2 y3 mu : V) : V :=
  let one := Num.ofNat 1; let two := Num.ofNat 2; let three := Num.ofNat 3; let zero := Num.ofNat 0
  let mu2 := mu *. mu
  let mu3 := mu2 *. mu
  let m0 := (y1 -. y0) *. (one +. zero) *. (one -. zero) /. two
  let m0 := m0 +. (y2 -. y1) *. (one -. zero) *. (one -. zero) /. two
  let m1 := (y2 -. y1) *. (one +. zero) *. (one -. zero) /. two
  let m1 := m1 +. (y3 -. y2) *. (one -. zero) *. (one -. zero) /. two
  let a0 := two *. mu3 -. three *. mu2 +. one
  let a1 := mu3 -. two *. mu2 +. mu
  let a2 := mu3 -. mu2
  let a3 := Num.neg two *. mu3 +. three *. mu2
  a0 *. y1 +. a1 *. m0 +. a2 *. m1 +. a3 *. y2

/-- The accumulation loop of `getLineLeastSquares` (HermiteResampler.h:177-182); state `(sumX, sumY, sumXY, sumX2)`. -/
def lsSums (s : UInt64 × V × V × UInt64) (m : Msg V) : Except Err (UInt64 × V × V × UInt64) := do
  let (sx, sy, sxy, sx2) := s
  let sx2' ← toTimeE (V := V) (ofTime sx2 +. Num.pow (ofTime m.time) (Num.ofNat 2))
  .ok (sx + m.time, sy +. m.value, sxy +. ofTime m.time *. m.value, sx2')

/-- `getLineLeastSquares` (HermiteResampler.h:174-195): pair (n, m). -/
def leastSquares (ms : List (Msg V)) : Except Err (V × V) := do
  let (sx, sy, sxy, sx2) ← ms.foldlM lsSums (0, Num.ofNat 0, Num.ofNat 0, 0)
  let den ← toTimeE (V := V) (ofTime (UInt64.ofNat ms.length * sx2) -. Num.pow (ofTime sx) (Num.ofNat 2))
  if den = 0 then
    match ms with
    | a :: b :: _ =>
      let m := (b.value -. a.value) /. (ofTime (b.time - a.time))
      .ok (a.value -. m *. ofTime a.time, m)
    | _ => throwExc .outOfRange
  else
    .ok ((ofTime sx2 *. sy -. sxy *. ofTime sx) /. ofTime den,
         (Num.ofNat ms.length *. sxy -. ofTime sx *. sy) /. ofTime den)

/-- Sum of the gaps between consecutive messages (HermiteResampler.h:150-153). -/
def gapSum : V → List (Msg V) → V
  | s, a :: b :: rest => gapSum (s +. ofTime (b.time - a.time)) (b :: rest)
  | s, _ => s

/-- The artificial message left of the first one (HermiteResampler.h:142-159, `index = -1`). -/
def makeBefore (c : Core V) (p : Str) : Except Err (Msg V) := do
  let i ← c.dataPort p
  let average := gapSum (Num.ofNat 0) i.data /. Num.ofNat (subSize i.data.length 1)
  let (n, m) ← leastSquares i.data
  let m0 ← c.dataMsg p 0
  let avg ← toTimeE average
  let time := m0.time + (0 - avg)
  .ok ⟨time, m *. ofTime time +. n⟩

/-- `HermiteResampler::lookAt(from, from + 1)` (HermiteResampler.h:109-129): emitted messages, new `carryOver`, new `before`.
`get(from - 1)` is only evaluated when a message is emitted. When an exception leaves the second `lookAt` of a call, the model
keeps the old `carryOver`; this cannot happen with a buffer of size 4. -/
def lookAt (c : Core V) (p : Str) (frm : Nat) (dt carry : UInt64) (before : Option (Msg V)) :
    Except Err (List (Msg V) × UInt64 × Option (Msg V)) := do
  let b ← c.dataMsg p (frm + 1)
  let a ← c.dataMsg p frm
  let d := b.time - a.time
  let (offs, j) ← gridLoop d dt carry intFuel 1
  let carry' := newCarry a.time b.time dt carry j
  if offs = [] then .ok ([], carry', before)
  else do
    let (z, before') ← match frm with
      | 0 => (match before with
        | some z => .ok (z, some z)
        | none => do
          let z ← makeBefore c p
          .ok (z, some z))
      | f + 1 => do
        let z ← c.dataMsg p f
        .ok (z, before)
    let e ← c.dataMsg p (frm + 2)
    .ok (offs.map fun off =>
      ⟨a.time + off, hermiteInterpolate z.value a.value b.value e.value (ofTime off /. ofTime d)⟩, carry', before')

/-- `HermiteResampler::processData` (HermiteResampler.h:75-99). -/
def procHermRes (c : Core V) (dt carry : UInt64) (before : Option (Msg V)) : Except Err (OpMsg V × Kind V) := do
  let p ← c.solePort
  let (ms, carry', before') ← match before with
    | none => do
      let (ms1, carry1, before1) ← lookAt c p 0 dt carry none
      let (ms2, carry2, before2) ← lookAt c p 1 dt carry1 before1
      .ok (ms1 ++ ms2, carry2, before2)
    | some z => lookAt c p 1 dt carry (some z)
  .ok (if ms = [] then [] else [(o1, ms)], .hermRes dt carry' before')

/-! ## Function -/

/-- `points[i]` (no bounds check: undefined out of range). -/
def pointAt (points : List (V × V)) (i : Nat) : Except Err (V × V) :=
  match points[i]? with
  | some q => .ok q
  | none => undefined .outOfBounds

/-- `while (i < points.size() - 1 && points[i + 1].first <= x) i++` (Function.h:100-103). Argument: the points from index `i` on. -/
def segIndex (x : V) : List (V × V) → Nat → Nat
  | _ :: b :: rest, i => if Num.le b.1 x then segIndex x (b :: rest) (i + 1) else i
  | _, i => i

/-- `linearInterpolate` (Function.h:141). -/
def linInterp (a b : V × V) (x : V) : V := a.2 +. (b.2 -. a.2) *. (x -. a.1) /. (b.1 -. a.1)

/-- `hermiteInterpolate` of Function (Function.h:143-152). -/
def hermInterp (y0 y1 m0 m1 mu : V) : V :=
  let one := Num.ofNat 1; let two := Num.ofNat 2; let three := Num.ofNat 3
  let mu2 := mu *. mu
  let mu3 := mu2 *. mu
  let h00 := two *. mu3 -. three *. mu2 +. one
  let h10 := mu3 -. two *. mu2 +. mu
  let h01 := Num.neg two *. mu3 +. three *. mu2
  let h11 := mu3 -. mu2
  h00 *. y0 +. h10 *. m0 +. h01 *. y1 +. h11 *. m1

/-- `getTangent` (Function.h:154-162). -/
def tangent (points : List (V × V)) (i : Nat) : Except Err V := do
  let (lo, hi) := if i = 0 then (0, 1) else if i = points.length - 1 then (i - 1, i) else (i - 1, i + 1)
  let a ← pointAt points lo
  let b ← pointAt points hi
  .ok ((b.2 -. a.2) /. (b.1 -. a.1))

/-- The value computed by `Function::processData` (Function.h:98-126). With fewer than two points, which the constructor
excludes, `points.size() - 1` or `points[1]` are out of range: undefined. -/
def functionValue (points : List (V × V)) (type : Interp) (x : V) : Except Err V :=
  if points.length < 2 then undefined .outOfBounds
  else do
    let i := segIndex x points 0
    let p0 ← pointAt points 0
    let below := i = 0 && Num.lt x p0.1
    match type with
    | .linear =>
      let s := if below then 0 else if i = points.length - 1 then i - 1 else i
      let a ← pointAt points s
      let b ← pointAt points (s + 1)
      .ok (linInterp a b x)
    | .hermite =>
      let s := if below then 0 else if i ≥ points.length - 2 then points.length - 2 else i
      let a ← pointAt points s
      let b ← pointAt points (s + 1)
      let ta ← tangent points s
      let tb ← tangent points (s + 1)
      .ok (hermInterp a.2 b.2 ta tb ((x -. a.1) /. (b.1 -. a.1)))

/-- `Function::processData` (Function.h:88-132). -/
def procFunction (c : Core V) (points : List (V × V)) (type : Interp) : Except Err (OpMsg V × Kind V) :=
  procLast c fun m => do
    let v ← functionValue points type m.value
    .ok (single ⟨m.time, v⟩, .function points type)

/-! ## `processData` for the operators that use the base `executeData` -/

/-- Virtual `processData` of the classes that inherit `Operator::executeData`; the second component is the new value of the
subclass members. The remaining kinds override `executeData` and are treated separately. -/
def Op.process (o : Op V) : Except Err (OpMsg V × Kind V) :=
  let c := o.core
  match o.kind with
  | .input pm last => procInput c pm last
  | .output pm => procOutput c pm
  | .collector => .ok ([], .collector)
  | .filter f v => procFilter c f v
  | .add v => procLast c fun m => .ok (single ⟨m.time, m.value +. v⟩, .add v)
  | .scale v => procLast c fun m => .ok (single ⟨m.time, m.value *. v⟩, .scale v)
  | .power v => procLast c fun m => .ok (single ⟨m.time, Num.pow m.value v⟩, .power v)
  | .constant v => procLast c fun m => .ok (single ⟨m.time, v⟩, .constant v)
  | .identity => procIdentity c
  | .count n => procCount c n
  | .cumSum a => procCumSum c a
  | .difference b => procDifference c b
  | .movAvg => procMovAvg c
  | .stdDev => procStdDev c
  | .peak => procPeak c
  | .fir a => procFir c a
  | .timeShift dt n => procLast c fun m => .ok (single ⟨timeShiftTime dt n m.time, m.value⟩, .timeShift dt n)
  | .constRes dt ne ini lv => procConstRes c dt ne ini lv
  | .cosRes dt carry => procCosRes c dt carry
  | .hermRes dt carry before => procHermRes c dt carry before
  | .function pts t => procFunction c pts t
  | .rsi prev => procRsi c prev
  | k => .ok ([], k)

/-- Ports of `toProcess` that survive the scan (Operator.h:418-422): those whose buffer is full (`max > size` are removed).
An unknown port throws. -/
def Core.readyPorts (c : Core V) : Except Err (List Str) :=
  if c.toProcess.all c.isData then
    .ok (c.toProcess.filter fun p => match c.dataIn.find? p with
      | some i => i.max ≤ i.data.length
      | none => false)
  else throwExc .badPort

/-- `Operator::executeData` (Operator.h:417-430) up to `emit`. When `processData` throws, `toProcess` keeps the ready ports. -/
def Op.execBase (o : Op V) : Res (Op V) (OpMsg V) :=
  match o.core.readyPorts with
  | .error e => .err e o
  | .ok ready =>
    let o' : Op V := { o with core := { o.core with toProcess := ready } }
    if ready = [] then .ok [] o'
    else match o'.process with
      | .error e => .err e o'
      | .ok (out, k) => .ok out { core := { o'.core with toProcess := [] }, kind := k }

/-! ## Join and its subclasses -/

/-- The operations passed to `BinaryJoin` (And.h:14-19, Or.h:14-19, Plus.h:13, Minus.h:13, Multiplication.h:13, Division.h:14-17,
GreaterThanStream.h:14-17, LessThanStream.h:14-17); `none` is `nullopt`. -/
def BinOp.eval (op : BinOp) (a b : V) : Option V :=
  let left := !Num.lt a Num.half
  let right := Num.le Num.half b
  match op with
  | .and => some (Num.ofNat (if left && right then 1 else 0))
  | .or => some (Num.ofNat (if left || right then 1 else 0))
  | .plus => some (a +. b)
  | .minus => some (a -. b)
  | .mul => some (a *. b)
  | .div => if !Num.eq b (Num.ofNat 0) then some (a /. b) else none
  | .gtStream => if Num.lt b a then some a else none
  | .ltStream => if Num.lt a b then some a else none

/-- The scan for the port with the latest front message (Join.h:50-59): `none` when some buffer is empty, otherwise the port and
time of the first strict maximum. -/
def joinLatest : Map (Inp V) → Str × UInt64 → Option (Str × UInt64)
  | [], best => some best
  | (p, i) :: rest, best =>
    match i.data with
    | [] => none
    | m :: _ => joinLatest rest (if best.2 < m.time then (p, m.time) else best)

/-- Removal of the front messages older than `t`, with the sum update (Join.h:63-66, Demultiplexer.h:92-95). -/
def Inp.dropOlder (i : Inp V) (t : UInt64) : Inp V :=
  go i.data i.sum
where
  /-- the loop -/
  go : List (Msg V) → V → Inp V
    | [], s => { i with data := [], sum := s }
    | m :: ms, s => if m.time < t then go ms (s -. m.value) else { i with data := m :: ms, sum := s }

/-- `Join::processData` (Join.h:88-98). -/
def joinMessages (controlMap : Map Str) : Map (Inp V) → OpMsg V → Except Err (OpMsg V)
  | [], out => .ok out
  | (p, i) :: rest, out =>
    match i.data, controlMap.find? p with
    | [], _ => undefined .emptyDeque
    | _, none => undefined .endDeref
    | m :: _, some q => joinMessages controlMap rest (out.emplace q [m])

/-- `BinaryJoin::processData` (BinaryJoin.h:26-41). -/
def binaryMessages (op : BinOp) (c : Core V) : Except Err (OpMsg V) := do
  let m1 ← c.dataMsg i2 0
  let m0 ← c.dataMsg i1 0
  match op.eval m0.value m1.value with
  | none => .ok []
  | some v => .ok (single ⟨m0.time, v⟩)

/-- The loop of `Linear::processData` (Linear.h:33-37): ports in map order, coefficients in index order. -/
def linearLoop : Map (Inp V) → List V → Msg V → Except Err (Msg V)
  | [], _, out => .ok out
  | (_, i) :: rest, coeff, out =>
    match i.data, coeff with
    | [], _ => undefined .emptyDeque
    | _, [] => throwExc .outOfRange
    | m :: _, a :: as => linearLoop rest as ⟨m.time, out.value +. m.value *. a⟩

/-- Virtual `processData` of Join, BinaryJoin (BinaryJoin.h:26-41) and Linear (Linear.h:27-44). -/
def joinProcess (o : Op V) : Except Err (OpMsg V) :=
  match o.kind with
  | .join cm => joinMessages cm o.core.dataIn []
  | .binary op => binaryMessages op o.core
  | .linear coeff => do
    let m ← linearLoop o.core.dataIn coeff ⟨0, Num.ofNat 0⟩
    .ok (single m)
  | _ => .ok []

/-- Pop the front of every data buffer (Join.h:79-82). -/
def popAll : Map (Inp V) → Except Err (Map (Inp V))
  | [] => .ok []
  | (p, i) :: rest => do
    let i' ← match i.popSum with
      | none => undefined .emptyDeque
      | some i' => .ok i'
    let rest' ← popAll rest
    .ok ((p, i') :: rest')

/-- `Join::executeData` (Join.h:44-86) up to `emit`. The reference port is not touched by the removal loop, so the front time it
compares with is the constant `t`. -/
def Op.execJoin (o : Op V) : Res (Op V) (OpMsg V) :=
  match o.core.dataIn with
  | [] => .err (.exc .outOfRange) o
  | (p0, i0) :: _ =>
    match i0.data with
    | [] => .ok [] o
    | m0 :: _ =>
      match joinLatest o.core.dataIn (p0, m0.time) with
      | none => .ok [] o
      | some (ref, t) =>
        let dropped := o.core.dataIn.map fun (p, i) => (p, if p = ref then i else i.dropOlder t)
        let o' : Op V := { o with core := { o.core with dataIn := dropped } }
        let ready := dropped.all fun (_, i) => match i.data with
          | [] => false
          | m :: _ => !(t < m.time)
        if ready then
          match joinProcess o' with
          | .error e => .err e o'
          | .ok out =>
            match popAll dropped with
            | .error e => .err e o'
            | .ok popped => .ok out { o' with core := { o'.core with dataIn := popped } }
        else .ok [] o'

/-! ## Demultiplexer -/

/-- The loop over the control ports (Demultiplexer.h:91-103) with data front time `t`. Returns the new control buffers and the number of
instructions; an exception keeps the buffers of the ports already visited. -/
def demuxScan (t : UInt64) : Map (Inp V) → Map (Inp V) × Except Err Nat
  | [] => ([], .ok 0)
  | (p, i) :: rest =>
    let i' := i.dropOlder t
    match i'.data with
    | [] => let (rest', r) := demuxScan t rest; ((p, i') :: rest', r)
    | m :: _ =>
      if m.time = t && (Num.eq m.value (Num.ofNat 1) || Num.eq m.value (Num.ofNat 0)) then
        let (rest', r) := demuxScan t rest
        ((p, i') :: rest', r.map (· + 1))
      else ((p, i') :: rest, throwExc .runtime)

/-- The emission loop (Demultiplexer.h:106-112). -/
def demuxMessages (controlMap : Map Str) (m : Msg V) : Map (Inp V) → OpMsg V → Except Err (OpMsg V)
  | [], out => .ok out
  | (p, i) :: rest, out =>
    match i.data with
    | [] => undefined .emptyDeque
    | c :: _ =>
      if Num.eq c.value (Num.ofNat 1) then
        match controlMap.find? p with
        | none => undefined .endDeref
        | some q => demuxMessages controlMap m rest (out.emplace q [m])
      else demuxMessages controlMap m rest out

/-- `Demultiplexer::join` (Demultiplexer.h:77-125), the body of both `processData` and `processControl`. -/
def Op.execDemux (o : Op V) (controlMap : Map Str) : Res (Op V) (OpMsg V) :=
  match o.core.dataIn with
  | [(p, i)] =>
    match i.data with
    | [] => .ok [] o
    | m :: ms =>
      let (ctrl, r) := demuxScan m.time o.core.ctrlIn
      let o' : Op V := { o with core := { o.core with ctrlIn := ctrl } }
      match r with
      | .error e => .err e o'
      | .ok n =>
        if n = ctrl.length then
          match demuxMessages controlMap m ctrl [] with
          | .error e => .err e o'
          | .ok out =>
            match popAll ctrl with
            | .error e => .err e o'
            | .ok ctrl' =>
              .ok out { o with core := { o.core with dataIn := [(p, { i with data := ms, sum := i.sum -. m.value })], ctrlIn := ctrl' } }
        else .ok [] o'
  | _ => .err (.exc .runtime) o

/-! ## AutoRegressive -/

/-- The loop of `AutoRegressive::processData` (AutoRegressive.h:63): `coeff[i]` without bounds check, messages oldest first.
`n` iterations. -/
def arLoop : Nat → V → List (Msg V) → List V → Except Err V
  | 0, acc, _, _ => .ok acc
  | n + 1, acc, ms, as =>
    match as with
    | [] => undefined .outOfBounds
    | a :: as' =>
      match ms with
      | [] => throwExc .outOfRange
      | m :: ms' => arLoop n (acc +. a *. m.value) ms' as'

/-- `AutoRegressive::executeData` (AutoRegressive.h:40-52) up to `emit`: process, drop the oldest message, replace the newest by
the output. With an empty buffer (no message received yet) `pop_front` is undefined. -/
def Op.execAR (o : Op V) (coeff : List V) : Res (Op V) (OpMsg V) :=
  match o.core.dataIn with
  | [(p, i)] =>
    match i.data.getLast? with
    | none => .err (.ub .emptyDeque) o
    | some l =>
      match arLoop i.max l.value i.data coeff with
      | .error e => .err e o
      | .ok v =>
        match i.data.tail.dropLast, i.data.tail with
        | _, [] => .err (.ub .emptyDeque) o
        | mid, _ :: _ =>
          let out : Msg V := ⟨l.time, v⟩
          .ok (single out) { o with core := { o.core with dataIn := [(p, { i with data := mid ++ [out] })] } }
  | _ => .err (.exc .runtime) o

/-! ## Variable -/

/-- The search loop of `Variable::query` (Variable.h:113-138): `index` stays 0, the front is dropped until the query falls between
the first two messages or on the second. Result: remaining buffer and answer. -/
def varSearch (q : UInt64) : List (Msg V) → List (Msg V) × Option V
  | a :: b :: rest =>
    if a.time < q && q < b.time then (a :: b :: rest, some a.value)
    else if q = b.time then (b :: rest, some b.value)
    else varSearch q (b :: rest)
  | ms => (ms, none)

/-- `Variable::query` (Variable.h:69-143). `pop_front` here does not touch the running sum. -/
def Op.execVariable (o : Op V) (value : V) (initialized : Bool) : Res (Op V) (OpMsg V) :=
  match o.core.dataIn, o.core.ctrlIn with
  | [(p, i)], [(cp, ci)] =>
    match i.data, ci.data with
    | [], _ => .ok [] o
    | _, [] => .ok [] o
    | a :: ms, q :: qs =>
      let done (data : List (Msg V)) (ini : Bool) (v : V) : Res (Op V) (OpMsg V) :=
        .ok (single ⟨q.time, v⟩)
          { core := { o.core with dataIn := [(p, { i with data := data })], ctrlIn := [(cp, { ci with data := qs })] }
            kind := .variable value ini }
      if q.time < a.time then
        if initialized then .err (.exc .runtime) o
        else done i.data initialized value
      else if q.time = a.time then done i.data true a.value
      else
        match varSearch q.time (a :: ms) with
        | (data, some v) => done data true v
        | (data, none) =>
          .ok [] { core := { o.core with dataIn := [(p, { i with data := data })] }, kind := .variable value true }
  | _, _ => .err (.exc .runtime) o

/-! ## Dispatch -/

/-- Virtual `executeData` up to `emit`, for every class except Composite and Pipeline. -/
def Op.execData (o : Op V) : Res (Op V) (OpMsg V) :=
  match o.kind with
  | .join _ | .binary _ | .linear _ => o.execJoin
  | .demux cm => o.execDemux cm
  | .autoReg coeff => o.execAR coeff
  | .variable v ini => o.execVariable v ini
  | _ => o.execBase

/-- Virtual `executeControl` up to `emit` (Operator.h:456-462 with `processControl` 299; Demultiplexer.h:64-68, 72; Variable.h:63). -/
def Op.execCtrl (o : Op V) : Res (Op V) (OpMsg V) :=
  match o.kind with
  | .demux cm => o.execDemux cm
  | .variable v ini => o.execVariable v ini
  | _ => .ok [] o

/-! ## Constructors -/

/-- Add the ports "i1".."in" with the given maximum and "o1".."on" (Input.h:16-22, Output.h:20-26). -/
def addPorts (c : Core V) (max : Nat) : Nat → Except Err (Core V × Map Str)
  | 0 => .ok (c, [])
  | n + 1 => do
    let (c, pm) ← addPorts c max n
    let c ← c.addDataInput (iPort (n + 1)) max
    .ok (c.addOutput (oPort (n + 1)), pm.emplace (iPort (n + 1)) (oPort (n + 1)))

/-- One data port "i1" of size `max` and one output "o1". -/
def Core.simple (id : Str) (max : Nat) : Core V :=
  { id := id, dataIn := [(i1, Inp.new i1 max)], ctrlIn := [], outIds := [o1], outputs := [], toProcess := [] }

/-- `Input(id, numPorts)` (Input.h:15-23). -/
def Op.newInput (id : Str) (n : Nat) : Except Err (Op V) := do
  let (c, pm) ← addPorts (Core.new id) 1 n
  .ok ⟨c, .input pm []⟩

/-- `Output(id, numPorts)` (Output.h:19-27). -/
def Op.newOutput (id : Str) (n : Nat) : Except Err (Op V) := do
  let (c, pm) ← addPorts (Core.new id) 1 n
  .ok ⟨c, .output pm⟩

/-- `Join(id, numPorts)` (Join.h:15-26). -/
def Op.newJoin (id : Str) (n : Nat) : Except Err (Op V) :=
  if n < 2 then throwExc .runtime
  else do
    let (c, pm) ← addPorts (Core.new id) 0 n
    .ok ⟨c, .join pm⟩

/-- `BinaryJoin(id, operation)` (BinaryJoin.h:16-24). -/
def Op.newBinary (id : Str) (op : BinOp) : Op V :=
  ⟨{ id := id, dataIn := [(i1, Inp.new i1 0), (i2, Inp.new i2 0)], ctrlIn := [], outIds := [o1], outputs := [], toProcess := [] }, .binary op⟩

/-- Data ports "i1".."in" only (Linear.h:18-21). -/
def addInputs (c : Core V) (max : Nat) : Nat → Except Err (Core V)
  | 0 => .ok c
  | n + 1 => do
    let c ← addInputs c max n
    c.addDataInput (iPort (n + 1)) max

/-- `Linear(id, coeff)` (Linear.h:14-23). -/
def Op.newLinear (id : Str) (coeff : List V) : Except Err (Op V) :=
  if coeff.length < 2 then throwExc .runtime
  else do
    let c ← addInputs (Core.new id) 0 coeff.length
    .ok ⟨c.addOutput o1, .linear coeff⟩

/-- Control ports "c1".."cn" and outputs (Demultiplexer.h:16-22). -/
def addControls (c : Core V) : Nat → Except Err (Core V × Map Str)
  | 0 => .ok (c, [])
  | n + 1 => do
    let (c, pm) ← addControls c n
    let c ← c.addControlInput (cPort (n + 1)) 0
    .ok (c.addOutput (oPort (n + 1)), pm.emplace (cPort (n + 1)) (oPort (n + 1)))

/-- `Demultiplexer(id, numPorts)` (Demultiplexer.h:12-24). -/
def Op.newDemux (id : Str) (n : Nat) : Except Err (Op V) :=
  if n < 1 then throwExc .runtime
  else do
    let (c, pm) ← addControls (Core.new id) n
    let c ← c.addDataInput i1 0
    .ok ⟨c, .demux pm⟩

/-- `Variable(id, value)` (Variable.h:15-21). -/
def Op.newVariable (id : Str) (value : V) : Op V :=
  ⟨{ id := id, dataIn := [(i1, Inp.new i1 0)], ctrlIn := [(c1, Inp.new c1 1)], outIds := [o1], outputs := [], toProcess := [] },
   .variable value false⟩

/-- `Collector(id, n)` (Collector.h:11). -/
def Op.newCollector (id : Str) (n : Nat) : Op V :=
  ⟨{ id := id, dataIn := [(i1, Inp.new i1 n)], ctrlIn := [], outIds := [], outputs := [], toProcess := [] }, .collector⟩

/-- LessThan.h:12, GreaterThan.h:12, EqualTo.h:12 via FilterByValue.h:17-21. -/
def Op.newFilter (id : Str) (f : FilterOp) (value : V) : Op V := ⟨Core.simple id 1, .filter f value⟩
/-- Add.h:13-17. -/
def Op.newAdd (id : Str) (value : V) : Op V := ⟨Core.simple id 1, .add value⟩
/-- Scale.h:14-18. -/
def Op.newScale (id : Str) (value : V) : Op V := ⟨Core.simple id 1, .scale value⟩
/-- Power.h:16-20. -/
def Op.newPower (id : Str) (value : V) : Op V := ⟨Core.simple id 1, .power value⟩
/-- Constant.h:13-17. -/
def Op.newConstant (id : Str) (value : V) : Op V := ⟨Core.simple id 1, .constant value⟩
/-- Identity.h:14-17. -/
def Op.newIdentity (id : Str) : Op V := ⟨Core.simple id 1, .identity⟩
/-- Count.h:16-20. -/
def Op.newCount (id : Str) : Op V := ⟨Core.simple id 1, .count 0⟩
/-- CumulativeSum.h:16-20. -/
def Op.newCumSum (id : Str) : Op V := ⟨Core.simple id 1, .cumSum (Num.ofNat 0)⟩
/-- Difference.h:14-18. -/
def Op.newDifference (id : Str) (useOldest : Bool) : Op V := ⟨Core.simple id 2, .difference useOldest⟩
/-- MovingAverage.h:14-17. -/
def Op.newMovAvg (id : Str) (n : Nat) : Op V := ⟨Core.simple id n, .movAvg⟩
/-- StandardDeviation.h:18-21. -/
def Op.newStdDev (id : Str) (n : Nat) : Op V := ⟨Core.simple id n, .stdDev⟩
/-- PeakDetector.h:14-17. -/
def Op.newPeak (id : Str) (n : Nat) : Op V := ⟨Core.simple id n, .peak⟩
/-- FiniteImpulseResponse.h:14-18. -/
def Op.newFir (id : Str) (coeff : List V) : Op V := ⟨Core.simple id coeff.length, .fir coeff⟩
/-- AutoRegressive.h:16-20. -/
def Op.newAutoReg (id : Str) (coeff : List V) : Op V := ⟨Core.simple id coeff.length, .autoReg coeff⟩
/-- TimeShift.h:16-21. -/
def Op.newTimeShift (id : Str) (dt : UInt64) (times : Int) : Op V := ⟨Core.simple id 1, .timeShift dt times⟩
/-- ConstantResampler.h:19-26; `junkT`, `junkV` are the unspecified initial values of `nextEmit`, `lastValue`. -/
def Op.newConstRes (id : Str) (dt : UInt64) (junkT : UInt64) (junkV : V) : Except Err (Op V) :=
  if dt ≤ 0 then throwExc .runtime else .ok ⟨Core.simple id 1, .constRes dt junkT false junkV⟩
/-- CosineResampler.h:22-27. -/
def Op.newCosRes (id : Str) (dt : UInt64) : Op V := ⟨Core.simple id 2, .cosRes dt 0⟩
/-- HermiteResampler.h:23-28. -/
def Op.newHermRes (id : Str) (dt : UInt64) : Op V := ⟨Core.simple id 4, .hermRes dt 0 none⟩
/-- RelativeStrengthIndex.h:16-19; `n + 1` is a `size_t`. -/
def Op.newRsi (id : Str) (n : Nat) : Op V := ⟨Core.simple id ((n + 1) % 2 ^ 64), .rsi none⟩

/-- `operator<` of `pair<double, double>`. -/
def pairLt (a b : V × V) : Bool := Num.lt a.1 b.1 || (!Num.lt b.1 a.1 && Num.lt a.2 b.2)

/-- Insertion into a sorted list of points. -/
def insertPoint (a : V × V) : List (V × V) → List (V × V)
  | [] => [a]
  | b :: rest => if pairLt b a then b :: insertPoint a rest else a :: b :: rest

/-- `sort(points.begin(), points.end())` (Function.h:26). Any sorting algorithm gives the same vector, up to the sign of zeros,
when no coordinate is NaN; with NaN `std::sort` is undefined, which is not modelled (the model returns some permutation). -/
def sortPoints (ps : List (V × V)) : List (V × V) := ps.foldr insertPoint []

/-- `Function(id, points, type)` (Function.h:21-39); the type string is `some` interpolation or `none` for an unknown name. -/
def Op.newFunction (id : Str) (points : List (V × V)) (type : Option Interp) : Except Err (Op V) :=
  if points.length < 2 then throwExc .runtime
  else match type with
    | none => throwExc .runtime
    | some t => .ok ⟨Core.simple id 1, .function (sortPoints points) t⟩

end Rtbot
