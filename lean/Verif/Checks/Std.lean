import Verif.Checks.Tools

/-! # libs/std/test, libs/finance/test and libs/core/test: single operators -/

namespace Rtbot.Checks
open Rtbot.Spec

/-! test_add.cpp, test_constant.cpp, test_count.cpp, test_cumulative_sum.cpp, test_difference.cpp, test_identity.cpp, test_power.cpp,
test_scale.cpp, test_time_shift.cpp -/

def ramp : List (UInt64 × F64) := (upTo 50).map fun i => (UInt64.ofNat i, int i)

example : said (Op.newAdd b!"add" 1) [] ramp = some ((upTo 50).map fun i => [(UInt64.ofNat i, int (i + 1))]) := by decide +kernel
example : said (Op.newConstant b!"const" 0.5) [] ramp = some ((upTo 50).map fun i => [(UInt64.ofNat i, 0.5)]) := by decide +kernel
example : said (Op.newCount b!"c") [] ramp = some ((upTo 50).map fun i => [(UInt64.ofNat i, int i)]) := by decide +kernel
example : said (Op.newCumSum b!"cs") [] ramp = some ((upTo 50).map fun i => [(UInt64.ofNat i, int (i * (i + 1) / 2))]) := by decide +kernel
example : said (Op.newDifference b!"diff" true) [] ramp =
    some ((upTo 50).map fun i => if 2 ≤ i then [(UInt64.ofNat i, 1)] else []) := by decide +kernel
example : said (Op.newIdentity b!"id") [] ramp = some (ramp.map fun m => [m]) := by decide +kernel
example : said (Op.newPower b!"pow" (-1)) [] ((upTo 50).map fun i => (UInt64.ofNat i, int (i * 2))) =
    some ((upTo 50).map fun i => [(UInt64.ofNat i, F64.div 1 (int (i * 2)))]) := by decide +kernel
example : said (Op.newScale b!"sc" 0.5) [] ramp = some ((upTo 50).map fun i => [(UInt64.ofNat i, F64.div (int i) 2)]) := by decide +kernel
example : said (Op.newTimeShift b!"ts" 2 2) [] ramp = some ((upTo 50).map fun i => [(UInt64.ofNat (i + 4), int i)]) := by decide +kernel

/-! test_auto_regressive.cpp -/

example : said (Op.newAutoReg b!"ar" [1, 1, 1, 1, 1, 1]) [] ((upTo 6).map fun i => (UInt64.ofNat i, 1)) =
    some ((upTo 6).map fun i => [(UInt64.ofNat i, int (2 ^ (i - 1)))]) := by decide +kernel

/-! test_equal_to.cpp, test_greater_than.cpp, test_less_than.cpp -/

example : said (Op.newFilter b!"et0" .equalTo 0) [] ((upTo 20).map fun i => (UInt64.ofNat i, int (i % 2))) =
    some ((upTo 20).map fun i => if i % 2 = 0 then [(UInt64.ofNat i, 0)] else []) := by decide +kernel
example : said (Op.newFilter b!"et1" .equalTo 1) [] ((upTo 20).map fun i => (UInt64.ofNat i, int (i % 2))) =
    some ((upTo 20).map fun i => if i % 2 = 0 then [] else [(UInt64.ofNat i, 1)]) := by decide +kernel

/-- `v += sign * 0.1`, the sign changing after every `n`-th step. -/
def zigzag (n : Nat) : Nat → F64
  | 0 => 0.0
  | t + 1 => F64.add (zigzag n t) (F64.mul (if t / n % 2 = 0 then 1 else -1) 0.1)

def zig (n k : Nat) : List (UInt64 × F64) := (upTo k).map fun i => (UInt64.ofNat i, zigzag n i)

example : said (Op.newFilter b!"gt" .greaterThan 0.4) [] (zig 6 11) =
    some ((upTo 11).map fun i => if i = 5 ∨ i = 6 ∨ i = 7 then [(UInt64.ofNat i, zigzag 6 i)] else []) := by decide +kernel
/-- The test says nothing about i = 8, where 0.4 is reached from above. -/
example : said (Op.newFilter b!"lt" .lessThan 0.4) [] ((zig 6 11).take 7) =
    some ((upTo 7).map fun i => if i < 4 then [(UInt64.ofNat i, zigzag 6 i)] else []) ∧
    ((said (Op.newFilter b!"lt" .lessThan 0.4) [] (zig 6 11)).map (·.drop 8)) = some ([9, 10, 11].map fun i => [(UInt64.ofNat i, zigzag 6 i)]) := by
  decide +kernel

/-! test_finite_impulse_response.cpp, test_moving_average.cpp, test_standard_deviation.cpp, test_peak_detector.cpp -/

example : said (Op.newFir b!"i1" [2, 2, 2, 2, 2]) [] ((List.range 20).map fun i => (UInt64.ofNat (i * 100), 10)) =
    some ((List.range 20).map fun i => if i ≤ 3 then [] else [(UInt64.ofNat (i * 100), 100)]) := by decide +kernel
example : said (Op.newFir b!"i2" (List.replicate 11 0.25)) [] ((upTo 19).map fun i => (UInt64.ofNat (i * 100), 20)) =
    some ((upTo 19).map fun i => if i ≤ 10 then [] else [(UInt64.ofNat (i * 100), 55)]) := by decide +kernel
example : said (Op.newMovAvg b!"i1" 5) [] ((List.range 20).map fun i => (UInt64.ofNat (i * 100), 10)) =
    some ((List.range 20).map fun i => if i ≤ 3 then [] else [(UInt64.ofNat (i * 100), 10)]) := by decide +kernel
example : said (Op.newMovAvg b!"i2" 11) [] ((upTo 19).map fun i => (UInt64.ofNat (i * 100), int i)) =
    some ((upTo 19).map fun i => if i ≤ 10 then [] else [(UInt64.ofNat (i * 100), int (i - 5))]) := by decide +kernel
example : said (Op.newStdDev b!"sd1" 5) [] ((List.range 20).map fun i => (UInt64.ofNat (i * 100), 10)) =
    some ((List.range 20).map fun i => if i ≤ 3 then [] else [(UInt64.ofNat (i * 100), 0)]) := by decide +kernel
example : (said (Op.newStdDev b!"sd2" 10) [] ((List.range 10).map fun i => (UInt64.ofNat (i * 100), int (i + 1)))).map
      (·.map (·.map fun m => Num.toTime m.2)) = some ((List.range 10).map fun i => if i ≤ 8 then [] else [some 3]) := by decide +kernel
example : said (Op.newPeak b!"b1" 3) [] ((List.range 10).map fun i => (UInt64.ofNat i, int (5 - (i - 5 : Int).natAbs))) =
    some ((List.range 10).map fun i => if i = 6 then [(5, 5)] else []) := by decide +kernel
example : said (Op.newPeak b!"b1" 3) [] ((List.range 14).map fun i => (UInt64.ofNat i, int (i % 5))) =
    some ((List.range 14).map fun i => if i = 5 then [(4, 4)] else if i = 10 then [(9, 4)] else []) := by decide +kernel
example : said (Op.newPeak b!"b2" 3) [] (zig 5 10) = some ((upTo 10).map fun i => if i = 6 then [(5, 0.5)] else []) := by decide +kernel

/-! test_and.cpp, test_or.cpp, test_division.cpp, test_plus.cpp, test_minus.cpp, test_multiplication.cpp, test_linear.cpp,
test_greater_than_stream.cpp, test_less_than_stream.cpp -/

def pairs (l : List (UInt64 × F64)) : List (Act F64) := l.flatMap fun m => [data i2 m.1 m.2, .execData]

example : told (Op.newBinary b!"and" .and) ([data i1 1 1, data i1 2 1, data i1 3 0, data i1 4 1] ++ pairs [(2, 1), (4, 0), (3, 1)]) =
    some [[(2, 1)], [(4, 0)], []] := by decide +kernel
example : told (Op.newBinary b!"or" .or) ([data i1 1 1, data i1 2 1, data i1 3 0, data i1 4 1, data i1 5 0] ++ pairs [(2, 1), (4, 0), (3, 1), (5, 0.3)]) =
    some [[(2, 1)], [(4, 1)], [], [(5, 0)]] := by decide +kernel
example : told (Op.newBinary b!"division" .div) ([data i1 1 1, data i1 2 6, data i1 3 3, data i1 4 4] ++ pairs [(2, 3), (4, 4), (3, 5)]) =
    some [[(2, 2)], [(4, 1)], []] := by decide +kernel
example : told (Op.newBinary b!"plus" .plus) ([data i1 1 1, data i1 2 2, data i1 3 3, data i1 4 4] ++ pairs [(2, 3), (4, 4), (3, 5)]) =
    some [[(2, 5)], [(4, 8)], []] := by decide +kernel
example : told (Op.newBinary b!"minus" .minus) ([data i1 1 1, data i1 2 2, data i1 3 3, data i1 4 4] ++ pairs [(2, 3), (4, 4), (3, 5)]) =
    some [[(2, -1)], [(4, 0)], []] := by decide +kernel
example : told (Op.newBinary b!"mult" .mul) ([data i1 1 1, data i1 2 2, data i1 3 3, data i1 4 4] ++ pairs [(2, 3), (4, 4), (3, 5)]) =
    some [[(2, 6)], [(4, 16)], []] := by decide +kernel
example : told (Op.newBinary b!"gts" .gtStream) ([data i1 1 1, data i1 2 1, data i1 3 0, data i1 4 2, data i1 5 0.3, data i1 6 1, data i1 7 3] ++
      pairs [(2, 1), (4, 1), (5, 0), (6, 1), (7, 2)]) = some [[], [(4, 2)], [(5, 0.3)], [], [(7, 3)]] := by decide +kernel
example : told (Op.newBinary b!"lts" .ltStream) ([data i1 1 1, data i1 2 1, data i1 3 0, data i1 4 1, data i1 5 0, data i1 6 2, data i1 7 (-1)] ++
      pairs [(2, 2), (4, 2), (5, 0.1), (6, 1), (7, 0)]) = some [[(2, 1)], [(4, 1)], [(5, 0)], [], [(7, -1)]] := by decide +kernel
example : (Op.newLinear b!"linear" [2, -1]).toOption.bind (told · ([data i1 1 1, data i1 2 2, data i1 3 3, data i1 4 4] ++
      pairs [(2, 3), (4, 4)] ++ [data i1 5 5, .execData])) = some [[(2, 1)], [(4, 4)], []] := by decide +kernel

/-! test_constant_resampler.cpp -/

def constantResampler (dt : UInt64) (as : List (Act F64)) : Option (List (List (UInt64 × F64))) :=
  (Op.newConstRes b!"test" dt 0 0).toOption.bind (told · as)

example : (Op.newConstRes b!"test" 0 0 (0 : F64)).toOption.isNone := by decide +kernel
example : constantResampler 3 [data [] 1 10, .execData, data [] 5 50, .execData] = some [[], [(4, 10)]] := by decide +kernel
example : constantResampler 2 [data [] 1 10, .execData, data [] 8 80, .execData] = some [[], [(3, 10), (5, 10), (7, 10)]] := by decide +kernel
example : constantResampler 5 [data [] 1 10, .execData, data [] 2 20, data [] 3 30, data [] 4 40, .execData, data [] 7 70, .execData] =
    some [[], [], [(6, 40)]] := by decide +kernel
example : constantResampler 5 [data [] 1 10, .execData, data [] 3 30, data [] 4 40, .execData, data [] 6 60, .execData, data [] 13 130, .execData] =
    some [[], [], [(6, 60)], [(11, 60)]] := by decide +kernel

/-! test_cosine_resampler.cpp, test_hermite_resampler.cpp -/

def timesOf (x : Option (List (List (UInt64 × F64)))) : Option (List (List UInt64)) := x.map (·.map (·.map (·.1)))

def squares (d n : Nat) : List (UInt64 × F64) := (List.range n).map fun i => (UInt64.ofNat (i * d), int (i * i))

example : timesOf (said (Op.newCosRes b!"i1" 99) [] (squares 100 20)) =
    some ((List.range 20).map fun i => if i = 0 then [] else [UInt64.ofNat (99 * i)]) := by decide +kernel
example : timesOf (said (Op.newCosRes b!"i2" 99) [] (squares 200 20)) =
    some ((List.range 20).map fun i => if i = 0 then [] else [UInt64.ofNat (99 * (2 * i - 1)), UInt64.ofNat (99 * (2 * i))]) := by decide +kernel
example : timesOf (said (Op.newHermRes b!"i1" 99) [] (squares 100 20)) =
    some ((List.range 20).map fun i => if i ≤ 2 then [] else if i = 3 then [99, 198] else [UInt64.ofNat (99 * (i - 1))]) := by decide +kernel
example : timesOf (said (Op.newHermRes b!"i2" 99) [] (squares 200 20)) =
    some ((List.range 20).map fun i => if i ≤ 2 then [] else if i = 3 then [99, 198, 297, 396]
      else [UInt64.ofNat (99 * (2 * i - 3)), UInt64.ofNat (99 * (2 * i - 2))]) := by decide +kernel

/-- The times of the last test are random; these are some between 0 and 60. -/
def someTimes : List Nat := [0, 1, 4, 5, 6, 9, 14, 15, 17, 23, 24, 31, 32, 33, 36, 42, 43, 47, 52, 59, 60]

example : timesOf (said (Op.newCosRes b!"i3" 1) [] (someTimes.map fun t => (UInt64.ofNat t, int (t * t)))) =
    some ((0 :: someTimes).zip someTimes |>.map fun (a, b) => (List.range (b - a)).map fun j => UInt64.ofNat (a + j + 1)) := by decide +kernel
example : (timesOf (said (Op.newHermRes b!"i4" 1) [] (someTimes.map fun t => (UInt64.ofNat t, int (t * t))))).map List.flatten =
    some ((upTo 59).map UInt64.ofNat) := by decide +kernel
/-- "emits right values": the emitted values are less than 1 above the square. -/
example : ((said (Op.newHermRes b!"i3" 99) [] (squares 100 20)).map fun outs => (List.range 20).zip outs |>.all fun (i, ms) =>
      if i ≤ 2 then ms.isEmpty
      else if i = 3 then (ms.zip [1, 4]).all fun (m, (v : F64)) => Num.lt (F64.sub m.2 v) 1
      else ms.all fun m => Num.lt (F64.sub m.2 (int ((i - 1) * (i - 1)))) 1) = some true := by decide +kernel

/-! test_function.cpp -/

def line : List (F64 × F64) := [(0, 0), (1, 2), (2, 4), (3, 6)]
def wave : List (F64 × F64) := [(0, 0), (1, 1), (2, 0), (3, 1)]
def function (ps : List (F64 × F64)) (i : Interp) (xs : List F64) : Option (List (List F64)) :=
  (Op.newFunction b!"func" ps i).toOption.bind fun o => (said o [] (xs.map fun x => (1, x))).map (·.map (·.map (·.2)))

example : function line .linear [0.5, 1.5, -1, 4] = some [[1], [3], [-2], [8]] := by decide +kernel
example : (function wave .hermite [0.5, 1.5]).map (·.map (·.map fun y => (Num.lt 0.5 y, Num.le 0 y, Num.le y (1 : F64)))) =
    some [[(true, true, true)], [(false, true, true)]] := by decide +kernel

/-! test_relative_strength_index.cpp -/

def prices : List F64 := [54.8,  56.8, 57.85, 59.85, 60.57, 61.1,  62.17, 60.6,  62.35, 62.15, 62.35, 61.45, 62.8,
  61.37, 62.5, 62.57, 60.8,  59.37, 60.35, 62.35, 62.17, 62.55, 64.55, 64.37, 65.3,  64.42,
  62.9,  61.6, 62.05, 60.05, 59.7,  60.9,  60.25, 58.27, 58.7,  57.72, 58.1,  58.2]

def rsis : List F64 := [74.21384, 74.33552, 65.87129, 59.93370, 62.43288, 66.96205, 66.18862, 67.05377, 71.22679, 70.36299,
  72.23644, 67.86486, 60.99822, 55.79821, 57.15964, 49.81579, 48.63810, 52.76154, 50.40119, 43.95111, 45.57992, 42.54534, 44.09946, 44.52472]

def priced : List (UInt64 × F64) := (List.range prices.length).zip prices |>.map fun (i, v) => (UInt64.ofNat (i + 1), v)

example : ((said (Op.newRsi b!"rsi" 14) [] priced).map fun outs => (outs.take 14).all List.isEmpty &&
    (outs.drop 14).length == rsis.length && ((outs.drop 14).zip rsis).all fun (ms, r) => match ms with
      | [m] => near 0.00001 m.2 r
      | _ => false) = some true := by decide +kernel

/-! test_variable.cpp -/

example : told (Op.newVariable b!"variable" 0.5) ([data i1 1 1.1, data i1 3 1.2, data i1 5 2.5, data i1 7 2.8, data i1 10 3.1] ++
      ([0, 1, 2, 4, 5, 6, 7, 9, 10, 11].flatMap fun t => [ctrl c1 t 0, .execCtrl]) ++ [data i1 12 5.1, ctrl c1 11 0, .execCtrl, ctrl c1 12 0, .execCtrl]) =
    some [[(0, 0.5)], [(1, 1.1)], [(2, 1.1)], [(4, 1.2)], [(5, 2.5)], [(6, 2.5)], [(7, 2.8)], [(9, 2.8)], [(10, 3.1)], [], [(11, 3.1)], [(12, 5.1)]] := by
  decide +kernel

/-! libs/core/test/test_input.cpp -/

def input : Option (Op F64) := (Op.newInput b!"i1" 1).toOption

example : timesOf (input.bind (said · [] ((List.range 20).map fun i => (UInt64.ofNat ((1 - i % 2) * i * 10), int (i * i))))) =
    some ((List.range 20).map fun i => if i % 2 = 0 then [UInt64.ofNat (i * 10)] else []) := by decide +kernel
example : timesOf (input.bind (said · [] ((List.range 20).map fun i => (UInt64.ofNat (i * 200), int (i * i))))) =
    some ((List.range 20).map fun i => [UInt64.ofNat (i * 200)]) := by decide +kernel
example : timesOf (input.bind (said · [] ((List.range 20).map fun (i : Nat) => (200, int (i * i))))) =
    some ((List.range 20).map fun i => if i = 0 then [200] else []) := by decide +kernel

end Rtbot.Checks
