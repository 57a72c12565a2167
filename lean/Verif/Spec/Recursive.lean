import Verif.Spec.Numeric

/-! # Specification vocabulary: recursive filters -/

namespace Rtbot.Spec
variable {V : Type} [Field V] [LinearOrder V]

/-- One output of an autoregressive filter with coefficients `c1, …, cN`: `x + c1*y1 + … + cN*yN`, where `y1, y2, …` are the previous
outputs, most recent first, followed by zeros. -/
def arNext (cs ys : List V) (x : V) : V := x + (List.zipWith (· * ·) cs (ys ++ List.replicate cs.length 0)).sum

/-- The outputs of an autoregressive filter for the given inputs; `ys` are the previous outputs, most recent first. -/
def arOutputs (cs : List V) : List V → List V → List V
  | _, [] => []
  | ys, x :: xs => arNext cs ys x :: arOutputs cs (arNext cs ys x :: ys) xs

/-- Consecutive differences `x2 - x1, x3 - x2, …`. -/
def diffs (xs : List V) : List V := List.zipWith (fun b a => b - a) xs.tail xs

/-- The gains: positive differences, 0 for the others. -/
def gains (xs : List V) : List V := (diffs xs).map fun d => max d 0

/-- The losses: amounts of the negative differences, 0 for the others. -/
def losses (xs : List V) : List V := (diffs xs).map fun d => max (-d) 0

/-- Wilder's smoothing with period `n`: the plain average of the first `n` numbers, then `avg := (avg*(n-1) + d)/n`. -/
def wilder (n : Nat) (ds : List V) : V :=
  (ds.drop n).foldl (fun avg d => (avg * ((n : V) - 1) + d) / (n : V)) (mean (ds.take n))

/-- Relative strength index of a sequence of values with period `n`. -/
def rsiOf (n : Nat) (xs : List V) : V :=
  if wilder n (losses xs) = 0 then 100
  else 100 - 100 / (1 + wilder n (gains xs) / wilder n (losses xs))

end Rtbot.Spec
