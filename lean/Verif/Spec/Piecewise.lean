import Verif.Spec.Numeric

/-! # Specification vocabulary: interpolation through points -/

namespace Rtbot.Spec
variable {V : Type} [Field V] [LinearOrder V]

/-- The straight line through `a` and `b`. -/
def line (a b : V × V) (x : V) : V := a.2 + (b.2 - a.2) * (x - a.1) / (b.1 - a.1)

/-- Piecewise linear interpolation through at least two points given by increasing abscissa, extended by the first and last segment. -/
def piecewise : List (V × V) → V → Option V
  | [a, b], x => some (line a b x)
  | a :: b :: c :: rest, x => if x < b.1 then some (line a b x) else piecewise (b :: c :: rest) x
  | _, _ => none

/-- The slope of the line through `a` and `b`. -/
def slope (a b : V × V) : V := (b.2 - a.2) / (b.1 - a.1)

/-- The cubic with value `y0` and derivative `d0` at 0, value `y1` and derivative `d1` at 1. -/
def cubic (y0 d0 y1 d1 u : V) : V := y0 + d0 * u + (3 * (y1 - y0) - 2 * d0 - d1) * u ^ 2 + (2 * (y0 - y1) + d0 + d1) * u ^ 3

/-- The derivative at a point with the given neighbours: the slope between them, or the slope of the only segment it is on. -/
def tangentAt (prev : Option (V × V)) (a : V × V) (next : Option (V × V)) : Option V :=
  match prev, next with
  | some p, some n => some (slope p n)
  | none, some n => some (slope a n)
  | some p, none => some (slope p a)
  | none, none => none

/-- Piecewise cubic interpolation: on the segment from `a` to `b` the cubic in `(x - a)/(b - a)`. The segments are chosen as in `piecewise`. The
first argument is the point before the list. -/
def cubicsFrom : Option (V × V) → List (V × V) → V → Option V
  | prev, [a, b], x => do
    let da ← tangentAt prev a (some b)
    let db ← tangentAt (some a) b none
    some (cubic a.2 da b.2 db ((x - a.1) / (b.1 - a.1)))
  | prev, a :: b :: c :: rest, x =>
    if x < b.1 then do
      let da ← tangentAt prev a (some b)
      let db ← tangentAt (some a) b (some c)
      some (cubic a.2 da b.2 db ((x - a.1) / (b.1 - a.1)))
    else cubicsFrom (some a) (b :: c :: rest) x
  | _, _, _ => none

/-- All points lie on the line with slope `d` through `(0, c)`. -/
def OnLine (c d : V) (qs : List (V × V)) : Prop := ∀ p ∈ qs, p.2 = c + d * p.1

/-- Each abscissa is one more than the one before. -/
def UnitSteps (qs : List (V × V)) : Prop := ∀ i a b, qs[i]? = some a → qs[i + 1]? = some b → b.1 = a.1 + 1

/-- Strictly increasing abscissae. -/
def IncreasingX (qs : List (V × V)) : Prop := qs.Pairwise fun a b => a.1 < b.1

end Rtbot.Spec
