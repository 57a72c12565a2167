import Verif.Lemmas.Function

/-! # Property of Function: C16 -/

namespace Rtbot
open Spec
variable {V : Type} [Num V] [Field V] [LinearOrder V] [Exact V] [IsStrictOrderedRing V]

/-- C16, linear mode (exact arithmetic): a Function built from `points`, whatever their order, answers each message with one message
with its time and the piecewise linear interpolation of its value through the points `qs` sorted by abscissa. -/
theorem C16_linear (id : Str) (points qs : List (V × V)) (o : Op V) (ho : Op.newFunction id points (some .linear) = .ok o)
    (hperm : qs.Perm points) (hinc : IncreasingX qs) :
    ∃ f : V → V, (∀ x, piecewise qs x = some (f x)) ∧ Computes o i1 (fun _ m => [(o1, [⟨m.time, f m.value⟩])]) := by
  unfold Op.newFunction at ho
  split at ho
  · cases ho
  rename_i hl
  rw [Fn.sortPoints_eq hperm hinc] at ho
  cases ho
  have hl' : 2 ≤ qs.length := by rw [hperm.length_eq]; omega
  have hpw : ∀ x, ∃ v, piecewise qs x = some v ∧ functionValue qs .linear x = .ok v := by
    intro x
    obtain ⟨a, b, ha, hb, h⟩ := Fn.piecewise_seg x qs hl'
    exact ⟨_, h, Fn.functionValue_linear hl' x ha hb⟩
  choose f hf using hpw
  refine ⟨f, fun x => (hf x).1, ?_⟩
  rw [simple1_eq id]
  apply computes_one _ (fun _ => .function qs .linear)
  · exact fun _ => rfl
  · intro h m s
    simp only [Op.process, procFunction, procLast_one, (hf m.value).2, bind_ok]
    rfl

/-- C16, both modes (exact arithmetic): a Function with at least two points with distinct abscissae can be built and answers each
message with one message with its time; the answer at the abscissa of a point is its ordinate. -/
theorem C16_interpolates (id : Str) (points qs : List (V × V)) (t : Interp) (hlen : 2 ≤ points.length)
    (hperm : qs.Perm points) (hinc : IncreasingX qs) :
    ∃ (o : Op V) (f : V → V), Op.newFunction id points (some t) = .ok o ∧ (∀ p ∈ points, f p.1 = p.2) ∧
      Computes o i1 (fun _ m => [(o1, [⟨m.time, f m.value⟩])]) := by
  have hl' : 2 ≤ qs.length := by rw [hperm.length_eq]; omega
  choose f hf using Fn.functionValue_ok (V := V) hl' t
  refine ⟨⟨Core.simple id 1, .function qs t⟩, f, ?_, ?_, ?_⟩
  · unfold Op.newFunction
    rw [if_neg (by omega), Fn.sortPoints_eq hperm hinc]
  · intro p hp
    have h1 := Fn.functionValue_at hl' hinc t p (hperm.mem_iff.2 hp)
    rw [hf] at h1
    exact Except.ok.inj h1
  · rw [simple1_eq id]
    apply computes_one _ (fun _ => .function qs t)
    · exact fun _ => rfl
    · intro h m s
      simp only [Op.process, procFunction, procLast_one, hf m.value, bind_ok]
      rfl

/-- C16, hermite mode (exact arithmetic): the answer to a message with value `x` is the value at `x` of the cubics through the points, whose
derivatives with respect to the position in the segment (0 at its start, 1 at its end) are the slopes between the neighbours of each point. -/
theorem C16_hermite (id : Str) (points qs : List (V × V)) (o : Op V) (ho : Op.newFunction id points (some .hermite) = .ok o)
    (hperm : qs.Perm points) (hinc : IncreasingX qs) :
    ∃ f : V → V, (∀ x, cubicsFrom none qs x = some (f x)) ∧ Computes o i1 (fun _ m => [(o1, [⟨m.time, f m.value⟩])]) := by
  unfold Op.newFunction at ho
  split at ho
  · cases ho
  rename_i hl
  rw [Fn.sortPoints_eq hperm hinc] at ho
  cases ho
  have hl' : 2 ≤ qs.length := by rw [hperm.length_eq]; omega
  choose f hf using fun x => Fn.functionValue_cubics (V := V) hl' x
  refine ⟨f, fun x => (hf x).1, ?_⟩
  rw [simple1_eq id]
  apply computes_one _ (fun _ => .function qs .hermite)
  · exact fun _ => rfl
  · intro h m s
    simp only [Op.process, procFunction, procLast_one, (hf m.value).2, bind_ok]
    rfl

/-- The cubics through the points (0, 0), (1, 2), (3, 2), (4, 0) at 2, inside, and at 5, beyond the last point. -/
example : cubicsFrom none [((0 : ℚ), (0 : ℚ)), (1, 2), (3, 2), (4, 0)] 2 = some (13 / 6) ∧
    cubicsFrom none [((0 : ℚ), (0 : ℚ)), (1, 2), (3, 2), (4, 0)] 5 = some (2 / 3) := by
  constructor <;> norm_num [cubicsFrom, tangentAt, slope, cubic]

/-- C55 in linear mode (exact arithmetic): with points on a straight line the answers are on the line. -/
theorem C55_linear (id : Str) (points qs : List (V × V)) (o : Op V) (ho : Op.newFunction id points (some .linear) = .ok o)
    (hperm : qs.Perm points) (hinc : IncreasingX qs) (c d : V) (hon : OnLine c d points) :
    Computes o i1 (fun _ m => [(o1, [⟨m.time, c + d * m.value⟩])]) := by
  obtain ⟨f, h1, h2⟩ := C16_linear id points qs o ho hperm hinc
  have hf : f = fun x => c + d * x :=
    funext fun x => Fn.piecewise_straight x qs (f x) (fun p m => hon p (hperm.mem_iff.1 m)) hinc (h1 x)
  rw [hf] at h2
  exact h2

/-- C55 in hermite mode (exact arithmetic) when neighbouring points are 1 apart. Missing: other distances, for which it is false
(`C55_violated`): the derivatives are taken with respect to the value but used with respect to the position in the segment. -/
theorem C55_hermite_partial (id : Str) (points qs : List (V × V)) (o : Op V) (ho : Op.newFunction id points (some .hermite) = .ok o)
    (hperm : qs.Perm points) (hinc : IncreasingX qs) (hunit : UnitSteps qs) (c d : V) (hon : OnLine c d points) :
    Computes o i1 (fun _ m => [(o1, [⟨m.time, c + d * m.value⟩])]) := by
  obtain ⟨f, h1, h2⟩ := C16_hermite id points qs o ho hperm hinc
  have hf : f = fun x => c + d * x :=
    funext fun x => Fn.cubics_straight x qs none (f x) (fun p m => hon p (hperm.mem_iff.1 m)) hinc hunit (by rintro p ⟨⟩) (h1 x)
  rw [hf] at h2
  exact h2

/-- C55 fails in hermite mode: with the points (0, 0) and (10, 10), on the line y = x, the answer to 5/2 is 53/32. -/
theorem C55_violated (id : Str) : ∃ o : Op ℚ, Op.newFunction id [((0 : ℚ), (0 : ℚ)), (10, 10)] (some .hermite) = .ok o ∧
    ∃ f : ℚ → ℚ, Computes o i1 (fun _ m => [(o1, [⟨m.time, f m.value⟩])]) ∧ f (5 / 2) = 53 / 32 := by
  have hinc : IncreasingX [((0 : ℚ), (0 : ℚ)), (10, 10)] := by unfold IncreasingX; decide +kernel
  obtain ⟨o, _, ho, _, _⟩ := C16_interpolates (V := ℚ) id [(0, 0), (10, 10)] [(0, 0), (10, 10)] .hermite (by decide) (List.Perm.refl _) hinc
  obtain ⟨f, h1, h2⟩ := C16_hermite id _ _ o ho (List.Perm.refl _) hinc
  refine ⟨o, ho, f, h2, ?_⟩
  have := h1 (5 / 2)
  norm_num [cubicsFrom, tangentAt, slope, cubic] at this
  exact this.symm

/-- Points one apart on the line y = 1 + 2x. -/
example : OnLine (1 : ℚ) 2 [(3, 7), (4, 9), (5, 11)] ∧ UnitSteps [((3 : ℚ), (7 : ℚ)), (4, 9), (5, 11)] ∧
    IncreasingX [((3 : ℚ), (7 : ℚ)), (4, 9), (5, 11)] := by
  refine ⟨?_, ?_, by unfold IncreasingX; decide +kernel⟩
  · intro p hp
    simp only [List.mem_cons, List.not_mem_nil, or_false] at hp
    rcases hp with rfl | rfl | rfl <;> norm_num
  · intro i a b h1 h2
    match i, h1, h2 with
    | 0, h1, h2 => cases h1; cases h2; norm_num
    | 1, h1, h2 => cases h1; cases h2; norm_num
    | 2, h1, h2 => cases h2
    | n + 3, h1, h2 => cases h2

/-- A concrete case: three points given out of order. -/
example : [((0 : ℚ), (1 : ℚ)), (2, 5), (3, 0)].Perm [(2, 5), (0, 1), (3, 0)] ∧ IncreasingX [((0 : ℚ), (1 : ℚ)), (2, 5), (3, 0)] ∧
    2 ≤ [((0 : ℚ), (1 : ℚ)), (2, 5), (3, 0)].length ∧
    piecewise [((0 : ℚ), (1 : ℚ)), (2, 5), (3, 0)] 1 = some 3 ∧ piecewise [((0 : ℚ), (1 : ℚ)), (2, 5), (3, 0)] 4 = some (-5) ∧
    ∃ o, Op.newFunction [] [((2 : ℚ), (5 : ℚ)), (0, 1), (3, 0)] (some .linear) = .ok o := by
  refine ⟨by decide +kernel, by unfold IncreasingX; decide +kernel, by decide, by decide +kernel, by decide +kernel, ⟨_, rfl⟩⟩

end Rtbot
