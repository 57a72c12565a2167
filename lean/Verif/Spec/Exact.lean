import Verif.Model.Num
import Mathlib.Algebra.Order.Field.Basic
import Mathlib.Algebra.Order.Ring.Rat
import Mathlib.Algebra.Order.Field.Rat
import Mathlib.Data.Rat.Floor
import Mathlib.Analysis.SpecialFunctions.Trigonometric.Basic
import Mathlib.Analysis.SpecialFunctions.Pow.Real

/-! # Exact arithmetic

Numeric identities are stated for interpretations of `double` in which the operations are those of an ordered field. -/

namespace Rtbot

/-- The operations of `Num V` are exact. -/
class Exact (V : Type) [Num V] [Field V] [LinearOrder V] : Prop where
  add_eq : ∀ a b : V, a +. b = a + b
  sub_eq : ∀ a b : V, a -. b = a - b
  mul_eq : ∀ a b : V, a *. b = a * b
  div_eq : ∀ a b : V, a /. b = a / b
  neg_eq : ∀ a : V, Num.neg a = -a
  lt_iff : ∀ a b : V, Num.lt a b = true ↔ a < b
  le_iff : ∀ a b : V, Num.le a b = true ↔ a ≤ b
  eq_iff : ∀ a b : V, Num.eq a b = true ↔ a = b
  ofNat_eq : ∀ n : Nat, (Num.ofNat n : V) = (n : V)
  half_eq : (Num.half : V) = 1 / 2
  pow_two : ∀ a : V, Num.pow a (Num.ofNat 2) = a * a
  /-- truncation of a value in range -/
  toTime_eq : ∀ (t : UInt64) (x : V), (t.toNat : V) ≤ x → x < (t.toNat : V) + 1 → Num.toTime x = some t

/-- Truncation toward zero to an unsigned 64 bit number; `none` when the result is out of range. -/
def truncTime {V : Type} [Field V] [LinearOrder V] [FloorRing V] (x : V) : Option UInt64 :=
  if -1 < x ∧ ⌊x⌋₊ < 2 ^ 64 then some (UInt64.ofNat ⌊x⌋₊) else none

/-- The reals as values: the ideal that floating point approximates. `pi` is read as π. The byte representation is a
placeholder (no theorem about bytes uses this instance). -/
noncomputable instance : Num ℝ where
  add := (· + ·)
  sub := (· - ·)
  mul := (· * ·)
  div := (· / ·)
  neg := (- ·)
  lt a b := decide (a < b)
  le a b := decide (a ≤ b)
  eq a b := decide (a = b)
  ofNat n := (n : ℝ)
  half := 1 / 2
  pi := Real.pi
  pow a b := a ^ b
  sqrt := Real.sqrt
  cos := Real.cos
  toTime := truncTime
  bits _ := 0
  ofBits _ := 0

/-- The rationals as values, used in examples. `sqrt`, `cos`, `pow` with a non-natural exponent and the byte representation are
placeholders. -/
instance : Num ℚ where
  add := (· + ·)
  sub := (· - ·)
  mul := (· * ·)
  div := (· / ·)
  neg := (- ·)
  lt a b := decide (a < b)
  le a b := decide (a ≤ b)
  eq a b := decide (a = b)
  ofNat n := (n : ℚ)
  half := 1 / 2
  pi := 3
  pow a b := a ^ b.num.toNat
  sqrt x := x
  cos _ := 1
  toTime := truncTime
  bits _ := 0
  ofBits _ := 0

theorem truncTime_eq {V : Type} [Field V] [LinearOrder V] [IsStrictOrderedRing V] [FloorRing V] (t : UInt64) (x : V)
    (h1 : (t.toNat : V) ≤ x) (h2 : x < (t.toNat : V) + 1) : truncTime x = some t := by
  have h0 : (0 : V) ≤ x := le_trans (Nat.cast_nonneg _) h1
  have hf : ⌊x⌋₊ = t.toNat := (Nat.floor_eq_iff h0).2 ⟨h1, h2⟩
  unfold truncTime
  rw [hf, if_pos ⟨by linarith, t.toNat_lt⟩, UInt64.ofNat_toNat]

instance : Exact ℝ where
  add_eq _ _ := rfl
  sub_eq _ _ := rfl
  mul_eq _ _ := rfl
  div_eq _ _ := rfl
  neg_eq _ := rfl
  lt_iff _ _ := decide_eq_true_iff
  le_iff _ _ := decide_eq_true_iff
  eq_iff _ _ := decide_eq_true_iff
  ofNat_eq _ := rfl
  half_eq := rfl
  pow_two a := by
    show a ^ ((2 : ℕ) : ℝ) = a * a
    rw [Real.rpow_natCast, sq]
  toTime_eq t x h1 h2 := truncTime_eq t x h1 h2

instance : Exact ℚ where
  add_eq _ _ := rfl
  sub_eq _ _ := rfl
  mul_eq _ _ := rfl
  div_eq _ _ := rfl
  neg_eq _ := rfl
  lt_iff _ _ := decide_eq_true_iff
  le_iff _ _ := decide_eq_true_iff
  eq_iff _ _ := decide_eq_true_iff
  ofNat_eq _ := rfl
  half_eq := rfl
  pow_two a := by
    show a ^ (((2 : ℕ) : ℚ).num.toNat) = a * a
    have : ((2 : ℕ) : ℚ).num.toNat = 2 := rfl
    rw [this, sq]
  toTime_eq t x h1 h2 := truncTime_eq t x h1 h2

end Rtbot
