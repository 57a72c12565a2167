import Verif.Lemmas.DoubleOps

/-! # Arithmetic with doubles: results are rounded once, integers are exact -/

namespace Rtbot
open Spec
namespace F64

attribute [local irreducible] one

theorem isFin_ofMag_zero (s : Bool) : (ofMag s 0).isFin = true := by
  rw [isFin_iff, mag_ofMag (by norm_num)]; decide

theorem val_zero_mag (s : Bool) : val (ofMag s 0) = 0 := by
  rw [val_sign, mag_ofMag (by norm_num), dec_zero]; simp

theorem rounds_ofUnits {z : Int} {s : Bool} (hfin : (ofUnits z s).isFin = true) : Rounds ((z : ℚ) / one) (ofUnits z s) := by
  unfold ofUnits at *
  split
  · next h =>
    refine ⟨isFin_ofMag_zero s, fun b _ => ?_⟩
    rw [val_zero_mag, h]
    by_cases hb : val b = 0
    · exact Or.inl hb
    · right; left; simpa using hb
  · next h =>
    rw [if_neg h] at hfin
    have := rounds_ofFrac (by norm_num) hfin
    have e : (if decide (z < 0) = true then (-1 : ℚ) else 1) * ((z.natAbs : ℚ) / (1 : Nat) / one) = (z : ℚ) / one := by
      rw [Nat.cast_one, div_one, Nat.cast_natAbs]
      by_cases hz : z < 0
      · simp only [hz, decide_true, if_true, abs_of_neg hz]; push_cast; ring
      · simp only [hz, decide_false, abs_of_nonneg (Int.not_lt.1 hz)]; simp
    rwa [e] at this

theorem val_neg (a : F64) : val a.neg = - val a := by unfold val; rw [units_neg]; push_cast; ring

section
variable [Platform]

theorem add_fin {a b : F64} (ha : a.isFin = true) (hb : b.isFin = true) : add a b = ofUnits (a.units + b.units) (a.sign && b.sign) := by
  unfold add
  simp [not_nan_of_fin ha, not_nan_of_fin hb, ha, hb]

/-- A sum is the double nearest to the exact sum, unless it overflows. -/
theorem add_rounds {a b : F64} (ha : a.isFin = true) (hb : b.isFin = true) (h : (add a b).isFin = true) : Rounds (val a + val b) (add a b) := by
  rw [add_fin ha hb] at *
  have := rounds_ofUnits h
  have e : ((a.units + b.units : Int) : ℚ) / one = val a + val b := by unfold val; push_cast; ring
  rwa [e] at this

theorem sub_rounds {a b : F64} (ha : a.isFin = true) (hb : b.isFin = true) (h : (sub a b).isFin = true) : Rounds (val a - val b) (sub a b) := by
  have := add_rounds ha ((isFin_neg b).trans hb) h
  rwa [val_neg, ← sub_eq_add_neg] at this

theorem natAbs_val (a : F64) : (a.units.natAbs : ℚ) = |val a| * one := by
  rw [abs_val, natAbs_units, div_mul_cancel₀ _ one_posQ.ne']

theorem val_eq_sign_abs (a : F64) : val a = (if a.sign then -1 else 1) * |val a| := by rw [abs_val]; exact val_sign a

theorem mul_fin {a b : F64} (ha : a.isFin = true) (hb : b.isFin = true) :
    mul a b = ofFrac (a.sign != b.sign) (a.units.natAbs * b.units.natAbs) one := by
  unfold mul
  simp [not_nan_of_fin ha, not_nan_of_fin hb, ha, hb]

/-- A product is the double nearest to the exact product, unless it overflows. -/
theorem mul_rounds {a b : F64} (ha : a.isFin = true) (hb : b.isFin = true) (h : (mul a b).isFin = true) : Rounds (val a * val b) (mul a b) := by
  rw [mul_fin ha hb] at *
  have := rounds_ofFrac one_pos h
  have e : (if (a.sign != b.sign) = true then (-1 : ℚ) else 1) * (((a.units.natAbs * b.units.natAbs : Nat) : ℚ) / one / one) = val a * val b := by
    rw [val_eq_sign_abs a, val_eq_sign_abs b]
    push_cast
    rw [natAbs_val, natAbs_val]
    have := one_posQ.ne'
    cases a.sign <;> cases b.sign <;> simp <;> field_simp
  rwa [e] at this

theorem div_fin {a b : F64} (ha : a.isFin = true) (hb : b.isFin = true) (h0 : b.mag ≠ 0) :
    div a b = ofFrac (a.sign != b.sign) (a.units.natAbs * one) b.units.natAbs := by
  unfold div
  simp [not_nan_of_fin ha, not_nan_of_fin hb, ha, hb, h0]

theorem dec_pos {b : Nat} (h : b ≠ 0) : 0 < dec b := by
  have := dec_strictMono (Nat.pos_of_ne_zero h)
  rwa [dec_zero] at this

theorem val_eq_zero {a : F64} : val a = 0 ↔ a.mag = 0 := by
  rw [← abs_eq_zero, abs_val, div_eq_zero_iff]
  constructor
  · rintro (h | h)
    · by_contra h0
      have := dec_pos h0
      have h' : dec a.mag = 0 := by exact_mod_cast h
      omega
    · exact absurd h one_posQ.ne'
  · intro h; left; rw [h, dec_zero, Nat.cast_zero]

/-- A quotient is the double nearest to the exact quotient, unless it overflows. -/
theorem div_rounds {a b : F64} (ha : a.isFin = true) (hb : b.isFin = true) (h0 : val b ≠ 0) (h : (div a b).isFin = true) :
    Rounds (val a / val b) (div a b) := by
  have hm : b.mag ≠ 0 := fun h => h0 (val_eq_zero.2 h)
  rw [div_fin ha hb hm] at *
  have := rounds_ofFrac (by rw [natAbs_units]; exact dec_pos hm) h
  have e : (if (a.sign != b.sign) = true then (-1 : ℚ) else 1) * (((a.units.natAbs * one : Nat) : ℚ) / b.units.natAbs / one) = val a / val b := by
    have h1 : |val b| ≠ 0 := abs_ne_zero.2 h0
    rw [val_eq_sign_abs a, val_eq_sign_abs b]
    push_cast
    rw [natAbs_val, natAbs_val]
    have := one_posQ.ne'
    cases a.sign <;> cases b.sign <;> simp <;> field_simp
  rwa [e] at this

/-- A conversion gives the nearest double. -/
theorem ofNat_rounds {n : Nat} (h : (Num.ofNat n : F64).isFin = true) : Rounds (n : ℚ) (Num.ofNat n : F64) := by
  have := rounds_ofFrac (by norm_num) (show (ofFrac false (n * one) 1).isFin = true from h)
  have e : (if false = true then (-1 : ℚ) else 1) * (((n * one : Nat) : ℚ) / (1 : Nat) / one) = n := by
    have := one_posQ.ne'
    push_cast
    simp
    field_simp
  rwa [e] at this

/-! ## Integers -/

theorem int_lim {m : Nat} (hm : m ≤ 2 ^ 53) : m * one < 2 ^ 2098 := by
  unfold one
  calc m * 2 ^ 1074 ≤ 2 ^ 53 * 2 ^ 1074 := Nat.mul_le_mul_right _ hm
    _ = 2 ^ 1127 := by rw [← Nat.pow_add]
    _ < 2 ^ 2098 := Nat.pow_lt_pow_right (by norm_num) (by norm_num)

theorem isInt_ofMag {s : Bool} {b m : Nat} (hb : b < infMag) (h : dec b = m * one) : IsInt (ofMag s b) (if s then -m else m) := by
  have hb' := lt_trans hb infMag_lt
  refine ⟨by rw [isFin_iff, mag_ofMag hb']; exact hb, ?_⟩
  rw [val_sign, sign_ofMag hb', mag_ofMag hb', h]
  have := one_posQ.ne'
  cases s <;> push_cast <;> simp <;> field_simp

theorem isInt_ofFrac {s : Bool} {m d : Nat} (hd : 0 < d) (hm : m ≤ 2 ^ 53) : IsInt (ofFrac s (m * one * d) d) (if s then -m else m) := by
  have h := rnd_fits hd (show m * one = m * 2 ^ 1074 by unfold one; rfl) hm (int_lim hm)
  exact isInt_ofMag h.2 h.1

/-- Integers up to 2^53 are converted exactly. -/
theorem ofNat_int {n : Nat} (hn : n ≤ 2 ^ 53) : IsInt (Num.ofNat n : F64) n := by
  have := isInt_ofFrac (s := false) (d := 1) (by norm_num) hn
  rw [Nat.mul_one] at this
  exact this

theorem int_units {a : F64} {z : Int} (h : IsInt a z) : a.units = z * one := by
  have h2 := h.2
  unfold val at h2
  rw [div_eq_iff one_posQ.ne'] at h2
  exact_mod_cast h2

theorem isInt_ofUnits {z : Int} {s : Bool} (hz : z.natAbs ≤ 2 ^ 53) : IsInt (ofUnits (z * one) s) z := by
  unfold ofUnits
  have hone : (one : Int) ≠ 0 := by have := one_pos; omega
  split
  · next h =>
    have : z = 0 := (Int.mul_eq_zero.1 h).resolve_right hone
    subst this
    exact ⟨isFin_ofMag_zero s, by rw [val_zero_mag]; simp⟩
  · next h =>
    rw [Int.natAbs_mul, Int.natAbs_natCast, ← Nat.mul_one (z.natAbs * one)]
    have hone' : (0 : Int) < one := by have := one_pos; omega
    have hs : (decide (z * (one : Int) < 0)) = decide (z < 0) := by
      congr 1
      exact propext ⟨fun hh => by by_contra hc; have := Int.mul_nonneg (Int.not_lt.1 hc) hone'.le; omega, fun hh => Int.mul_neg_of_neg_of_pos hh hone'⟩
    rw [hs]
    have := isInt_ofFrac (s := decide (z < 0)) (d := 1) (by norm_num) hz
    convert this using 1
    by_cases h0 : z < 0
    · simp only [h0, decide_true, if_true]; omega
    · simp only [h0, decide_false, Bool.false_eq_true, if_false]; omega

/-- Sums of integers are exact as long as they do not exceed 2^53. -/
theorem add_int {a b : F64} {x y : Int} (ha : IsInt a x) (hb : IsInt b y) (h : (x + y).natAbs ≤ 2 ^ 53) : IsInt (add a b) (x + y) := by
  rw [add_fin ha.1 hb.1, int_units ha, int_units hb, ← add_mul]
  exact isInt_ofUnits h

theorem neg_int {a : F64} {x : Int} (ha : IsInt a x) : IsInt a.neg (-x) :=
  ⟨(isFin_neg a).trans ha.1, by rw [val_neg, ha.2]; push_cast; rfl⟩

theorem sub_int {a b : F64} {x y : Int} (ha : IsInt a x) (hb : IsInt b y) (h : (x - y).natAbs ≤ 2 ^ 53) : IsInt (sub a b) (x - y) := by
  have := add_int ha (neg_int hb) (by rwa [← sub_eq_add_neg])
  rwa [← sub_eq_add_neg] at this

/-! ## Times -/

theorem toTime_ofNat {n : Nat} (hn : n ≤ 2 ^ 53) : toTime (Num.ofNat n : F64) = some (UInt64.ofNat n) := by
  have h := ofNat_int hn
  unfold toTime
  have hs : (Num.ofNat n : F64).sign = false := sign_ofFrac _ _ _
  rw [if_pos h.1, int_units h, hs, Int.natAbs_mul, Int.natAbs_natCast, Int.natAbs_natCast, Nat.mul_div_cancel _ one_pos]
  rw [if_neg]
  have : (2 : Nat) ^ 53 < 2 ^ 64 := by norm_num
  simp only [Bool.false_eq_true, false_and, false_or]
  omega

theorem toTime_ofTime_le {t : UInt64} (ht : t.toNat ≤ 2 ^ 53) : Num.toTime (ofTime t : F64) = some t := by
  show toTime (Num.ofNat t.toNat : F64) = some t
  rw [toTime_ofNat ht]
  simp

end
end F64
end Rtbot
