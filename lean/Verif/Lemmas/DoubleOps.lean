import Verif.Lemmas.Double
import Verif.Spec.Double
import Mathlib.Tactic.FieldSimp
import Mathlib.Tactic.Linarith
import Mathlib.Tactic.Positivity

/-! # Operations on doubles -/

namespace Rtbot
open Spec
namespace F64

/-! ## Signs and magnitudes -/

theorem mag_lt (a : F64) : a.mag < 2 ^ 63 := Nat.mod_lt _ (by norm_num)

theorem mag_ofMag {s : Bool} {b : Nat} (h : b < 2 ^ 63) : (ofMag s b).mag = b := by
  unfold ofMag mag
  simp only [UInt64.toNat_ofNat']
  cases s <;> simp <;> omega

theorem sign_ofMag {s : Bool} {b : Nat} (h : b < 2 ^ 63) : (ofMag s b).sign = s := by
  unfold ofMag sign
  simp only [UInt64.toNat_ofNat']
  cases s <;> simp <;> omega

theorem infMag_lt : infMag < 2 ^ 63 := by decide

theorem rnd_lt (n d : Nat) : rnd n d < 2 ^ 63 := lt_of_le_of_lt (rnd_le n d) infMag_lt

theorem mag_ofFrac (s : Bool) (n d : Nat) : (ofFrac s n d).mag = rnd n d := mag_ofMag (rnd_lt n d)
theorem sign_ofFrac (s : Bool) (n d : Nat) : (ofFrac s n d).sign = s := sign_ofMag (rnd_lt n d)

theorem ofMag_eta (a : F64) : ofMag a.sign a.mag = a := by
  obtain ⟨b⟩ := a
  unfold ofMag mag sign
  have := b.toNat_lt
  dsimp only
  congr 1
  apply UInt64.toNat_inj.1
  rw [UInt64.toNat_ofNat']
  by_cases h : 2 ^ 63 ≤ b.toNat
  · simp only [h, decide_true, if_true]; omega
  · simp only [h, decide_false]; simp; omega

theorem mag_neg (a : F64) : a.neg.mag = a.mag := mag_ofMag (mag_lt a)
theorem sign_neg (a : F64) : a.neg.sign = !a.sign := sign_ofMag (mag_lt a)
theorem isNaN_neg (a : F64) : a.neg.isNaN = a.isNaN := by unfold isNaN; rw [mag_neg]
theorem isFin_neg (a : F64) : a.neg.isFin = a.isFin := by unfold isFin; rw [mag_neg]

theorem units_neg (a : F64) : a.neg.units = - a.units := by
  unfold units
  rw [sign_neg, mag_neg]
  cases a.sign <;> simp

theorem key_neg (a : F64) : a.neg.key = - a.key := by
  unfold key
  rw [sign_neg, mag_neg]
  cases a.sign <;> simp

theorem isFin_iff {a : F64} : a.isFin = true ↔ a.mag < infMag := by unfold isFin; exact decide_eq_true_iff
theorem isNaN_iff {a : F64} : a.isNaN = true ↔ infMag < a.mag := by unfold isNaN; exact decide_eq_true_iff
theorem not_nan_of_fin {a : F64} (h : a.isFin = true) : a.isNaN = false := by
  have := isFin_iff.1 h
  unfold isNaN
  rw [decide_eq_false_iff_not]
  omega

theorem natAbs_units (a : F64) : a.units.natAbs = dec a.mag := by
  unfold units
  split <;> simp

/-- The order of keys is the order of numbers. -/
theorem key_le_iff {a b : F64} : a.key ≤ b.key ↔ a.units ≤ b.units := by
  unfold key units
  have h1 := dec_strictMono.le_iff_le (a := a.mag) (b := b.mag)
  have h2 := dec_strictMono.le_iff_le (a := b.mag) (b := a.mag)
  have h3 := dec_strictMono.le_iff_le (a := a.mag) (b := 0)
  have h4 := dec_strictMono.le_iff_le (a := b.mag) (b := 0)
  rw [dec_zero] at h3 h4
  split <;> split <;> omega

theorem key_lt_iff {a b : F64} : a.key < b.key ↔ a.units < b.units := by
  rw [← not_le, ← not_le, key_le_iff]

/-! ## The nearest double -/

theorem dec_split {x m : Nat} (hm : m ≤ 2 ^ 53) (hx : x ≠ 0 → 2 ^ 52 ≤ m) : dec (x * 2 ^ 52 + m) = m * 2 ^ x := by
  unfold dec
  split
  · next h =>
    have : x = 0 := by omega
    subst this
    simp
  · next h =>
    have hm52 : 2 ^ 52 ≤ m := by
      by_cases h0 : x = 0
      · subst h0; omega
      · exact hx h0
    rcases Nat.lt_or_ge m (2 ^ 53) with h1 | h1
    · have e1 : (x * 2 ^ 52 + m) % 2 ^ 52 = m - 2 ^ 52 := by omega
      have e2 : (x * 2 ^ 52 + m) / 2 ^ 52 = x + 1 := by omega
      rw [e1, e2, Nat.add_sub_cancel, Nat.add_sub_cancel' hm52]
    · have e0 : m = 2 ^ 53 := by omega
      have e1 : (x * 2 ^ 52 + m) % 2 ^ 52 = 0 := by omega
      have e2 : (x * 2 ^ 52 + m) / 2 ^ 52 = x + 2 := by omega
      rw [e1, e2, e0, show x + 2 - 1 = x + 1 by omega, Nat.pow_succ 2 x]
      generalize 2 ^ x = y
      omega

/-- A double not below 2^52 * 2^x is a multiple of 2^x. -/
theorem dvd_dec {x b : Nat} (h : 2 ^ 52 * 2 ^ x ≤ dec b) : 2 ^ x ∣ dec b := by
  unfold dec at *
  split
  · next hb =>
    rw [if_pos hb] at h
    have : x = 0 := by
      by_contra h0
      have : 2 ^ 52 * 1 ≤ 2 ^ 52 * 2 ^ x := Nat.mul_le_mul_left _ (Nat.one_le_two_pow)
      omega
    subst this
    simp
  · next hb =>
    rw [if_neg hb] at h
    have hlt : 2 ^ 52 * 2 ^ x < 2 ^ 53 * 2 ^ (b / 2 ^ 52 - 1) := lt_of_le_of_lt h (Nat.mul_lt_mul_of_pos_right (by omega) (Nat.two_pow_pos _))
    rw [← Nat.pow_add, ← Nat.pow_add] at hlt
    have := (Nat.pow_lt_pow_iff_right (by norm_num)).1 hlt
    exact Dvd.dvd.mul_left (Nat.pow_dvd_pow _ (by omega)) _

/-- No other double is nearer, and of two equally near ones the result is even. -/
theorem rnd_nearest {n d : Nat} (hd : 0 < d) (hfin : rnd n d < infMag) (b : Nat) :
    dec b = dec (rnd n d) ∨ (((dec (rnd n d) * d : Nat) : Int) - n).natAbs < (((dec b * d : Nat) : Int) - n).natAbs ∨
      ((((dec (rnd n d) * d : Nat) : Int) - n).natAbs = (((dec b * d : Nat) : Int) - n).natAbs ∧ rnd n d % 2 = 0) := by
  unfold rnd at hfin ⊢
  dsimp only at hfin ⊢
  generalize hx : (n / d).log2 - 52 = x at hfin ⊢
  have hr := rhe_range hx.symm
  have hD : 0 < d * 2 ^ x := Nat.mul_pos hd (Nat.two_pow_pos _)
  have hnear := rhe_near (n := n) hD
  have heven := rhe_even (n := n) hD
  generalize rhe n (d * 2 ^ x) = m at *
  have hmin : min (x * 2 ^ 52 + m) infMag = x * 2 ^ 52 + m := by omega
  rw [hmin, dec_split hr.1 (fun h => hr.2 (by omega))]
  have e : m * 2 ^ x * d = m * (d * 2 ^ x) := by ring
  rw [e]
  have cmp : ∀ k, k ≠ m → (((m * (d * 2 ^ x) : Nat) : Int) - n).natAbs < (((k * (d * 2 ^ x) : Nat) : Int) - n).natAbs ∨
      ((((m * (d * 2 ^ x) : Nat) : Int) - n).natAbs = (((k * (d * 2 ^ x) : Nat) : Int) - n).natAbs ∧ (x * 2 ^ 52 + m) % 2 = 0) := by
    intro k hk
    generalize hDD : d * 2 ^ x = D at *
    have hkm : k * D + D ≤ m * D ∨ m * D + D ≤ k * D := by
      rcases Nat.lt_or_gt_of_ne hk with h | h
      · left; rw [← Nat.succ_mul]; exact Nat.mul_le_mul_right _ h
      · right; rw [← Nat.succ_mul]; exact Nat.mul_le_mul_right _ h
    generalize m * D = mD at *
    generalize k * D = kD at *
    by_cases ht : 2 * mD = 2 * n + D ∨ 2 * n = 2 * mD + D
    · have := heven ht
      omega
    · omega
  rcases Nat.lt_or_ge (dec b) (2 ^ 52 * 2 ^ x) with hb | hb
  · by_cases hx0 : x = 0
    · subst hx0
      simp only [Nat.pow_zero, Nat.mul_one] at *
      by_cases hbm : dec b = m
      · exact Or.inl hbm
      · exact Or.inr (cmp _ hbm)
    · right
      left
      have hlow : 2 ^ 52 * 2 ^ x * d ≤ n := by
        have hne : n / d ≠ 0 := by
          intro h0
          rw [h0] at hx
          simp at hx
          omega
        have h1 := Nat.log2_self_le hne
        rw [show (n / d).log2 = 52 + x by omega, Nat.pow_add] at h1
        exact le_trans (Nat.mul_le_mul_right _ h1) (Nat.div_mul_le_self _ _)
      have hbd : dec b * d < 2 ^ 52 * 2 ^ x * d := Nat.mul_lt_mul_of_pos_right hb hd
      have h52 : 2 ^ 52 * 2 ^ x * d = 2 ^ 52 * (d * 2 ^ x) := by ring
      rw [h52] at hlow hbd
      by_cases hm : 2 ^ 52 = m
      · rw [hm] at hlow hbd
        generalize m * (d * 2 ^ x) = A at *
        generalize dec b * d = B at *
        omega
      · have := cmp _ hm
        generalize m * (d * 2 ^ x) = A at *
        generalize dec b * d = B at *
        generalize 2 ^ 52 * (d * 2 ^ x) = C at *
        omega
  · obtain ⟨k, hk⟩ := dvd_dec hb
    have hk' : dec b * d = k * (d * 2 ^ x) := by rw [hk]; ring
    rw [hk']
    by_cases hkm : k = m
    · left; rw [hk, hkm, Nat.mul_comm]
    · exact Or.inr (cmp _ hkm)


theorem one_pos : 0 < one := Nat.two_pow_pos _
theorem one_posQ : (0 : ℚ) < (one : ℚ) := Nat.cast_pos.2 one_pos

attribute [local irreducible] one

theorem val_nonneg_ofMag {b : Nat} (h : b < 2 ^ 63) : val (ofMag false b) = (dec b : ℚ) / (one : ℚ) := by
  unfold val units
  rw [sign_ofMag h, mag_ofMag h]
  simp

theorem abs_val (a : F64) : |val a| = (dec a.mag : ℚ) / (one : ℚ) := by
  unfold val
  rw [abs_div, abs_of_pos one_posQ, ← natAbs_units, ← Int.cast_abs, Int.abs_eq_natAbs, Int.cast_natCast]

/-- The sign of the number: not negative when the sign bit is clear, not positive when it is set. -/
theorem val_sign (a : F64) : val a = (if a.sign then -1 else 1) * ((dec a.mag : ℚ) / (one : ℚ)) := by
  unfold val units
  split <;> push_cast <;> ring

/-- Rounding a number with the sign of its rounding. -/
theorem rounds_ofFrac {s : Bool} {n d : Nat} (hd : 0 < d) (hfin : (ofFrac s n d).isFin = true) :
    Rounds ((if s then -1 else 1) * ((n : ℚ) / d / (one : ℚ))) (ofFrac s n d) := by
  refine ⟨hfin, fun b hb => ?_⟩
  rw [isFin_iff, mag_ofFrac] at hfin
  have hd' : (0 : ℚ) < d := by exact_mod_cast hd
  have hu : (0 : ℚ) < (one : ℚ) := one_posQ
  have scale : ∀ (x : Nat), |(x : ℚ) / (one : ℚ) - (n : ℚ) / d / (one : ℚ)| = ((((x * d : Nat) : Int) - n).natAbs : ℚ) / (d * (one : ℚ)) := by
    intro x
    have : (x : ℚ) / (one : ℚ) - (n : ℚ) / d / (one : ℚ) = ((((x * d : Nat) : Int) - n : Int) : ℚ) / (d * (one : ℚ)) := by
      push_cast
      field_simp
    rw [this, abs_div, abs_of_pos (mul_pos hd' hu), ← Int.cast_abs, Int.abs_eq_natAbs, Int.cast_natCast]
  have hpos : (0 : ℚ) < d * (one : ℚ) := mul_pos hd' hu
  have ha : |val (ofFrac s n d) - (if s then -1 else 1) * ((n : ℚ) / d / (one : ℚ))| =
      |(dec (rnd n d) : ℚ) / (one : ℚ) - (n : ℚ) / d / (one : ℚ)| := by
    rw [val_sign, sign_ofFrac, mag_ofFrac]
    cases s
    · simp
    · simp only [if_true, ← mul_sub, abs_mul]; simp
  rw [ha, scale, mag_ofFrac]
  by_cases hs : b.sign = s
  · have hb' : |val b - (if s then -1 else 1) * ((n : ℚ) / d / (one : ℚ))| = |(dec b.mag : ℚ) / (one : ℚ) - (n : ℚ) / d / (one : ℚ)| := by
      rw [val_sign, hs]
      cases s
      · simp
      · simp only [if_true, ← mul_sub, abs_mul]; simp
    rw [hb', scale]
    rcases rnd_nearest hd hfin b.mag with h | h | h
    · left
      rw [val_sign, val_sign, hs, sign_ofFrac, mag_ofFrac, h]
    · right; left
      exact div_lt_div_of_pos_right (by exact_mod_cast h) hpos
    · right; right
      exact ⟨by rw [h.1], h.2⟩
  · -- a number of the other sign is at least as far as zero
    have hb' : |val b - (if s then -1 else 1) * ((n : ℚ) / d / (one : ℚ))| = (dec b.mag : ℚ) / (one : ℚ) + (n : ℚ) / d / (one : ℚ) := by
      have h0 : (0 : ℚ) ≤ (dec b.mag : ℚ) / (one : ℚ) + (n : ℚ) / d / (one : ℚ) := by positivity
      rw [val_sign]
      cases s
      · have : b.sign = true := by cases h : b.sign <;> simp_all
        rw [this]
        simp only [if_true, Bool.false_eq_true, if_false]
        rw [← abs_neg, ← abs_of_nonneg h0]
        congr 1
        ring
      · have : b.sign = false := by cases h : b.sign <;> simp_all
        rw [this]
        simp only [if_true, Bool.false_eq_true, if_false]
        rw [← abs_of_nonneg h0]
        congr 1
        ring
    have h0 : (n : ℚ) / d / (one : ℚ) = ((((0 * d : Nat) : Int) - n).natAbs : ℚ) / (d * (one : ℚ)) := by
      have := scale 0
      rw [← this]
      have : (0 : ℚ) ≤ (n : ℚ) / d / (one : ℚ) := by positivity
      simp only [Nat.cast_zero, zero_div, zero_sub, abs_neg, abs_of_nonneg this]
    rw [hb', h0]
    have hbn : (0 : ℚ) ≤ (dec b.mag : ℚ) / (one : ℚ) := by positivity
    have near := rnd_nearest hd hfin 0
    rw [dec_zero] at near
    by_cases hbz : dec b.mag = 0
    · rw [hbz]
      simp only [Nat.cast_zero, zero_div, zero_add]
      rcases near with h | h | h
      · left
        rw [val_sign, val_sign, hbz, mag_ofFrac, ← h]
        simp
      · right; left
        exact div_lt_div_of_pos_right (by exact_mod_cast h) hpos
      · right; right
        exact ⟨by rw [h.1], h.2⟩
    · right; left
      have hbp : (0 : ℚ) < (dec b.mag : ℚ) / (one : ℚ) := by
        have : (0 : ℚ) < dec b.mag := by exact_mod_cast Nat.pos_of_ne_zero hbz
        exact div_pos this hu
      have hle : ((((dec (rnd n d) * d : Nat) : Int) - n).natAbs : ℚ) / (d * (one : ℚ)) ≤ ((((0 * d : Nat) : Int) - n).natAbs : ℚ) / (d * (one : ℚ)) := by
        apply div_le_div_of_nonneg_right _ hpos.le
        rcases near with h | h | h
        · rw [← h]
        · exact_mod_cast h.le
        · rw [h.1]
      linarith

end F64
end Rtbot
