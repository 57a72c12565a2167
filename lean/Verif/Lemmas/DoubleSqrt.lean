import Verif.Lemmas.DoubleArith
import Mathlib.Analysis.SpecialFunctions.Pow.Real

/-! # The square root of a double is rounded correctly, the conversion to a time truncates -/

namespace Rtbot
open Spec
namespace F64

theorem one_pow : one = 2 ^ 537 * 2 ^ 537 := by unfold one; rw [← Nat.pow_add]
theorem dec_inf_one : 2 ^ 2098 * one = 2 ^ 1586 * 2 ^ 1586 := by unfold one; rw [← Nat.pow_add, ← Nat.pow_add]

theorem one_zpow : (one : ℚ) = 2 ^ (1074 : Int) := by unfold one; push_cast; rw [← zpow_natCast]; rfl

attribute [local irreducible] one

theorem mul_pos_iff_of_neg_left' {c b : ℝ} (h : c < 0) : 0 < c * b ↔ b < 0 := by
  constructor
  · intro hp; by_contra hb; nlinarith [mul_nonpos_of_nonpos_of_nonneg h.le (not_lt.1 hb)]
  · intro hb; exact mul_pos_of_neg_of_neg h hb

/-! ## Square roots compared with integers -/

/-- Twice the integer part of a root, plus one when there is a rest. -/
def root (N : Nat) : Nat := 2 * N.sqrt + if N.sqrt * N.sqrt = N then 0 else 1

/-- It lies on the same side of an even number as twice the root. -/
theorem root_lt {N M : Nat} : root N < 2 * M ↔ Real.sqrt N < M := by
  rw [Real.sqrt_lt (Nat.cast_nonneg _) (Nat.cast_nonneg _), ← Nat.cast_pow, Nat.cast_lt, pow_two, ← Nat.sqrt_lt]
  unfold root
  split <;> omega

theorem lt_root {N M : Nat} : 2 * M < root N ↔ (M : ℝ) < Real.sqrt N := by
  rw [Real.lt_sqrt (Nat.cast_nonneg _), ← Nat.cast_pow, Nat.cast_lt, pow_two]
  have h : M ≤ N.sqrt ↔ M * M ≤ N := Nat.le_sqrt
  have h' : M < N.sqrt → M * M < N.sqrt * N.sqrt := fun h => Nat.mul_self_lt_mul_self h
  have := Nat.sqrt_le N
  unfold root
  constructor
  · intro hlt
    split at hlt
    · have := h' (by omega)
      omega
    · next hne =>
      rcases Nat.lt_or_ge M N.sqrt with h2 | h2
      · have := h' h2; omega
      · have : M = N.sqrt := by omega
        subst this
        omega
  · intro hlt
    have h3 := h.2 (by omega)
    split
    · next he =>
      rcases Nat.lt_or_ge M N.sqrt with h2 | h2
      · omega
      · have : M = N.sqrt := by omega
        subst this
        omega
    · omega

/-- Of two integers of the same parity, which one is nearer to the root is decided by `root`. -/
theorem near_iff {N A B M : Nat} (h : A + B = 2 * M) (hne : A ≠ B) :
    ((((A * 2 : Nat) : Int) - root N).natAbs < (((B * 2 : Nat) : Int) - root N).natAbs ↔ |(A : ℝ) - Real.sqrt N| < |(B : ℝ) - Real.sqrt N|) ∧
    ((((A * 2 : Nat) : Int) - root N).natAbs = (((B * 2 : Nat) : Int) - root N).natAbs ↔ |(A : ℝ) - Real.sqrt N| = |(B : ℝ) - Real.sqrt N|) := by
  have hR : (A : ℝ) + B = 2 * M := by exact_mod_cast h
  have hl := root_lt (N := N) (M := M)
  have hg := lt_root (N := N) (M := M)
  generalize Real.sqrt N = y at *
  generalize root N = n at *
  have key1 : |(A : ℝ) - y| < |(B : ℝ) - y| ↔ 0 < ((B : ℝ) - A) * (M - y) := by
    rw [← sq_lt_sq]
    constructor <;> intro h <;> nlinarith
  have key2 : |(A : ℝ) - y| = |(B : ℝ) - y| ↔ ((B : ℝ) - A) * (M - y) = 0 := by
    rw [← sq_eq_sq_iff_abs_eq_abs]
    constructor <;> intro h <;> nlinarith
  rw [key1, key2]
  rcases Nat.lt_or_gt_of_ne hne with hAB | hAB
  · have hAB' : (0 : ℝ) < (B : ℝ) - A := sub_pos.2 (by exact_mod_cast hAB)
    rw [mul_pos_iff_of_pos_left hAB', sub_pos, mul_eq_zero, or_iff_right hAB'.ne', sub_eq_zero, ← hl]
    refine ⟨by omega, ?_⟩
    constructor
    · intro he
      have h1 : ¬ n < 2 * M := by omega
      have h2 : ¬ 2 * M < n := by omega
      rw [hl] at h1
      rw [hg] at h2
      exact le_antisymm (not_lt.1 h1) (not_lt.1 h2)
    · intro he
      have h1 : ¬ n < 2 * M := by rw [hl]; exact not_lt.2 he.le
      have h2 : ¬ 2 * M < n := by rw [hg]; exact not_lt.2 he.ge
      omega
  · have hAB' : (B : ℝ) - A < 0 := sub_neg.2 (by exact_mod_cast hAB)
    rw [mul_pos_iff_of_neg_left' hAB', sub_neg, mul_eq_zero, or_iff_right hAB'.ne, sub_eq_zero, ← hg]
    refine ⟨by omega, ?_⟩
    constructor
    · intro he
      have h1 : ¬ n < 2 * M := by omega
      have h2 : ¬ 2 * M < n := by omega
      rw [hl] at h1
      rw [hg] at h2
      exact le_antisymm (not_lt.1 h1) (not_lt.1 h2)
    · intro he
      have h1 : ¬ n < 2 * M := by rw [hl]; exact not_lt.2 he.le
      have h2 : ¬ 2 * M < n := by rw [hg]; exact not_lt.2 he.ge
      omega

theorem even_dec {b : Nat} (h : 2 ^ 53 ≤ dec b) : dec b % 2 = 0 := by
  have := dvd_dec (x := 1) (b := b) (by rw [← Nat.pow_add]; exact h)
  omega

/-- Rounding `root N / 2` gives the double nearest to the root of `N`, when that is large. -/
theorem rnd_root {N z : Nat} (hz : z = 2 ^ 537) (hN : z * z ≤ N) (hfin : rnd (root N) 2 < infMag) (b : Nat) :
    dec b = dec (rnd (root N) 2) ∨ |(dec (rnd (root N) 2) : ℝ) - Real.sqrt N| < |(dec b : ℝ) - Real.sqrt N| ∨
      (|(dec (rnd (root N) 2) : ℝ) - Real.sqrt N| = |(dec b : ℝ) - Real.sqrt N| ∧ rnd (root N) 2 % 2 = 0) := by
  obtain ⟨c, hc, hcd⟩ := dec_surj (n := z) (m := 1) (e := 537) (by rw [hz, Nat.one_mul]) (by norm_num) (by rw [hz]; exact Nat.pow_lt_pow_right (by norm_num) (by norm_num))
  have hr : z ≤ N.sqrt := Nat.le_sqrt.2 hN
  have h53 : 2 ^ 53 < dec c := by rw [hcd, hz]; exact Nat.pow_lt_pow_right (by norm_num) (by norm_num)
  clear hz
  rw [← hcd] at hr hN
  have hlow : dec c ≤ dec (rnd (root N) 2) := by
    apply dec_strictMono.monotone
    apply rnd_ge (by norm_num) hc
    unfold root
    split <;> omega
  have hy : (dec c : ℝ) ≤ Real.sqrt N := by
    apply Real.le_sqrt_of_sq_le
    rw [← Nat.cast_pow, Nat.cast_le, pow_two]
    exact hN
  clear hr hN hcd hc
  have near := rnd_nearest (n := root N) (d := 2) (by norm_num) hfin
  generalize rnd (root N) 2 = S at *
  have hA : dec S % 2 = 0 := even_dec (by omega)
  have evenCase : ∀ k, dec k % 2 = 0 → dec k = dec S ∨ |(dec S : ℝ) - Real.sqrt N| < |(dec k : ℝ) - Real.sqrt N| ∨
      (|(dec S : ℝ) - Real.sqrt N| = |(dec k : ℝ) - Real.sqrt N| ∧ S % 2 = 0) := by
    intro k hk
    by_cases he : dec k = dec S
    · exact Or.inl he
    · have h := near_iff (N := N) (A := dec S) (B := dec k) (M := (dec S + dec k) / 2) (by omega) (fun h => he h.symm)
      rw [← h.1, ← h.2]
      rcases near k with h | h | h
      · exact absurd h he
      · exact Or.inr (Or.inl h)
      · exact Or.inr (Or.inr h)
  by_cases hb : dec b % 2 = 0
  · exact evenCase b hb
  · right; left
    have hlt : dec b < dec c := by
      have : ¬ 2 ^ 53 ≤ dec b := fun h => hb (even_dec h)
      omega
    have hcb : |(dec c : ℝ) - Real.sqrt N| < |(dec b : ℝ) - Real.sqrt N| := by
      have : (dec b : ℝ) < dec c := by exact_mod_cast hlt
      rw [abs_of_nonpos (by linarith), abs_of_nonpos (by linarith)]
      linarith
    rcases evenCase c (even_dec (by omega)) with h | h | h
    · rw [← h]; exact hcb
    · exact h.trans hcb
    · rw [h.1]; exact hcb

theorem dec_lt {b : Nat} (h : b < infMag) : dec b < 2 ^ 2098 := by
  have := dec_strictMono h
  have e : dec infMag = 2 ^ 2098 := by
    unfold dec infMag
    rw [if_neg (by norm_num), Nat.mul_mod_left, Nat.mul_div_cancel _ (by norm_num), Nat.add_zero, ← Nat.pow_add]
  rwa [e] at this

/-- The square root of a number that is not negative is the nearest double. -/
theorem sqrt_rounds [Platform] {a : F64} (ha : a.isFin = true) (hs : 0 ≤ val a) : RoundsReal (Real.sqrt (val a)) (sqrt a) := by
  have hnan := not_nan_of_fin ha
  by_cases hz : a.mag = 0
  · have e : sqrt a = a := by unfold sqrt; rw [hnan]; simp [hz]
    have hv : val a = 0 := val_eq_zero.2 hz
    rw [e, hv]
    refine ⟨ha, fun b _ => ?_⟩
    rw [hv]
    by_cases hb : val b = 0
    · exact Or.inl hb
    · right; left
      simpa using hb
  · have hsign : a.sign = false := by
      by_contra h
      have h : a.sign = true := by simpa using h
      rw [val_sign, h] at hs
      have : (0 : ℚ) < (dec a.mag : ℚ) / (one : ℚ) := div_pos (by exact_mod_cast dec_pos hz) one_posQ
      simp only [if_true] at hs
      linarith
    have e : sqrt a = ofFrac false (root (dec a.mag * one)) 2 := by
      unfold sqrt root
      rw [hnan, ← natAbs_units]
      simp [hz, hsign, ha]
    have hfin' : rnd (root (dec a.mag * one)) 2 < infMag := by
      obtain ⟨c, hc, hcd⟩ := dec_surj (n := 2 ^ 1587) (m := 1) (e := 1587) (by ring) (by norm_num) (Nat.pow_lt_pow_right (by norm_num) (by norm_num))
      refine lt_of_le_of_lt (rnd_between (lo := 0) (by norm_num) hc (by rw [dec_zero]; omega) ?_).2 hc
      rw [hcd]
      have h1 : dec a.mag * one < 2 ^ 1586 * 2 ^ 1586 := by
        rw [← dec_inf_one]
        exact Nat.mul_lt_mul_of_pos_right (dec_lt (isFin_iff.1 ha)) one_pos
      have h2 := Nat.sqrt_lt.2 h1
      rw [show (2 : Nat) ^ 1587 = 2 ^ 1586 * 2 from by rw [← Nat.pow_succ]]
      clear hcd h1
      have hp : 0 < (2 : Nat) ^ 1586 := Nat.two_pow_pos _
      unfold root
      generalize (2 : Nat) ^ 1586 = z at *
      split <;> omega
    have hbig : 2 ^ 537 * 2 ^ 537 ≤ dec a.mag * one := by
      rw [← one_pow]
      exact Nat.le_mul_of_pos_left _ (dec_pos hz)
    have hroot : Real.sqrt (val a : ℝ) = Real.sqrt ((dec a.mag * one : Nat) : ℝ) / (one : ℝ) := by
      have ho : (0 : ℝ) < (one : ℝ) := by exact_mod_cast one_pos
      have hv : (val a : ℝ) = ((dec a.mag * one : Nat) : ℝ) / ((one : ℝ) ^ 2) := by
        have h : val a = (dec a.mag : ℚ) / (one : ℚ) := by rw [val_sign, hsign]; simp
        rw [h]
        push_cast
        field_simp
      rw [hv, Real.sqrt_div (Nat.cast_nonneg _), Real.sqrt_sq ho.le]
    rw [e, hroot]
    refine ⟨by rw [isFin_iff, mag_ofFrac]; exact hfin', fun b hb => ?_⟩
    have ho : (0 : ℝ) < (one : ℝ) := by exact_mod_cast one_pos
    have core := rnd_root rfl hbig hfin'
    rw [mag_ofFrac]
    have hva : (val (ofFrac false (root (dec a.mag * one)) 2) : ℝ) = (dec (rnd (root (dec a.mag * one)) 2) : ℝ) / one := by
      rw [val_sign, sign_ofFrac, mag_ofFrac]
      simp
    have hva' : val (ofFrac false (root (dec a.mag * one)) 2) = (dec (rnd (root (dec a.mag * one)) 2) : ℚ) / one := by
      rw [val_sign, sign_ofFrac, mag_ofFrac]
      simp
    rw [hva, hva']
    have hy := Real.sqrt_nonneg ((dec a.mag * one : Nat) : ℝ)
    generalize Real.sqrt ((dec a.mag * one : Nat) : ℝ) = y at *
    generalize rnd (root (dec a.mag * one)) 2 = S at *
    simp only [← sub_div, abs_div, abs_of_pos ho]
    by_cases hbs : b.sign = false
    · have hvb : (val b : ℝ) = (dec b.mag : ℝ) / one := by rw [val_sign, hbs]; simp
      have hvb' : val b = (dec b.mag : ℚ) / one := by rw [val_sign, hbs]; simp
      rw [hvb, hvb', ← sub_div, abs_div, abs_of_pos ho]
      rcases core b.mag with h | h | h
      · left; rw [h]
      · right; left; exact div_lt_div_of_pos_right h ho
      · right; right; exact ⟨by rw [h.1], h.2⟩
    · have hbs : b.sign = true := by simpa using hbs
      have hvb : (val b : ℝ) = - (dec b.mag : ℝ) / one := by rw [val_sign, hbs]; simp; ring
      have hvb' : val b = - (dec b.mag : ℚ) / one := by rw [val_sign, hbs]; simp; ring
      rw [hvb, hvb', ← sub_div, abs_div, abs_of_pos ho]
      have hB : |(-(dec b.mag : ℝ)) - y| = dec b.mag + y := by
        rw [abs_of_nonpos (by have : (0 : ℝ) ≤ dec b.mag := Nat.cast_nonneg _; linarith)]; ring
      have h0 := core 0
      rw [dec_zero, Nat.cast_zero, zero_sub, abs_neg, abs_of_nonneg hy] at h0
      rw [hB]
      by_cases hbz : dec b.mag = 0
      · rw [hbz]; simp only [Nat.cast_zero, zero_add, neg_zero]
        rcases h0 with h | h | h
        · left; rw [← h]; simp
        · right; left; exact div_lt_div_of_pos_right h ho
        · right; right; exact ⟨by rw [h.1], h.2⟩
      · right; left
        apply div_lt_div_of_pos_right _ ho
        have : (0 : ℝ) < dec b.mag := by exact_mod_cast Nat.pos_of_ne_zero hbz
        rcases h0 with h | h | h
        · rw [← h, Nat.cast_zero, zero_sub, abs_neg, abs_of_nonneg hy]; linarith
        · linarith
        · linarith

/-- The root of a negative number is not a number. -/
theorem sqrt_neg [Platform] {a : F64} (ha : a.isFin = true) (h : val a < 0) : (sqrt a).isNaN = true := by
  have hz : a.mag ≠ 0 := fun h0 => by rw [val_eq_zero.2 h0] at h; exact lt_irrefl _ h
  have hsign : a.sign = true := by
    by_contra hs
    have hs : a.sign = false := by simpa using hs
    rw [val_sign, hs] at h
    have : (0 : ℚ) ≤ (dec a.mag : ℚ) / (one : ℚ) := by positivity
    simp only [Bool.false_eq_true, if_false, one_mul] at h
    linarith
  unfold sqrt
  simp [not_nan_of_fin ha, hz, hsign, Platform.nan_isNaN]

/-! ## Overflow -/

/-- The limit of finite results, in multiples of 2^-1074. -/
def thr : Nat := (2 ^ 54 - 1) * 2 ^ 2044

theorem rnd_thr : rnd thr 1 = infMag := by decide +kernel

theorem rnd_inf {n d : Nat} (hd : 0 < d) : rnd n d = infMag ↔ thr * d ≤ n := by
  constructor
  · intro h
    unfold rnd at h
    dsimp only at h
    generalize hx : (n / d).log2 - 52 = x at h
    have hr := (rhe_range hx.symm).1
    rcases Nat.lt_trichotomy x 2045 with hlt | heq | hgt
    · exfalso
      unfold infMag at h
      omega
    · subst heq
      have hr' : rhe n (d * 2 ^ 2045) = 2 ^ 53 := by unfold infMag at h; omega
      have hn := (rhe_near (n := n) (d := d * 2 ^ 2045) (Nat.mul_pos hd (Nat.two_pow_pos _))).1
      rw [hr'] at hn
      unfold thr
      rw [show (2 : Nat) ^ 2045 = 2 ^ 2044 * 2 from by rw [← Nat.pow_succ]] at hn
      clear hr hr' hx h
      generalize (2 : Nat) ^ 2044 = z at *
      have e : (2 ^ 54 - 1) * z * d = (2 ^ 54 - 1) * (d * z) := by ring
      have e2 : d * (z * 2) = d * z * 2 := by ring
      rw [e2] at hn
      rw [e]
      generalize d * z = w at *
      omega
    · have hne : n / d ≠ 0 := by
        intro h0
        rw [h0] at hx
        simp at hx
        omega
      have h1 := Nat.log2_self_le hne
      have h2 : (2 : Nat) ^ 2098 ≤ n / d := le_trans (Nat.pow_le_pow_right (by norm_num) (by omega)) h1
      have h3 : thr ≤ n / d := by
        refine le_trans ?_ h2
        unfold thr
        rw [show (2 : Nat) ^ 2098 = 2 ^ 54 * 2 ^ 2044 from by rw [← Nat.pow_add]]
        exact Nat.mul_le_mul_right _ (Nat.sub_le _ _)
      exact (Nat.le_div_iff_mul_le hd).1 h3
  · intro h
    apply le_antisymm (rnd_le _ _)
    have := rnd_mono (n := thr) (d := 1) (n' := n) (d' := d) Nat.one_pos hd (by rw [Nat.mul_one]; exact h)
    rwa [rnd_thr] at this

theorem limit_eq : limit = (thr : ℚ) / one := by
  have h : (thr + 2 ^ 2044) = 2 ^ 1024 * one := by
    unfold thr
    rw [Nat.sub_mul, Nat.one_mul, Nat.sub_add_cancel (Nat.le_mul_of_pos_left _ (by norm_num)), ← Nat.pow_add, one_pow, ← Nat.pow_add, ← Nat.pow_add]
  have h2 : (2 : Nat) ^ 2044 = 2 ^ 970 * one := by rw [one_pow, ← Nat.pow_add, ← Nat.pow_add]
  rw [h2] at h
  have h' : (thr : ℚ) + 2 ^ 970 * one = 2 ^ 1024 * one := by exact_mod_cast h
  unfold limit
  rw [eq_div_iff one_posQ.ne', sub_mul]
  linarith

theorem limit_pos : 0 < limit := by
  rw [limit_eq]
  refine div_pos ?_ one_posQ
  have : 0 < thr := Nat.mul_pos (by norm_num) (Nat.two_pow_pos _)
  exact_mod_cast this

theorem roundsTo_ofFrac {s : Bool} {n d : Nat} (hd : 0 < d) : RoundsTo ((if s then -1 else 1) * ((n : ℚ) / d / (one : ℚ))) (ofFrac s n d) := by
  have hdQ : (0 : ℚ) < d := by exact_mod_cast hd
  have habs : |(if s then (-1 : ℚ) else 1) * ((n : ℚ) / d / (one : ℚ))| = (n : ℚ) / d / one := by
    have h0 : (0 : ℚ) ≤ (n : ℚ) / d / one := by positivity
    cases s
    · simp only [Bool.false_eq_true, if_false, one_mul]; exact abs_of_nonneg h0
    · simp only [if_true, neg_mul, one_mul, abs_neg]; exact abs_of_nonneg h0
  have hlim : limit ≤ (n : ℚ) / d / one ↔ rnd n d = infMag := by
    rw [rnd_inf hd, limit_eq, div_le_div_iff_of_pos_right one_posQ, le_div_iff₀ hdQ, ← Nat.cast_mul, Nat.cast_le]
  by_cases h : limit ≤ (n : ℚ) / d / one
  · right
    refine ⟨by rw [habs]; exact h, by rw [mag_ofFrac]; exact hlim.1 h, ?_⟩
    rw [sign_ofFrac]
    have := lt_of_lt_of_le limit_pos h
    cases s
    · simp only [Bool.false_eq_true, if_false, one_mul, false_iff, not_lt]; exact this.le
    · simp only [if_true, true_iff]; linarith
  · left
    refine ⟨by rw [habs]; exact not_le.1 h, rounds_ofFrac hd ?_⟩
    rw [isFin_iff, mag_ofFrac]
    exact lt_of_le_of_ne (rnd_le _ _) (fun he => h (hlim.2 he))

theorem roundsTo_ofUnits {z : Int} {s : Bool} : RoundsTo ((z : ℚ) / one) (ofUnits z s) := by
  by_cases h : z = 0
  · left
    refine ⟨by rw [h]; simpa using limit_pos, rounds_ofUnits ?_⟩
    unfold ofUnits
    rw [if_pos h]
    exact isFin_ofMag_zero s
  · have := roundsTo_ofFrac (s := decide (z < 0)) (n := z.natAbs) (d := 1) Nat.one_pos
    have e : (if decide (z < 0) = true then (-1 : ℚ) else 1) * ((z.natAbs : ℚ) / (1 : Nat) / one) = (z : ℚ) / one := by
      rw [Nat.cast_one, div_one, Nat.cast_natAbs]
      by_cases hz : z < 0
      · simp only [hz, decide_true, if_true, abs_of_neg hz]; push_cast; ring
      · simp only [hz, decide_false, abs_of_nonneg (Int.not_lt.1 hz)]; simp
    rw [e] at this
    unfold ofUnits
    rwa [if_neg h]

section
variable [Platform]

theorem add_to {a b : F64} (ha : a.isFin = true) (hb : b.isFin = true) : RoundsTo (val a + val b) (add a b) := by
  rw [add_fin ha hb]
  have := roundsTo_ofUnits (z := a.units + b.units) (s := a.sign && b.sign)
  have e : ((a.units + b.units : Int) : ℚ) / one = val a + val b := by unfold val; push_cast; ring
  rwa [e] at this

theorem sub_to {a b : F64} (ha : a.isFin = true) (hb : b.isFin = true) : RoundsTo (val a - val b) (sub a b) := by
  have := add_to ha ((isFin_neg b).trans hb)
  rwa [val_neg, ← sub_eq_add_neg] at this

theorem mul_to {a b : F64} (ha : a.isFin = true) (hb : b.isFin = true) : RoundsTo (val a * val b) (mul a b) := by
  rw [mul_fin ha hb]
  have := roundsTo_ofFrac (s := a.sign != b.sign) (n := a.units.natAbs * b.units.natAbs) one_pos
  have e : (if (a.sign != b.sign) = true then (-1 : ℚ) else 1) * (((a.units.natAbs * b.units.natAbs : Nat) : ℚ) / one / one) = val a * val b := by
    rw [val_eq_sign_abs a, val_eq_sign_abs b]
    push_cast
    rw [natAbs_val, natAbs_val]
    have := one_posQ.ne'
    cases a.sign <;> cases b.sign <;> simp <;> field_simp
  rwa [e] at this

theorem div_to {a b : F64} (ha : a.isFin = true) (hb : b.isFin = true) (h0 : val b ≠ 0) : RoundsTo (val a / val b) (div a b) := by
  have hm : b.mag ≠ 0 := fun h => h0 (val_eq_zero.2 h)
  rw [div_fin ha hb hm]
  have := roundsTo_ofFrac (s := a.sign != b.sign) (n := a.units.natAbs * one) (d := b.units.natAbs) (by rw [natAbs_units]; exact dec_pos hm)
  have e : (if (a.sign != b.sign) = true then (-1 : ℚ) else 1) * (((a.units.natAbs * one : Nat) : ℚ) / b.units.natAbs / one) = val a / val b := by
    have h1 : |val b| ≠ 0 := abs_ne_zero.2 h0
    rw [val_eq_sign_abs a, val_eq_sign_abs b]
    push_cast
    rw [natAbs_val, natAbs_val]
    have := one_posQ.ne'
    cases a.sign <;> cases b.sign <;> simp <;> field_simp
  rwa [e] at this

theorem ofNat_to (n : Nat) : RoundsTo (n : ℚ) (Num.ofNat n : F64) := by
  have := roundsTo_ofFrac (s := false) (n := n * one) (d := 1) Nat.one_pos
  have e : (if false = true then (-1 : ℚ) else 1) * (((n * one : Nat) : ℚ) / (1 : Nat) / one) = n := by
    have := one_posQ.ne'
    push_cast
    simp
    field_simp
  rwa [e] at this

/-! ## Comparisons -/

theorem val_le {a b : F64} : val a ≤ val b ↔ a.key ≤ b.key := by
  rw [key_le_iff]
  unfold val
  rw [div_le_div_iff_of_pos_right one_posQ]
  exact Int.cast_le

theorem lt_true {a b : F64} : Num.lt a b = true ↔ a.isNaN = false ∧ b.isNaN = false ∧ a.key < b.key := by
  show (!a.isNaN && !b.isNaN && decide (a.key < b.key)) = true ↔ _
  simp [and_assoc]

theorem le_true {a b : F64} : Num.le a b = true ↔ a.isNaN = false ∧ b.isNaN = false ∧ a.key ≤ b.key := by
  show (!a.isNaN && !b.isNaN && decide (a.key ≤ b.key)) = true ↔ _
  simp [and_assoc]

theorem eq_true' {a b : F64} : Num.eq a b = true ↔ a.isNaN = false ∧ b.isNaN = false ∧ a.key = b.key := by
  show (!a.isNaN && !b.isNaN && decide (a.key = b.key)) = true ↔ _
  simp [and_assoc]

theorem compare_fin {a b : F64} (ha : a.isFin = true) (hb : b.isFin = true) :
    (Num.lt a b = true ↔ val a < val b) ∧ (Num.le a b = true ↔ val a ≤ val b) ∧ (Num.eq a b = true ↔ val a = val b) := by
  rw [lt_true, le_true, eq_true', not_nan_of_fin ha, not_nan_of_fin hb]
  refine ⟨?_, ?_, ?_⟩
  · rw [← not_le (a := val b), val_le]; simp
  · rw [val_le]; simp
  · rw [le_antisymm_iff (a := val a), val_le, val_le]; simp; omega

end

/-! ## The representation -/

theorem val_fields (a : F64) : fields a.sign (a.mag / 2 ^ 52) (a.mag % 2 ^ 52) = if a.isFin then some (val a) else none := by
  unfold fields
  have hlt := mag_lt a
  have hinf : a.isFin = true ↔ ¬ a.mag / 2 ^ 52 = 2047 := by
    rw [isFin_iff]; unfold infMag; omega
  by_cases h : a.mag / 2 ^ 52 = 2047
  · rw [if_pos h, if_neg (fun hf => hinf.1 hf h)]
  · rw [if_neg h, if_pos (hinf.2 h), val_sign, one_zpow]
    congr 2
    unfold dec
    by_cases h0 : a.mag / 2 ^ 52 = 0
    · rw [if_pos h0, if_pos (by omega), Nat.mod_eq_of_lt (by omega), div_eq_mul_inv, div_eq_mul_inv, mul_assoc]
      congr 1
      rw [← zpow_natCast, ← zpow_neg, ← zpow_neg, ← zpow_add₀ (by norm_num)]
      rfl
    · rw [if_neg h0, if_neg (by omega)]
      generalize he : a.mag / 2 ^ 52 = e at *
      generalize a.mag % 2 ^ 52 = f at *
      obtain ⟨k, rfl⟩ := Nat.exists_eq_succ_of_ne_zero h0
      rw [Nat.succ_sub_one]
      push_cast
      rw [show (1 : ℚ) + f / 2 ^ 52 = (2 ^ 52 + f) * 2 ^ (-52 : Int) by norm_num; field_simp, div_eq_mul_inv, mul_assoc, mul_assoc]
      congr 1
      rw [← zpow_natCast (2 : ℚ) k, ← zpow_neg, ← zpow_add₀ (by norm_num), ← zpow_add₀ (by norm_num)]
      congr 1
      omega

theorem val_half [Platform] : val (Num.half : F64) = 1 / 2 := by
  have h := val_fields (⟨0x3FE0000000000000⟩ : F64)
  have e1 : (⟨0x3FE0000000000000⟩ : F64).sign = false := by decide +kernel
  have e2 : (⟨0x3FE0000000000000⟩ : F64).mag / 2 ^ 52 = 1022 := by decide +kernel
  have e3 : (⟨0x3FE0000000000000⟩ : F64).mag % 2 ^ 52 = 0 := by decide +kernel
  have e4 : (⟨0x3FE0000000000000⟩ : F64).isFin = true := by decide +kernel
  rw [e1, e2, e3, e4] at h
  have h := Option.some.inj (h.symm.trans (show fields false 1022 0 = some (1 / 2) by unfold fields; norm_num))
  exact h

/-! ## Infinities and NaNs -/

section
variable [Platform] {a b : F64}

theorem nan_nan : (Platform.nan : F64).isNaN = true := Platform.nan_isNaN

theorem special_nan (h : a.isNaN = true ∨ b.isNaN = true) : Num.lt a b = false ∧ Num.le a b = false ∧ Num.eq a b = false ∧ (a +. b).isNaN = true ∧
    (a -. b).isNaN = true ∧ (a *. b).isNaN = true ∧ (a /. b).isNaN = true := by
  refine ⟨?_, ?_, ?_, ?_, ?_, ?_, ?_⟩
  · show (!a.isNaN && !b.isNaN && decide (a.key < b.key)) = false
    rcases h with h | h <;> simp [h]
  · show (!a.isNaN && !b.isNaN && decide (a.key ≤ b.key)) = false
    rcases h with h | h <;> simp [h]
  · show (!a.isNaN && !b.isNaN && decide (a.key = b.key)) = false
    rcases h with h | h <;> simp [h]
  · show (add a b).isNaN = true
    unfold add; rcases h with h | h <;> simp [h, nan_nan]
  · show (add a (neg b)).isNaN = true
    unfold add; rw [isNaN_neg]; rcases h with h | h <;> simp [h, nan_nan]
  · show (mul a b).isNaN = true
    unfold mul; rcases h with h | h <;> simp [h, nan_nan]
  · show (div a b).isNaN = true
    unfold div; rcases h with h | h <;> simp [h, nan_nan]

theorem inf_not_nan (h : a.mag = infMag) : a.isNaN = false := by unfold isNaN; rw [h]; simp
theorem inf_not_fin (h : a.mag = infMag) : a.isFin = false := by unfold isFin; rw [h]; simp
theorem inf_mag (s : Bool) : (ofMag s infMag).mag = infMag := mag_ofMag infMag_lt
theorem zero_mag (s : Bool) : (ofMag s 0).mag = 0 := mag_ofMag (by norm_num)
theorem zero_fin (h : a.mag = 0) : a.isFin = true := by rw [isFin_iff, h]; decide

theorem special_inf_fin (ha : a.mag = infMag) (hb : b.isFin = true) : a +. b = a ∧ a -. b = a ∧ (b -. a = Num.neg a) ∧ (a /. b).mag = infMag ∧
    (b /. a).mag = 0 := by
  have h1 := inf_not_nan ha
  have h2 := inf_not_fin ha
  have h3 := not_nan_of_fin hb
  refine ⟨?_, ?_, ?_, ?_, ?_⟩
  · show add a b = a
    unfold add; simp [h1, h2, h3, hb]
  · show add a (neg b) = a
    unfold add; simp [h1, h2, h3, hb, isNaN_neg, isFin_neg]
  · show add b (neg a) = neg a
    unfold add; simp [h1, h2, h3, hb, isNaN_neg, isFin_neg]
  · show (div a b).mag = infMag
    unfold div; simp [h1, h2, h3, hb, inf_mag]
  · show (div b a).mag = 0
    unfold div; simp [h1, h2, h3, hb, zero_mag]

theorem special_inf_inf (ha : a.mag = infMag) (hb : b.mag = infMag) : (a /. b).isNaN = true ∧ (a *. b).mag = infMag ∧
    ((a +. b).isNaN = true ↔ a.sign ≠ b.sign) ∧ ((a -. b).isNaN = true ↔ a.sign = b.sign) := by
  have h1 := inf_not_nan ha
  have h2 := inf_not_fin ha
  have h3 := inf_not_nan hb
  have h4 := inf_not_fin hb
  have hz : infMag ≠ 0 := by decide
  refine ⟨?_, ?_, ?_, ?_⟩
  · show (div a b).isNaN = true
    unfold div; simp [h1, h2, h3, h4, nan_nan]
  · show (mul a b).mag = infMag
    unfold mul; simp [h1, h2, h3, h4, ha, hb, hz, inf_mag]
  · show (add a b).isNaN = true ↔ _
    unfold add
    by_cases hs : a.sign = b.sign <;> simp [h1, h2, h3, h4, hs, nan_nan]
  · show (add a (neg b)).isNaN = true ↔ _
    unfold add
    rw [isNaN_neg, isFin_neg, sign_neg]
    cases hs : a.sign <;> cases ht : b.sign <;> simp [h1, h2, h3, h4, nan_nan]

theorem special_zero_zero (ha : a.mag = 0) (hb : b.mag = 0) : (a /. b).isNaN = true := by
  show (div a b).isNaN = true
  unfold div; simp [not_nan_of_fin (zero_fin ha), not_nan_of_fin (zero_fin hb), zero_fin ha, zero_fin hb, ha, hb, nan_nan]

theorem special_div_zero (hf : a.isFin = true) (ha : a.mag ≠ 0) (hb : b.mag = 0) : (a /. b).mag = infMag := by
  show (div a b).mag = infMag
  unfold div; simp [not_nan_of_fin hf, not_nan_of_fin (zero_fin hb), hf, zero_fin hb, ha, hb, inf_mag]

theorem special_inf_zero (ha : a.mag = infMag) (hb : b.mag = 0) : (a *. b).isNaN = true ∧ (b *. a).isNaN = true := by
  constructor
  · show (mul a b).isNaN = true
    unfold mul; simp [inf_not_nan ha, not_nan_of_fin (zero_fin hb), inf_not_fin ha, hb, nan_nan]
  · show (mul b a).isNaN = true
    unfold mul; simp [inf_not_nan ha, not_nan_of_fin (zero_fin hb), inf_not_fin ha, hb, nan_nan]

end

/-! ## Conversion to time -/

theorem toTime_iff [Platform] {a : F64} {t : UInt64} : (Num.toTime a : Option UInt64) = some t ↔ a.isFin = true ∧ Truncates (val a) t := by
  change toTime a = some t ↔ _
  unfold toTime Truncates
  by_cases hf : a.isFin = true
  · rw [if_pos hf, natAbs_units]
    simp only [hf, true_and]
    have hq := val_sign a
    have ho := one_pos
    have hoQ := one_posQ
    have hd := Nat.div_add_mod (dec a.mag) one
    have hm := Nat.mod_lt (dec a.mag) ho
    have hk1 : (((dec a.mag / one : Nat)) : ℚ) ≤ (dec a.mag : ℚ) / one := by
      rw [le_div_iff₀ hoQ]; exact_mod_cast Nat.div_mul_le_self _ _
    have hk2 : (dec a.mag : ℚ) / one < ((dec a.mag / one : Nat) : ℚ) + 1 := by
      rw [div_lt_iff₀ hoQ]
      have : dec a.mag < (dec a.mag / one + 1) * one := by
        rw [Nat.succ_mul, Nat.mul_comm]; omega
      exact_mod_cast this
    clear hd hm
    generalize hx : (dec a.mag : ℚ) / one = x at *
    generalize dec a.mag / one = k at *
    have hx0 : 0 ≤ x := by rw [← hx]; positivity
    have huniq : ∀ n : Nat, (n : ℚ) ≤ x → x < n + 1 → n = k := by
      intro n h1 h2
      have a1 : (n : ℚ) < k + 1 := by linarith
      have a2 : (k : ℚ) < n + 1 := by linarith
      have a1 : n < k + 1 := by exact_mod_cast a1
      have a2 : k < n + 1 := by exact_mod_cast a2
      omega
    cases hs : a.sign
    · rw [hs] at hq
      simp only [Bool.false_eq_true, if_false, one_mul] at hq
      rw [hq]
      simp only [Bool.false_eq_true, false_and, false_or]
      constructor
      · intro h
        split at h
        · exact absurd h (by simp)
        · next hlt =>
          have h := Option.some.inj h
          subst h
          refine ⟨by linarith, fun h => absurd h (not_lt.2 hx0), fun _ => ?_⟩
          rw [UInt64.toNat_ofNat_of_lt' (by simpa using hlt)]
          exact ⟨hk1, hk2⟩
      · rintro ⟨-, -, h⟩
        have := huniq t.toNat (h hx0).1 (h hx0).2
        have hlt := t.toNat_lt
        rw [if_neg (by omega), ← this]
        simp
    · rw [hs] at hq
      simp only [if_true] at hq
      rw [hq]
      simp only [true_and]
      constructor
      · intro h
        split at h
        · exact absurd h (by simp)
        · next hlt =>
          have hk0 : k = 0 := by by_contra hne; exact hlt (Or.inl hne)
          subst hk0
          have h := Option.some.inj h
          subst h
          refine ⟨by simp at hk2; linarith, fun _ => by simp, fun h => ?_⟩
          have : x = 0 := by linarith
          simp [this]
      · rintro ⟨h1, h2, h3⟩
        have hk0 : k = 0 := by
          by_contra hne
          have : (1 : ℚ) ≤ k := by exact_mod_cast Nat.one_le_iff_ne_zero.2 hne
          linarith
        subst hk0
        rw [if_neg (by simp)]
        rcases lt_or_ge (-1 * x) 0 with h | h
        · rw [h2 h]; simp
        · have h3 := h3 h
          have : t.toNat = 0 := by
            have : (t.toNat : ℚ) ≤ 0 := by linarith [h3.1]
            have : t.toNat ≤ 0 := by exact_mod_cast this
            omega
          congr 1
          rw [← UInt64.toNat_inj, this]
          rfl
  · simp [hf]

end F64
end Rtbot
