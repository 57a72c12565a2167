import Verif.Model.Double
import Mathlib.Tactic.Linarith
import Mathlib.Tactic.Ring
import Mathlib.Tactic.Push
import Mathlib.Order.Monotone.Basic
import Mathlib.Data.Nat.Log

/-! # Rounding -/

namespace Rtbot
namespace F64

/-! ## Rounding to integers -/

theorem rhe_ge (n d : Nat) : n / d ≤ rhe n d := by unfold rhe; split <;> omega
theorem rhe_le (n d : Nat) : rhe n d ≤ n / d + 1 := by unfold rhe; split <;> omega

/-- Half a unit off at most. -/
theorem rhe_near {n d : Nat} (hd : 0 < d) : 2 * (rhe n d * d) ≤ 2 * n + d ∧ 2 * n ≤ 2 * (rhe n d * d) + d := by
  have h1 := Nat.div_add_mod n d
  have h2 := Nat.mod_lt n hd
  rw [Nat.mul_comm] at h1
  unfold rhe
  generalize n / d = q at *
  generalize n % d = r at *
  have e : (q + 1) * d = q * d + d := by ring
  split
  · omega
  · omega

/-- Ties go to even numbers. -/
theorem rhe_even {n d : Nat} (hd : 0 < d) (h : 2 * (rhe n d * d) = 2 * n + d ∨ 2 * n = 2 * (rhe n d * d) + d) : rhe n d % 2 = 0 := by
  have h1 := Nat.div_add_mod n d
  have h2 := Nat.mod_lt n hd
  rw [Nat.mul_comm] at h1
  unfold rhe at *
  generalize n / d = q at *
  generalize n % d = r at *
  have e : (q + 1) * d = q * d + d := by ring
  split at h <;> split <;> omega

theorem rhe_mul (k d : Nat) (hd : 0 < d) : rhe (k * d) d = k := by
  unfold rhe
  rw [Nat.mul_mod_left, Nat.mul_div_cancel _ hd]
  simp [hd]

theorem rhe_mono {n d n' d' : Nat} (hd : 0 < d) (hd' : 0 < d') (h : n * d' ≤ n' * d) : rhe n d ≤ rhe n' d' := by
  have h1 := Nat.div_add_mod n d
  have h2 := Nat.mod_lt n hd
  have h1' := Nat.div_add_mod n' d'
  have h2' := Nat.mod_lt n' hd'
  have hq : n / d ≤ n' / d' := by
    rw [Nat.le_div_iff_mul_le hd']
    have : n / d * d' * d ≤ n' * d := by
      calc n / d * d' * d = n / d * d * d' := by ring
        _ ≤ n * d' := Nat.mul_le_mul_right _ (Nat.div_mul_le_self _ _)
        _ ≤ n' * d := h
    exact Nat.le_of_mul_le_mul_right this hd
  rcases Nat.lt_or_eq_of_le hq with hlt | heq
  · exact le_trans (rhe_le _ _) (le_trans hlt (rhe_ge _ _))
  · have hr : n % d * d' ≤ n' % d' * d := by
      have e1 : n * d' = d * (n' / d') * d' + n % d * d' := by rw [← heq, ← Nat.add_mul, h1]
      have e2 : n' * d = d * (n' / d') * d' + n' % d' * d := by
        conv_lhs => rw [← h1']
        ring
      omega
    unfold rhe
    rw [heq]
    generalize n % d = r at *
    generalize n' % d' = r' at *
    split
    · split <;> omega
    · next hc =>
      rw [if_neg]
      intro hc'
      apply hc
      rcases hc' with hc' | ⟨hc', he⟩
      · left
        have : 2 * r * d' < d * d' := by nlinarith
        exact Nat.lt_of_mul_lt_mul_right this
      · rcases Nat.lt_or_ge (2 * r) d with hx | hx
        · exact Or.inl hx
        · right
          refine ⟨?_, he⟩
          have : 2 * r * d' ≤ d * d' := by nlinarith
          exact Nat.le_antisymm (Nat.le_of_mul_le_mul_right this hd') hx

/-! ## Decoding -/

theorem dec_lt_succ (b : Nat) : dec b < dec (b + 1) := by
  unfold dec
  rcases Nat.lt_or_ge b (2 ^ 52) with h | h
  · rw [if_pos h]
    split
    · omega
    · have : b + 1 = 2 ^ 52 := by omega
      rw [this]
      norm_num
      omega
  · rw [if_neg (by omega), if_neg (by omega)]
    have hdiv : b / 2 ^ 52 ≥ 1 := by omega
    rcases Nat.lt_or_ge (b % 2 ^ 52 + 1) (2 ^ 52) with h1 | h1
    · have e1 : (b + 1) / 2 ^ 52 = b / 2 ^ 52 := by omega
      have e2 : (b + 1) % 2 ^ 52 = b % 2 ^ 52 + 1 := by omega
      rw [e1, e2]
      exact Nat.mul_lt_mul_of_pos_right (by omega) (Nat.two_pow_pos _)
    · have e1 : (b + 1) / 2 ^ 52 - 1 = (b / 2 ^ 52 - 1) + 1 := by omega
      have e2 : (b + 1) % 2 ^ 52 = 0 := by omega
      rw [e1, e2]
      generalize b / 2 ^ 52 - 1 = x
      rw [Nat.pow_succ 2 x, Nat.mul_comm (2 ^ x) 2, ← Nat.mul_assoc]
      exact Nat.mul_lt_mul_of_pos_right (by omega) (Nat.two_pow_pos _)

theorem dec_strictMono : StrictMono dec := strictMono_nat_of_lt_succ dec_lt_succ

theorem dec_zero : dec 0 = 0 := rfl

/-- Numbers with at most 53 significant bits below the overflow limit are representable. -/
theorem dec_surj {n m e : Nat} (hn : n = m * 2 ^ e) (hm : m ≤ 2 ^ 53) (hlim : n < 2 ^ 2098) : ∃ b, b < infMag ∧ dec b = n := by
  rcases Nat.lt_or_ge n (2 ^ 52) with h | h
  · exact ⟨n, by unfold infMag; omega, by unfold dec; rw [if_pos h]⟩
  · have hn0 : n ≠ 0 := by intro h0; rw [h0] at h; norm_num at h
    have hL := Nat.log2_self_le hn0
    have hL' := @Nat.lt_log2_self n
    have h52 : 52 ≤ n.log2 := (Nat.le_log2 hn0).2 h
    have hL2 : n.log2 < 2098 := (Nat.log2_lt hn0).2 hlim
    clear hlim
    obtain ⟨x, hx⟩ := Nat.exists_eq_add_of_le h52
    have hdvd : 2 ^ x ∣ n := by
      rcases Nat.lt_or_ge e x with hex | hex
      · have h53 : m = 2 ^ 53 := by
          by_contra hne
          have hm' : m < 2 ^ 53 := by omega
          have : n < 2 ^ (53 + e) := by
            rw [hn, Nat.pow_add]
            exact Nat.mul_lt_mul_of_pos_right hm' (Nat.two_pow_pos _)
          have h2 : n < 2 ^ n.log2 := lt_of_lt_of_le this (Nat.pow_le_pow_right (by norm_num) (by omega))
          omega
        rw [hn, h53, ← Nat.pow_add]
        have : n = 2 ^ (53 + e) := by rw [hn, h53, ← Nat.pow_add]
        have hx' : x ≤ 53 + e := by
          by_contra hc
          have h2 : n < 2 ^ n.log2 := by
            conv_lhs => rw [this]
            exact Nat.pow_lt_pow_right (by norm_num) (by omega)
          omega
        exact Nat.pow_dvd_pow _ hx'
      · exact Dvd.dvd.trans (Nat.pow_dvd_pow _ hex) (by rw [hn]; exact Nat.dvd_mul_left _ _)
    obtain ⟨k, hk⟩ := hdvd
    have hpow : 0 < 2 ^ x := Nat.two_pow_pos _
    have hk1 : 2 ^ 52 ≤ k := by
      rw [hx, Nat.pow_add, hk, Nat.mul_comm] at hL
      exact Nat.le_of_mul_le_mul_left hL hpow
    have hk2 : k < 2 ^ 53 := by
      rw [hx, show 52 + x + 1 = x + 53 by omega, Nat.pow_add] at hL'
      rw [hk] at hL'
      exact Nat.lt_of_mul_lt_mul_left hL'
    refine ⟨(x + 1) * 2 ^ 52 + (k - 2 ^ 52), by unfold infMag; omega, ?_⟩
    unfold dec
    rw [if_neg (by omega)]
    have e1 : ((x + 1) * 2 ^ 52 + (k - 2 ^ 52)) % 2 ^ 52 = k - 2 ^ 52 := by omega
    have e2 : ((x + 1) * 2 ^ 52 + (k - 2 ^ 52)) / 2 ^ 52 = x + 1 := by omega
    rw [e1, e2, hk, Nat.add_sub_cancel, Nat.add_sub_cancel' hk1, Nat.mul_comm]

/-! ## Rounding to doubles -/

theorem log2_mono {a b : Nat} (h : a ≤ b) : a.log2 ≤ b.log2 := by
  by_cases ha : a = 0
  · rw [ha]; simp
  · exact (Nat.le_log2 (by omega)).2 (le_trans (Nat.log2_self_le ha) h)

/-- With the position of the lowest bit above 0, the rounded significand has 53 bits, or is 2^53. -/
theorem rhe_range {n d x : Nat} (hx : x = (n / d).log2 - 52) : rhe n (d * 2 ^ x) ≤ 2 ^ 53 ∧ (0 < x → 2 ^ 52 ≤ rhe n (d * 2 ^ x)) := by
  have hdiv : n / (d * 2 ^ x) = n / d / 2 ^ x := by rw [Nat.div_div_eq_div_mul]
  constructor
  · refine le_trans (rhe_le _ _) ?_
    rw [hdiv]
    have : n / d / 2 ^ x < 2 ^ 53 := by
      rw [Nat.div_lt_iff_lt_mul (Nat.two_pow_pos _), ← Nat.pow_add]
      exact lt_of_lt_of_le Nat.lt_log2_self (Nat.pow_le_pow_right (by norm_num) (by omega))
    omega
  · intro hx0
    refine le_trans ?_ (rhe_ge _ _)
    have hne : n / d ≠ 0 := by
      intro h0
      rw [h0] at hx
      simp at hx
      omega
    rw [hdiv, Nat.le_div_iff_mul_le (Nat.two_pow_pos _), ← Nat.pow_add]
    have := Nat.log2_self_le hne
    rwa [show 52 + x = (n / d).log2 by omega]

theorem rnd_mono {n d n' d' : Nat} (hd : 0 < d) (hd' : 0 < d') (h : n * d' ≤ n' * d) : rnd n d ≤ rnd n' d' := by
  unfold rnd
  dsimp only
  refine min_le_min_right _ ?_
  have hq : n / d ≤ n' / d' := by
    rw [Nat.le_div_iff_mul_le hd']
    have : n / d * d' * d ≤ n' * d := by
      calc n / d * d' * d = n / d * d * d' := by ring
        _ ≤ n * d' := Nat.mul_le_mul_right _ (Nat.div_mul_le_self _ _)
        _ ≤ n' * d := h
    exact Nat.le_of_mul_le_mul_right this hd
  have hl := log2_mono hq
  generalize hx : (n / d).log2 - 52 = x
  generalize hx' : (n' / d').log2 - 52 = x'
  have h1 := rhe_range hx.symm
  have h2 := rhe_range hx'.symm
  rcases Nat.lt_or_ge x x' with hlt | hge
  · have := h2.2 (by omega)
    have : x * 2 ^ 52 + 2 ^ 52 ≤ x' * 2 ^ 52 := by rw [← Nat.succ_mul]; exact Nat.mul_le_mul_right _ hlt
    omega
  · have hxx : x = x' := by omega
    rw [hxx]
    have : rhe n (d * 2 ^ x') ≤ rhe n' (d' * 2 ^ x') := by
      refine rhe_mono (Nat.mul_pos hd (Nat.two_pow_pos _)) (Nat.mul_pos hd' (Nat.two_pow_pos _)) ?_
      calc n * (d' * 2 ^ x') = n * d' * 2 ^ x' := by ring
        _ ≤ n' * d * 2 ^ x' := Nat.mul_le_mul_right _ h
        _ = n' * (d * 2 ^ x') := by ring
    omega

theorem rnd_le (n d : Nat) : rnd n d ≤ infMag := by unfold rnd; exact Nat.min_le_right _ _

/-- Doubles are not changed by rounding. -/
theorem rnd_dec {b d : Nat} (hb : b < infMag) (hd : 0 < d) : rnd (dec b * d) d = b := by
  unfold rnd
  dsimp only
  rw [Nat.mul_div_cancel _ hd]
  unfold dec
  split
  · next h =>
    have : b.log2 - 52 = 0 := by
      by_cases h0 : b = 0
      · rw [h0]; simp
      · have := (Nat.log2_lt h0).2 h
        omega
    rw [this, Nat.zero_mul, Nat.zero_add, Nat.pow_zero, Nat.mul_one, rhe_mul _ _ hd]
    omega
  · next h =>
    obtain ⟨e, he⟩ : ∃ e, b / 2 ^ 52 = e + 1 := ⟨b / 2 ^ 52 - 1, by omega⟩
    rw [he, Nat.add_sub_cancel]
    have hlog : ((2 ^ 52 + b % 2 ^ 52) * 2 ^ e).log2 = 52 + e := by
      rw [Nat.log2_eq_iff (by positivity)]
      constructor
      · rw [Nat.pow_add]; exact Nat.mul_le_mul_right _ (by omega)
      · rw [show 52 + e + 1 = 53 + e by omega, Nat.pow_add 2 53 e]; exact Nat.mul_lt_mul_of_pos_right (by omega) (Nat.two_pow_pos _)
    rw [hlog, Nat.add_sub_cancel_left, Nat.mul_assoc, Nat.mul_comm (2 ^ e) d, rhe_mul _ _ (Nat.mul_pos hd (Nat.two_pow_pos _))]
    omega

theorem rnd_fits {n m e d : Nat} (hd : 0 < d) (hn : n = m * 2 ^ e) (hm : m ≤ 2 ^ 53) (hlim : n < 2 ^ 2098) :
    dec (rnd (n * d) d) = n ∧ rnd (n * d) d < infMag := by
  obtain ⟨b, hb, rfl⟩ := dec_surj hn hm hlim
  rw [rnd_dec hb hd]
  exact ⟨rfl, hb⟩

/-- Between the images of two doubles. -/
theorem rnd_between {n d lo hi : Nat} (hd : 0 < d) (hhi : hi < infMag) (h1 : dec lo * d ≤ n) (h2 : n ≤ dec hi * d) : lo ≤ rnd n d ∧ rnd n d ≤ hi := by
  have hlo : lo ≤ hi := by
    by_contra hc
    have := dec_strictMono (Nat.lt_of_not_le hc)
    have := Nat.mul_lt_mul_of_pos_right this hd
    omega
  constructor
  · calc lo = rnd (dec lo * d) d := (rnd_dec (by omega) hd).symm
      _ ≤ rnd n d := rnd_mono hd hd (Nat.mul_le_mul_right _ h1)
  · calc rnd n d ≤ rnd (dec hi * d) d := rnd_mono hd hd (Nat.mul_le_mul_right _ h2)
      _ = hi := rnd_dec hhi hd

theorem rnd_ge {n d lo : Nat} (hd : 0 < d) (hlo : lo < infMag) (h1 : dec lo * d ≤ n) : lo ≤ rnd n d := by
  calc lo = rnd (dec lo * d) d := (rnd_dec hlo hd).symm
    _ ≤ rnd n d := rnd_mono hd hd (Nat.mul_le_mul_right _ h1)

theorem rnd_zero (d : Nat) (hd : 0 < d) : rnd 0 d = 0 := by
  have := rnd_dec (b := 0) (d := d) (by unfold infMag; omega) hd
  rwa [dec_zero, Nat.zero_mul] at this

end F64
end Rtbot
