import Verif.Lemmas.DoubleArith
import Verif.Lemmas.Recursive

/-! # Relative strength index with doubles -/

namespace Rtbot
open Spec

/-! ## The averages in any arithmetic -/
section
variable {V : Type} [Num V]

/-- Gain and loss of one difference. -/
def rsiParts (d : V) : V × V :=
  if Num.lt (Num.ofNat 0) d then (d, Num.ofNat 0) else if Num.lt d (Num.ofNat 0) then (Num.ofNat 0, Num.neg d) else (Num.ofNat 0, Num.ofNat 0)

/-- The averages after one more message; argument 3 are the messages before, newest first. -/
def rsiNext (n : Nat) (m : Msg V) : List (Msg V) → Option (V × V) → Option (V × V)
  | a :: _, some p =>
    some ((p.1 *. Num.ofNat (n - 1) +. (rsiParts (m.value -. a.value)).1) /. Num.ofNat n,
      (p.2 *. Num.ofNat (n - 1) +. (rsiParts (m.value -. a.value)).2) /. Num.ofNat n)
  | [], some _ => none
  | [], none => none
  | _ :: _, none => none

/-- The averages after a history, newest message first. -/
def rsiState (n : Nat) : List (Msg V) → Option (V × V)
  | [] => none
  | m :: h =>
    if h.length < n then none
    else if h.length = n then
      let s := rsiSums (Num.ofNat 0, Num.ofNat 0) (m :: h).reverse
      some (s.1 /. Num.ofNat n, s.2 /. Num.ofNat n)
    else rsiNext n m h (rsiState n h)

theorem rsiState_none {n : Nat} {h : List (Msg V)} (hl : h.length ≤ n) : rsiState n h = none := by
  cases h with
  | nil => rfl
  | cons m h => rw [rsiState, if_pos (by simpa using hl)]

theorem rsiState_some {n : Nat} (h : List (Msg V)) (hl : n < h.length) : ∃ g l, rsiState n h = some (g, l) := by
  induction h with
  | nil => simp at hl
  | cons m h ih =>
    rw [rsiState, if_neg (by simp at hl; omega)]
    by_cases he : h.length = n
    · rw [if_pos he]; exact ⟨_, _, rfl⟩
    · rw [if_neg he]
      obtain ⟨g, l, e⟩ := ih (by simp at hl; omega)
      rw [e]
      cases h with
      | nil => simp only [List.length_cons, List.length_nil] at hl he; omega
      | cons a h => exact ⟨_, _, rfl⟩

/-- The answer of RelativeStrengthIndex. -/
def rsiAnswer (n : Nat) (h : List (Msg V)) (m : Msg V) : OpMsg V :=
  match rsiState n (m :: h.reverse) with
  | none => []
  | some (g, l) => [(o1, [⟨m.time, rsiValue g l⟩])]

theorem rsi_process_num {c : Core V} {n : Nat} (hn : 1 ≤ n) (hlen : n + 1 < 2 ^ 64) (h : List (Msg V)) (m : Msg V) (s : V)
    (hl : n + 1 ≤ h.length + 1) :
    Op.process ⟨runCore c (n + 1) s (lastN n h ++ [m]), .rsi (rsiState n h.reverse)⟩ =
      .ok (rsiAnswer n h m, .rsi (rsiState n (h ++ [m]).reverse)) := by
  have hwl : (lastN n h ++ [m]).length = n + 1 := by rw [List.length_append, length_lastN]; simp; omega
  have s1 : subSize (lastN n h ++ [m]).length 1 = n := by rw [hwl, subSize_eq (by omega) hlen]; rfl
  have s2 : subSize (lastN n h ++ [m]).length 2 = n - 1 := by rw [hwl, subSize_eq (by omega) hlen]; omega
  rw [List.reverse_append, List.reverse_singleton, List.singleton_append]
  unfold rsiAnswer
  by_cases he : h.length = n
  · have hw : lastN n h = h := lastN_of_le (by omega)
    have hst : rsiState n (m :: h.reverse) =
        some ((rsiSums (Num.ofNat 0, Num.ofNat 0) (h ++ [m])).1 /. Num.ofNat n, (rsiSums (Num.ofNat 0, Num.ofNat 0) (h ++ [m])).2 /. Num.ofNat n) := by
      rw [rsiState, if_neg (by simp; omega), if_pos (by simpa using he)]
      simp
    rw [rsiState_none (h := h.reverse) (by simp; omega), hst]
    simp only [Op.process, procRsi, solePort_run, dataPort_run, bind_ok, dataLast_run, s1]
    rw [hw]
    rfl
  · obtain ⟨g, l, e⟩ := rsiState_some (n := n) h.reverse (by simp; omega)
    rcases List.eq_nil_or_concat h with rfl | ⟨t, a, rfl⟩
    · simp at hl; omega
    rw [List.concat_eq_append] at *
    have hst : rsiState n (m :: (t ++ [a]).reverse) =
        some ((g *. Num.ofNat (n - 1) +. (rsiParts (m.value -. a.value)).1) /. Num.ofNat n,
          (l *. Num.ofNat (n - 1) +. (rsiParts (m.value -. a.value)).2) /. Num.ofNat n) := by
      rw [rsiState, if_neg (by simp at *; omega), if_neg (by simpa using he), e]
      simp [rsiNext]
    rw [e, hst]
    have hwl' : (lastN n (t ++ [a])).length = n := by rw [length_lastN]; omega
    have hb : (lastN n (t ++ [a]) ++ [m])[n]? = some m := by
      rw [List.getElem?_append_right (by omega)]; simp [hwl']
    have ha : (lastN n (t ++ [a]) ++ [m])[n - 1]? = some a := by
      rw [List.getElem?_append_left (by omega)]
      have := getLast?_lastN (h := t ++ [a]) (n := n) (by omega)
      rw [List.getLast?_eq_getElem?, hwl'] at this
      rw [this]; simp
    simp only [Op.process, procRsi, solePort_run, dataPort_run, bind_ok, dataLast_run, s1, s2]
    rw [dataMsg_run _ _ _ _ _ m hb, bind_ok, dataMsg_run _ _ _ _ _ a ha]
    rfl

/-- RelativeStrengthIndex in any arithmetic. -/
theorem rsi_computes_num (id : Str) {n : Nat} (hn : 1 ≤ n) (hlen : n + 1 < 2 ^ 64) : Computes (Op.newRsi id n : Op V) i1 (rsiAnswer n) := by
  unfold Op.newRsi
  rw [Nat.mod_eq_of_lt hlen, simple_eq_winCore id (by omega)]
  apply computes_window' (K := fun h => .rsi (rsiState n h.reverse)) (by omega)
  · intro h; rfl
  · intro h m hl
    refine ⟨?_, ?_⟩
    · unfold rsiAnswer; rw [rsiState_none (by simp; omega)]
    · rw [rsiState_none (by simp; omega), rsiState_none (by simp; omega)]
  · intro h m s hl
    rw [runCore_eq, lastN_snoc (by omega), Nat.add_sub_cancel, rsi_process_num hn hlen h m s hl]

end

namespace F64
attribute [local irreducible] one
variable [Platform]

/-! ## Numbers that are not negative -/

/-- NaN, or not negative. -/
def NN (a : F64) : Prop := a.isNaN = true ∨ 0 ≤ a.key

omit [Platform] in
theorem key_ofMag {s : Bool} {b : Nat} (h : b < 2 ^ 63) : (ofMag s b).key = if s then -(b : Int) else b := by
  unfold key; rw [sign_ofMag h, mag_ofMag h]

omit [Platform] in
theorem nn_pos {b : Nat} (h : b < 2 ^ 63) : NN (ofMag false b) := Or.inr (by rw [key_ofMag h]; simp)

theorem nn_nan : NN Platform.nan := Or.inl Platform.nan_isNaN

omit [Platform] in
theorem key_ofUnits_nonneg {z : Int} {s : Bool} (hz : 0 ≤ z) : 0 ≤ (ofUnits z s).key := by
  unfold ofUnits
  split
  · rw [key_ofMag (by norm_num)]; cases s <;> simp
  · rw [decide_eq_false (by omega)]
    unfold ofFrac
    rw [key_ofMag (rnd_lt _ _)]; simp

omit [Platform] in
theorem units_nonneg {a : F64} : 0 ≤ a.units ↔ 0 ≤ a.key := by
  unfold units key
  have := dec_strictMono.le_iff_le (a := a.mag) (b := 0)
  rw [dec_zero] at this
  split <;> omega

theorem nn_add {a b : F64} (ha : NN a) (hb : NN b) : NN (add a b) := by
  unfold add
  split
  · exact nn_nan
  · next h =>
    simp only [Bool.or_eq_true, not_or] at h
    have ha := ha.resolve_left h.1
    have hb := hb.resolve_left h.2
    split
    · split
      · exact nn_nan
      · exact Or.inr ha
    · split
      · exact Or.inr hb
      · exact Or.inr (key_ofUnits_nonneg (add_nonneg (units_nonneg.2 ha) (units_nonneg.2 hb)))

omit [Platform] in
/-- A sign bit of a number that is not negative belongs to zero. -/
theorem mag_zero_of_sign {a : F64} (h : 0 ≤ a.key) (hs : a.sign = true) : a.mag = 0 := by
  unfold key at h
  rw [if_pos hs] at h
  omega

theorem nn_mul {a b : F64} (ha : NN a) (hb : NN b) : NN (mul a b) := by
  unfold mul
  dsimp only
  split
  · exact nn_nan
  · next h =>
    simp only [Bool.or_eq_true, not_or] at h
    have ha := ha.resolve_left h.1
    have hb := hb.resolve_left h.2
    split
    · split
      · exact nn_nan
      · next hz =>
        simp only [Bool.or_eq_true, decide_eq_true_eq, not_or] at hz
        have h1 : a.sign = false := by
          cases hs : a.sign with
          | false => rfl
          | true => exact (hz.1 (mag_zero_of_sign ha hs)).elim
        have h2 : b.sign = false := by
          cases hs : b.sign with
          | false => rfl
          | true => exact (hz.2 (mag_zero_of_sign hb hs)).elim
        rw [h1, h2]
        exact nn_pos infMag_lt
    · right
      unfold ofFrac
      rw [key_ofMag (rnd_lt _ _)]
      by_cases hs : (a.sign != b.sign) = true
      · have h0 : a.units.natAbs * b.units.natAbs = 0 := by
          rw [natAbs_units, natAbs_units]
          cases h1 : a.sign with
          | true => rw [mag_zero_of_sign ha h1, dec_zero, Nat.zero_mul]
          | false =>
            have h2 : b.sign = true := by cases hb2 : b.sign <;> simp_all
            rw [mag_zero_of_sign hb h2, dec_zero, Nat.mul_zero]
        rw [h0, rnd_zero _ one_pos]
        split <;> simp
      · rw [if_neg hs]; simp

theorem nn_div {a b : F64} (ha : NN a) (hb : b.sign = false) : NN (div a b) := by
  unfold div
  dsimp only
  rw [hb]
  split
  · exact nn_nan
  · next h =>
    simp only [Bool.or_eq_true, not_or] at h
    have ha := ha.resolve_left h.1
    have hs : a.sign = false ∨ a.mag = 0 := by
      cases hs : a.sign with
      | false => exact Or.inl rfl
      | true => exact Or.inr (mag_zero_of_sign ha hs)
    split
    · next hf =>
      split
      · exact nn_nan
      · rcases hs with hs | hs
        · rw [hs]; exact nn_pos infMag_lt
        · unfold isFin at hf; rw [hs] at hf; exact absurd hf (by decide)
    · split
      · right; rw [key_ofMag (by norm_num)]; split <;> simp
      · split
        · split
          · exact nn_nan
          · next hz =>
            rw [hs.resolve_right hz]; exact nn_pos infMag_lt
        · next hb0 =>
          right
          unfold ofFrac
          rw [key_ofMag (rnd_lt _ _)]
          rcases hs with hs | hs
          · rw [hs]; simp
          · rw [natAbs_units, hs, dec_zero, Nat.zero_mul, rnd_zero _ (by rw [natAbs_units]; exact dec_pos hb0)]
            split <;> simp

theorem sign_ofNat (n : Nat) : (Num.ofNat n : F64).sign = false := sign_ofFrac _ _ _

theorem nn_ofNat (n : Nat) : NN (Num.ofNat n : F64) := nn_pos (rnd_lt _ _)

/-- Comparison with zero. -/
theorem lt_zero_iff {a : F64} : Num.lt (Num.ofNat 0 : F64) a = true ↔ a.isNaN = false ∧ 0 < a.key := by
  have h0 : (Num.ofNat 0 : F64).isNaN = false := not_nan_of_fin (ofNat_int (by norm_num)).1
  have hk : (Num.ofNat 0 : F64).key = 0 := by
    show (ofFrac false (0 * one) 1).key = 0
    unfold ofFrac
    rw [key_ofMag (rnd_lt _ _), Nat.zero_mul, rnd_zero _ (by norm_num)]; rfl
  show (!(Num.ofNat 0 : F64).isNaN && !a.isNaN && decide ((Num.ofNat 0 : F64).key < a.key)) = true ↔ _
  rw [h0, hk]
  simp

theorem nn_parts (d : F64) : NN (rsiParts d).1 := by
  unfold rsiParts
  split
  · next h => exact Or.inr (lt_zero_iff.1 h).2.le
  · split <;> exact nn_ofNat 0

theorem nn_sums (ms : List (Msg F64)) : ∀ s : F64 × F64, NN s.1 → NN (rsiSums s ms).1 := by
  induction ms with
  | nil => intro s hs; exact hs
  | cons a ms ih =>
    cases ms with
    | nil => intro s hs; exact hs
    | cons b ms =>
      intro s hs
      rw [rsiSums]
      apply ih
      split
      · next h => exact nn_add hs (Or.inr (lt_zero_iff.1 h).2.le)
      · split <;> exact hs

theorem nn_state {n : Nat} : ∀ {h : List (Msg F64)} {g l : F64}, rsiState n h = some (g, l) → NN g := by
  intro h
  induction h with
  | nil => intro g l e; cases e
  | cons m h ih =>
    intro g l e
    rw [rsiState] at e
    split at e
    · cases e
    · split at e
      · cases e
        exact nn_div (nn_sums _ _ (nn_ofNat 0)) (sign_ofNat _)
      · cases h with
        | nil => cases hr : rsiState n ([] : List (Msg F64)) <;> rw [hr] at e <;> cases e
        | cons a h =>
          cases hr : rsiState n (a :: h) with
          | none => rw [hr] at e; cases e
          | some p =>
            rw [hr] at e
            cases e
            exact nn_div (nn_add (nn_mul (ih (l := p.2) hr) (nn_ofNat _)) (nn_parts _)) (sign_ofNat _)

/-! ## The index -/

omit [Platform] in
theorem not_nan_ofMag {s : Bool} {b : Nat} (h : b ≤ infMag) : (ofMag s b).isNaN = false := by
  unfold isNaN; rw [mag_ofMag (lt_of_le_of_lt h infMag_lt), decide_eq_false_iff_not]; omega

/-- NaN, or a number from 0 to 100. -/
def Pct (a : F64) : Prop := a.isNaN = true ∨ a.isFin = true ∧ 0 ≤ val a ∧ val a ≤ 100

theorem h100 : IsInt (Num.ofNat 100 : F64) 100 := ofNat_int (by norm_num)
theorem h1 : IsInt (Num.ofNat 1 : F64) 1 := ofNat_int (by norm_num)

theorem pct_100 : Pct (Num.ofNat 100 : F64) := Or.inr ⟨h100.1, by rw [h100.2]; norm_num, by rw [h100.2]; norm_num⟩

omit [Platform] in
theorem val_le_iff {a b : F64} : val a ≤ val b ↔ a.units ≤ b.units := by
  unfold val
  rw [div_le_div_iff_of_pos_right one_posQ]
  exact Int.cast_le

omit [Platform] in
/-- Rounding preserves bounds that are doubles. -/
theorem rounds_ge {q : ℚ} {a b : F64} (h : Rounds q a) (hb : b.isFin = true) (hq : val b ≤ q) : val b ≤ val a := by
  by_contra hc
  rw [not_le] at hc
  have h1 : |val a - q| = q - val a := by rw [abs_of_nonpos (by linarith)]; ring
  have h2 : |val b - q| = q - val b := by rw [abs_of_nonpos (by linarith)]; ring
  rcases h.2 b hb with h' | h' | h'
  · linarith
  · rw [h1, h2] at h'; linarith
  · rw [h1, h2] at h'; linarith [h'.1]

omit [Platform] in
theorem rounds_le {q : ℚ} {a b : F64} (h : Rounds q a) (hb : b.isFin = true) (hq : q ≤ val b) : val a ≤ val b := by
  by_contra hc
  rw [not_le] at hc
  have h1 : |val a - q| = val a - q := abs_of_nonneg (by linarith)
  have h2 : |val b - q| = val b - q := abs_of_nonneg (by linarith)
  rcases h.2 b hb with h' | h' | h'
  · linarith
  · rw [h1, h2] at h'; linarith
  · rw [h1, h2] at h'; linarith [h'.1]

omit [Platform] in
theorem val_nonneg_iff {a : F64} : 0 ≤ val a ↔ 0 ≤ a.key := by
  rw [← units_nonneg]
  unfold val
  rw [le_div_iff₀ one_posQ, zero_mul]
  exact Int.cast_nonneg_iff

omit [Platform] in
theorem ofUnits_not_nan (z : Int) (s : Bool) : (ofUnits z s).isNaN = false := by
  unfold ofUnits
  split
  · exact not_nan_ofMag (Nat.zero_le _)
  · exact not_nan_ofMag (rnd_le _ _)

omit [Platform] in
/-- A rounded sum between finite numbers is finite. -/
theorem ofUnits_fin {z : Int} {s : Bool} {hi : F64} (hf : hi.isFin = true) (h : z.natAbs ≤ dec hi.mag) : (ofUnits z s).isFin = true := by
  unfold ofUnits
  split
  · exact isFin_ofMag_zero s
  · rw [isFin_iff]
    unfold ofFrac
    rw [mag_ofMag (rnd_lt _ _)]
    have := (rnd_between (n := z.natAbs) (lo := 0) (d := 1) (by norm_num) (isFin_iff.1 hf) (by simp [dec_zero]) (by rw [Nat.mul_one]; exact h)).2
    have := isFin_iff.1 hf
    omega

/-- 1 plus a number that is not negative is at least 1. -/
theorem one_add {r : F64} (hr : NN r) : (add (Num.ofNat 1) r).isNaN = true ∨ ((add (Num.ofNat 1) r).isFin = true ∧ 1 ≤ val (add (Num.ofNat 1) r)) ∨
    add (Num.ofNat 1) r = ofMag false infMag := by
  by_cases hn : r.isNaN = true
  · left; unfold add; simp [hn, Platform.nan_isNaN]
  · have hk := hr.resolve_left hn
    by_cases hf : r.isFin = true
    · have := add_fin h1.1 hf
      by_cases hs : (add (Num.ofNat 1) r).isFin = true
      · right; left
        refine ⟨hs, ?_⟩
        have := rounds_ge (add_rounds h1.1 hf hs) h1.1 (by have := val_nonneg_iff.2 hk; linarith)
        rwa [h1.2, Int.cast_one] at this
      · right; right
        rw [this] at hs ⊢
        have hu : 0 < (Num.ofNat 1 : F64).units + r.units := by
          have := units_nonneg.2 hk
          rw [int_units h1]
          have := one_pos
          omega
        unfold ofUnits at hs ⊢
        rw [if_neg (by omega)] at hs ⊢
        rw [decide_eq_false (by omega)] at hs ⊢
        unfold ofFrac at hs ⊢
        rw [isFin_iff, mag_ofMag (rnd_lt _ _)] at hs
        have := rnd_le (((Num.ofNat 1 : F64).units + r.units).natAbs) 1
        rw [show rnd (((Num.ofNat 1 : F64).units + r.units).natAbs) 1 = infMag by omega]
    · right; right
      have hm : r.mag = infMag := by
        have h1 : ¬ infMag < r.mag := fun h => hn (isNaN_iff.2 h)
        have h2 : ¬ r.mag < infMag := fun h => hf (isFin_iff.2 h)
        omega
      have hs : r.sign = false := by
        cases hs : r.sign with
        | false => rfl
        | true =>
          have := mag_zero_of_sign hk hs
          rw [hm] at this
          exact absurd this (by decide)
      have : add (Num.ofNat 1) r = r := by
        unfold add
        simp [not_nan_of_fin h1.1, hn, h1.1, hf]
      rw [this, ← ofMag_eta r, hs, hm]

omit [Platform] in
theorem not_nan_ofFrac (s : Bool) (n d : Nat) : (ofFrac s n d).isNaN = false := not_nan_ofMag (rnd_le _ _)

/-- 100 divided by such a number is at most 100. -/
theorem hundred_div {r : F64} (h : r.isNaN = true ∨ (r.isFin = true ∧ 1 ≤ val r) ∨ r = ofMag false infMag) : Pct (div (Num.ofNat 100) r) := by
  rcases h with h | ⟨hf, h⟩ | h
  · left; unfold div; simp [h, Platform.nan_isNaN]
  · right
    have h0 : val r ≠ 0 := by linarith
    have hm : r.mag ≠ 0 := fun hh => h0 (val_eq_zero.2 hh)
    have hru : (one : Int) ≤ r.units := by
      have : val (Num.ofNat 1 : F64) ≤ val r := by rw [h1.2]; simpa using h
      have := val_le_iff.1 this
      rwa [int_units h1, one_mul] at this
    have hfin : (div (Num.ofNat 100) r).isFin = true := by
      rw [div_fin h100.1 hf hm, isFin_iff, mag_ofFrac]
      have hle := (rnd_between (lo := 0) (hi := (Num.ofNat 100 : F64).mag) (n := (Num.ofNat 100 : F64).units.natAbs * one) (d := r.units.natAbs)
        (by have := one_pos; omega) (isFin_iff.1 h100.1) (by simp [dec_zero]) (by rw [← natAbs_units]; exact Nat.mul_le_mul_left _ (by omega))).2
      have := isFin_iff.1 h100.1
      omega
    have hR := div_rounds h100.1 hf h0 hfin
    rw [h100.2] at hR
    have hpos : (0 : ℚ) < val r := by linarith
    refine ⟨hfin, ?_, ?_⟩
    · have hz := ofNat_int (n := 0) (by norm_num)
      have := rounds_ge hR hz.1 (by rw [hz.2]; push_cast; positivity)
      rwa [hz.2, Nat.cast_zero, Int.cast_zero] at this
    · have := rounds_le hR (h100).1 (by rw [h100.2]; push_cast; rw [div_le_iff₀ hpos]; linarith)
      rwa [h100.2] at this
  · right
    have hni : (ofMag false infMag).isNaN = false := not_nan_ofMag le_rfl
    have hfi : (ofMag false infMag).isFin = false := by unfold isFin; rw [mag_ofMag infMag_lt]; simp
    have : div (Num.ofNat 100) r = ofMag false 0 := by
      rw [h]
      unfold div
      simp [not_nan_of_fin h100.1, hni, h100.1, hfi, sign_ofNat, sign_ofMag infMag_lt]
    rw [this]
    exact ⟨isFin_ofMag_zero _, by rw [val_zero_mag], by rw [val_zero_mag]; norm_num⟩

/-- 100 minus a number from 0 to 100 is again one. -/
theorem hundred_sub {r : F64} (h : Pct r) : Pct (sub (Num.ofNat 100) r) := by
  rcases h with h | ⟨hf, h0, h1⟩
  · left; unfold sub add; simp [isNaN_neg, h, Platform.nan_isNaN]
  · right
    have hnf : r.neg.isFin = true := (isFin_neg r).trans hf
    have hru : 0 ≤ r.units := by
      have hz : val (ofMag false 0) ≤ val r := by rw [val_zero_mag]; exact h0
      have := val_le_iff.1 hz
      have h00 : (ofMag false 0).units = 0 := by decide
      rwa [h00] at this
    have hru' : r.units ≤ (Num.ofNat 100 : F64).units := val_le_iff.1 (by rw [h100.2]; exact_mod_cast h1)
    have hfin : (sub (Num.ofNat 100) r).isFin = true := by
      unfold sub
      rw [add_fin h100.1 hnf, units_neg]
      refine ofUnits_fin (h100).1 ?_
      rw [← natAbs_units]
      omega
    have hR := sub_rounds h100.1 hf hfin
    rw [h100.2] at hR
    refine ⟨hfin, ?_, ?_⟩
    · have hz := ofNat_int (n := 0) (by norm_num)
      have := rounds_ge hR hz.1 (by rw [hz.2]; push_cast; linarith)
      rwa [hz.2, Nat.cast_zero, Int.cast_zero] at this
    · have := rounds_le hR (h100).1 (by rw [h100.2]; push_cast; linarith)
      rwa [h100.2] at this

/-- The index lies between 0 and 100 or is NaN, whatever the averages are, if the average gain is not negative. -/
theorem rsiValue_pct {g l : F64} (hg : NN g) : Pct (rsiValue g l) := by
  unfold rsiValue
  split
  · next h =>
    obtain ⟨hn, hk⟩ := lt_zero_iff.1 h
    have hs : l.sign = false := by
      cases hs : l.sign with
      | false => rfl
      | true => unfold key at hk; rw [if_pos hs] at hk; omega
    exact hundred_sub (hundred_div (one_add (nn_div hg hs)))
  · exact pct_100

/-! ## Averages of moderate numbers do not overflow -/

omit [Platform] in
theorem dec_val {a : F64} (h : 0 ≤ val a) : (dec a.mag : ℚ) = val a * one := by
  rw [← abs_of_nonneg h, abs_val, div_mul_cancel₀ _ one_posQ.ne']

omit [Platform] in
theorem ofFrac_fin {s : Bool} {n d : Nat} {hi : F64} (hd : 0 < d) (hf : hi.isFin = true) (h : n ≤ dec hi.mag * d) : (ofFrac s n d).isFin = true := by
  rw [isFin_iff, mag_ofFrac]
  have := (rnd_between (n := n) (lo := 0) (d := d) hd (isFin_iff.1 hf) (by simp [dec_zero]) h).2
  have := isFin_iff.1 hf
  omega

theorem add_fin_of_le {a b hi : F64} (ha : a.isFin = true) (hb : b.isFin = true) (hf : hi.isFin = true) (h : |val a + val b| ≤ val hi) : (add a b).isFin = true := by
  rw [add_fin ha hb]
  refine ofUnits_fin hf ?_
  have h0 : 0 ≤ val hi := le_trans (abs_nonneg _) h
  have h1 : ((a.units + b.units : Int) : ℚ) = (val a + val b) * one := by
    unfold val; rw [add_mul, div_mul_cancel₀ _ one_posQ.ne', div_mul_cancel₀ _ one_posQ.ne']; push_cast; rfl
  have h2 : (((a.units + b.units).natAbs : Nat) : ℚ) ≤ (dec hi.mag : ℚ) := by
    rw [Nat.cast_natAbs, Int.cast_abs, h1, abs_mul, abs_of_pos one_posQ, dec_val h0]
    exact mul_le_mul_of_nonneg_right h one_posQ.le
  exact_mod_cast h2

theorem mul_fin_of_le {a b hi : F64} (ha : a.isFin = true) (hb : b.isFin = true) (hf : hi.isFin = true) (h : |val a| * |val b| ≤ val hi) : (mul a b).isFin = true := by
  rw [mul_fin ha hb]
  refine ofFrac_fin one_pos hf ?_
  have h0 : 0 ≤ val hi := le_trans (mul_nonneg (abs_nonneg _) (abs_nonneg _)) h
  have h2 : ((a.units.natAbs * b.units.natAbs : Nat) : ℚ) ≤ ((dec hi.mag * one : Nat) : ℚ) := by
    push_cast
    rw [natAbs_val, natAbs_val, dec_val h0]
    calc |val a| * one * (|val b| * one) = |val a| * |val b| * (one * one) := by ring
      _ ≤ val hi * (one * one) := mul_le_mul_of_nonneg_right h (mul_nonneg one_posQ.le one_posQ.le)
      _ = _ := by ring
  exact_mod_cast h2

theorem div_fin_of_le {a b hi : F64} (ha : a.isFin = true) (hb : b.isFin = true) (h0' : val b ≠ 0) (hf : hi.isFin = true) (hh : 0 ≤ val hi)
    (h : |val a| ≤ val hi * |val b|) : (div a b).isFin = true := by
  have hm : b.mag ≠ 0 := fun hz => h0' (val_eq_zero.2 hz)
  rw [div_fin ha hb hm]
  refine ofFrac_fin (by rw [natAbs_units]; exact dec_pos hm) hf ?_
  have h2 : ((a.units.natAbs * one : Nat) : ℚ) ≤ ((dec hi.mag * b.units.natAbs : Nat) : ℚ) := by
    push_cast
    rw [natAbs_val, natAbs_val, dec_val hh]
    calc |val a| * one * one = |val a| * (one * one) := by ring
      _ ≤ val hi * |val b| * (one * one) := mul_le_mul_of_nonneg_right h (mul_nonneg one_posQ.le one_posQ.le)
      _ = _ := by ring
  exact_mod_cast h2

/-- Finite, not negative, and at most `k` times `B`. -/
def Bnd (B : ℚ) (k : Nat) (a : F64) : Prop := a.isFin = true ∧ 0 ≤ val a ∧ val a ≤ k * B

variable {B : ℚ} {N : Nat}

theorem bnd_mono {j k : Nat} {a : F64} (hB : 0 ≤ B) (h : Bnd B j a) (hjk : j ≤ k) : Bnd B k a :=
  ⟨h.1, h.2.1, le_trans h.2.2 (mul_le_mul_of_nonneg_right (by exact_mod_cast hjk) hB)⟩

theorem bnd_of_rounds {q : ℚ} {a : F64} {k : Nat} (hr : Rounds q a) (h0 : 0 ≤ q) (hi : ∃ c : F64, c.isFin = true ∧ val c = k * B) (hq : q ≤ k * B) : Bnd B k a := by
  obtain ⟨c, hc, hv⟩ := hi
  have hz := ofNat_int (n := 0) (by norm_num)
  refine ⟨hr.1, ?_, ?_⟩
  · have := rounds_ge hr hz.1 (by rw [hz.2]; simpa using h0)
    rwa [hz.2, Nat.cast_zero, Int.cast_zero] at this
  · have := rounds_le hr hc (by rw [hv]; exact hq)
    rwa [hv] at this

theorem bnd_add {j k : Nat} {a b : F64} (hi : ∃ c : F64, c.isFin = true ∧ val c = (j + k : Nat) * B) (ha : Bnd B j a) (hb : Bnd B k b) : Bnd B (j + k) (add a b) := by
  have hq : val a + val b ≤ (j + k : Nat) * B := by push_cast; linarith [ha.2.2, hb.2.2]
  have h0 : 0 ≤ val a + val b := add_nonneg ha.2.1 hb.2.1
  obtain ⟨c, hc, hv⟩ := hi
  refine bnd_of_rounds (add_rounds ha.1 hb.1 (add_fin_of_le ha.1 hb.1 hc (by rw [hv, abs_of_nonneg h0]; exact hq))) h0 ⟨c, hc, hv⟩ hq

theorem bnd_mul {k : Nat} {a : F64} (hk : k ≤ 2 ^ 53) (hi : ∃ c : F64, c.isFin = true ∧ val c = k * B) (ha : Bnd B 1 a) : Bnd B k (mul a (Num.ofNat k)) := by
  have hn := ofNat_int hk
  have hv' : val (Num.ofNat k : F64) = k := by rw [hn.2]; norm_cast
  have h1 : val a ≤ B := by simpa using ha.2.2
  have hq : val a * val (Num.ofNat k : F64) ≤ k * B := by
    rw [hv', mul_comm]; exact mul_le_mul_of_nonneg_left h1 (by positivity)
  have h0 : 0 ≤ val a * val (Num.ofNat k : F64) := mul_nonneg ha.2.1 (by rw [hv']; positivity)
  obtain ⟨c, hc, hv⟩ := hi
  exact bnd_of_rounds (mul_rounds ha.1 hn.1 (mul_fin_of_le ha.1 hn.1 hc (by rw [hv, ← abs_mul, abs_of_nonneg h0]; exact hq))) h0 ⟨c, hc, hv⟩ hq

theorem bnd_div {n : Nat} {a : F64} (hn0 : 1 ≤ n) (hn : n ≤ 2 ^ 53) (hi : ∃ c : F64, c.isFin = true ∧ val c = (1 : Nat) * B) (ha : Bnd B n a) : Bnd B 1 (div a (Num.ofNat n)) := by
  have hi' := ofNat_int hn
  have hv' : val (Num.ofNat n : F64) = n := by rw [hi'.2]; norm_cast
  have hnp : (0 : ℚ) < n := by exact_mod_cast hn0
  have hq : val a / val (Num.ofNat n : F64) ≤ (1 : Nat) * B := by
    rw [hv', div_le_iff₀ hnp, Nat.cast_one, one_mul, mul_comm]; exact ha.2.2
  have h0 : 0 ≤ val a / val (Num.ofNat n : F64) := div_nonneg ha.2.1 (by rw [hv']; exact hnp.le)
  obtain ⟨c, hc, hv⟩ := hi
  have hb0 : val (Num.ofNat n : F64) ≠ 0 := by rw [hv']; exact hnp.ne'
  have hc0 : 0 ≤ val c := by rw [hv]; exact le_trans h0 hq
  exact bnd_of_rounds (div_rounds ha.1 hi'.1 hb0 (div_fin_of_le ha.1 hi'.1 hb0 hc hc0
    (by rw [hv, abs_of_nonneg ha.2.1, hv', abs_of_pos hnp, Nat.cast_one, one_mul, mul_comm]; exact ha.2.2))) h0 ⟨c, hc, hv⟩ hq

theorem bnd_zero (hB : 0 ≤ B) (k : Nat) : Bnd B k (Num.ofNat 0 : F64) := by
  have h := ofNat_int (n := 0) (by norm_num)
  refine ⟨h.1, by rw [h.2]; simp, by rw [h.2]; simp; positivity⟩

theorem lt_iff {a b : F64} (ha : a.isFin = true) (hb : b.isFin = true) : Num.lt a b = true ↔ val a < val b := by
  show (!a.isNaN && !b.isNaN && decide (a.key < b.key)) = true ↔ _
  rw [not_nan_of_fin ha, not_nan_of_fin hb]
  have : val a < val b ↔ a.key < b.key := by
    rw [key_lt_iff, ← not_le, ← not_le, val_le_iff]
  simp [this]

/-- The difference of moderate numbers: gain and loss are at most `B`. -/
theorem bnd_diff {a b : F64} (hB : 0 ≤ B) (hi : ∃ c : F64, c.isFin = true ∧ val c = (1 : Nat) * B) (ha : a.isFin = true) (hb : b.isFin = true)
    (h : |val b - val a| ≤ B) :
    (sub b a).isFin = true ∧ |val (sub b a)| ≤ B := by
  obtain ⟨c, hc, hv⟩ := hi
  rw [Nat.cast_one, one_mul] at hv
  have hfin : (sub b a).isFin = true := by
    unfold sub
    exact add_fin_of_le hb ((isFin_neg a).trans ha) hc (by rw [val_neg, ← sub_eq_add_neg, hv]; exact h)
  have hr := sub_rounds hb ha hfin
  rw [abs_le] at h
  refine ⟨hfin, abs_le.2 ⟨?_, ?_⟩⟩
  · have := rounds_ge hr ((isFin_neg c).trans hc) (by rw [val_neg, hv]; exact h.1)
    rwa [val_neg, hv] at this
  · have := rounds_le hr hc (by rw [hv]; exact h.2)
    rwa [hv] at this

theorem bnd_gain {d : F64} (hd : d.isFin = true) (h : |val d| ≤ B) (hpos : Num.lt (Num.ofNat 0) d = true) : Bnd B 1 d := by
  have h0 := ofNat_int (n := 0) (by norm_num)
  rw [lt_iff h0.1 hd, h0.2] at hpos
  simp only [Nat.cast_zero, Int.cast_zero] at hpos
  exact ⟨hd, hpos.le, by rw [Nat.cast_one, one_mul]; exact (abs_le.1 h).2⟩

theorem bnd_loss {d : F64} (hd : d.isFin = true) (h : |val d| ≤ B) (hneg : Num.lt d (Num.ofNat 0) = true) : Bnd B 1 d.neg := by
  have h0 := ofNat_int (n := 0) (by norm_num)
  rw [lt_iff hd h0.1, h0.2] at hneg
  simp only [Nat.cast_zero, Int.cast_zero] at hneg
  exact ⟨(isFin_neg d).trans hd, by rw [val_neg]; linarith, by rw [val_neg, Nat.cast_one, one_mul]; linarith [(abs_le.1 h).1]⟩

theorem bnd_parts {d : F64} (hB : 0 ≤ B) (hd : d.isFin = true) (h : |val d| ≤ B) : Bnd B 1 (rsiParts d).1 ∧ Bnd B 1 (rsiParts d).2 := by
  unfold rsiParts
  split
  · next hp => exact ⟨bnd_gain hd h hp, bnd_zero hB 1⟩
  · split
    · next hn => exact ⟨bnd_zero hB 1, bnd_loss hd h hn⟩
    · exact ⟨bnd_zero hB 1, bnd_zero hB 1⟩

/-- Successive values differ by at most `B`. -/
def Close (B : ℚ) : List (Msg F64) → Prop
  | [] => True
  | m :: ms => m.value.isFin = true ∧ Close B ms ∧ ∀ a ∈ ms, |val m.value - val a.value| ≤ B

theorem bnd_sums (hB : 0 ≤ B) {N : Nat} (hi : ∀ k, k ≤ N → ∃ c : F64, c.isFin = true ∧ val c = k * B) (hN : 1 ≤ N) (ms : List (Msg F64)) :
    ∀ (k : Nat) (s : F64 × F64), Bnd B k s.1 → Bnd B k s.2 → k + (ms.length - 1) ≤ N → Close B ms →
      Bnd B (k + (ms.length - 1)) (rsiSums s ms).1 ∧ Bnd B (k + (ms.length - 1)) (rsiSums s ms).2 := by
  induction ms with
  | nil => intro k s h1 h2 _ _; exact ⟨h1, h2⟩
  | cons a ms ih =>
    cases ms with
    | nil => intro k s h1 h2 _ _; exact ⟨h1, h2⟩
    | cons b ms =>
      intro k s h1 h2 hk hc
      rw [rsiSums]
      have e : k + ((a :: b :: ms).length - 1) = (k + 1) + ((b :: ms).length - 1) := by simp; omega
      rw [e] at hk ⊢
      obtain ⟨ha, hc', hab⟩ := hc
      have hd := bnd_diff hB (hi 1 hN) ha hc'.1 (by rw [abs_sub_comm]; exact hab b (by simp))
      have hk1 : k + 1 ≤ N := by omega
      apply ih (k + 1) _ _ _ hk hc'
      · split
        · next hp => exact bnd_add (hi _ hk1) h1 (bnd_gain hd.1 hd.2 hp)
        · split <;> exact bnd_mono hB h1 (by omega)
      · split
        · exact bnd_mono hB h2 (by omega)
        · split
          · next hn => exact bnd_add (hi _ hk1) h2 (bnd_loss hd.1 hd.2 hn)
          · exact bnd_mono hB h2 (by omega)

theorem close_reverse {ms : List (Msg F64)} : Close B ms → Close B ms.reverse := by
  have happ : ∀ (xs : List (Msg F64)) (m : Msg F64), Close B xs → m.value.isFin = true → (∀ a ∈ xs, |val m.value - val a.value| ≤ B) → Close B (xs ++ [m]) := by
    intro xs
    induction xs with
    | nil => intro m _ hm _; exact ⟨hm, trivial, fun a ha => by cases ha⟩
    | cons x xs ih =>
      intro m hx hm ha
      refine ⟨hx.1, ih m hx.2.1 hm (fun a h => ha a (by simp [h])), fun a h => ?_⟩
      rcases List.mem_append.1 h with h | h
      · exact hx.2.2 a h
      · rw [List.mem_singleton.1 h, abs_sub_comm]; exact ha x (by simp)
  induction ms with
  | nil => intro h; exact h
  | cons m ms ih =>
    intro h
    rw [List.reverse_cons]
    exact happ _ _ (ih h.2.1) h.1 (fun a ha => h.2.2 a (List.mem_reverse.1 ha))

theorem bnd_state (hB : 0 ≤ B) {n : Nat} (hn : 1 ≤ n) (hn' : n ≤ 2 ^ 53) (hi : ∀ k, k ≤ n → ∃ c : F64, c.isFin = true ∧ val c = k * B) :
    ∀ {h : List (Msg F64)} {g l : F64}, Close B h → rsiState n h = some (g, l) → Bnd B 1 g ∧ Bnd B 1 l := by
  intro h
  induction h with
  | nil => intro g l _ e; cases e
  | cons m h ih =>
    intro g l hc e
    rw [rsiState] at e
    split at e
    · cases e
    · split at e
      · next hl =>
        cases e
        have := bnd_sums hB hi hn (m :: h).reverse 0 (Num.ofNat 0, Num.ofNat 0) (bnd_zero hB 0) (bnd_zero hB 0) (by simp; omega) (close_reverse hc)
        have e : 0 + ((m :: h).reverse.length - 1) = n := by simp; omega
        rw [e] at this
        exact ⟨bnd_div hn hn' (hi 1 hn) this.1, bnd_div hn hn' (hi 1 hn) this.2⟩
      · cases h with
        | nil => cases hr : rsiState n ([] : List (Msg F64)) <;> rw [hr] at e <;> cases e
        | cons a h =>
          cases hr : rsiState n (a :: h) with
          | none => rw [hr] at e; cases e
          | some p =>
            rw [hr] at e
            cases e
            obtain ⟨hg, hl⟩ := ih hc.2.1 (g := p.1) (l := p.2) hr
            have hd := bnd_diff hB (hi 1 hn) hc.2.1.1 hc.1 (hc.2.2 a (by simp))
            have hp := bnd_parts hB hd.1 hd.2
            have en : n - 1 + 1 = n := by omega
            have h1 := bnd_add (by rw [en]; exact hi n le_rfl) (bnd_mul (by omega) (hi (n - 1) (by omega)) hg) hp.1
            have h2 := bnd_add (by rw [en]; exact hi n le_rfl) (bnd_mul (by omega) (hi (n - 1) (by omega)) hl) hp.2
            rw [en] at h1 h2
            exact ⟨bnd_div hn hn' (hi 1 hn) h1, bnd_div hn hn' (hi 1 hn) h2⟩

/-! With finite averages the index is a number. -/

theorem div_not_nan {a b : F64} (ha : a.isFin = true) (hb : b.isNaN = false) (hb0 : b.mag ≠ 0) : (div a b).isNaN = false := by
  unfold div
  simp only [not_nan_of_fin ha, hb, ha, hb0]
  by_cases hbf : b.isFin = true
  · simp [hbf, not_nan_ofFrac]
  · simp only [hbf]; exact not_nan_ofMag (Nat.zero_le _)

theorem add_not_nan {a b : F64} (ha : a.isFin = true) (hb : b.isNaN = false) : (add a b).isNaN = false := by
  by_cases hbf : b.isFin = true
  · rw [add_fin ha hbf]; exact ofUnits_not_nan _ _
  · unfold add; simp [not_nan_of_fin ha, hb, ha, hbf]

theorem rsiValue_not_nan {g l : F64} (hg : Bnd B 1 g) (hl : l.isFin = true) : (rsiValue g l).isNaN = false := by
  unfold rsiValue
  split
  · next h =>
    obtain ⟨hn, hk⟩ := lt_zero_iff.1 h
    have hl0 : l.mag ≠ 0 := by intro h0; unfold key at hk; rw [h0] at hk; simp at hk
    have h1' := div_not_nan hg.1 hn hl0
    have h2 := add_not_nan (h1 : IsInt (Num.ofNat 1 : F64) 1).1 h1'
    have hs : l.sign = false := by
      cases hs : l.sign with
      | false => rfl
      | true => unfold key at hk; rw [if_pos hs] at hk; omega
    have hcase := one_add (nn_div (b := l) (Or.inr (val_nonneg_iff.1 hg.2.1)) hs)
    have h3 : (add (Num.ofNat 1) (div g l)).mag ≠ 0 := by
      rcases hcase with h | ⟨_, h⟩ | h
      · rw [h2] at h; cases h
      · intro h0
        have := val_eq_zero.2 h0
        rw [this] at h
        norm_num at h
      · rw [h, mag_ofMag infMag_lt]; decide
    have h4 : (div (Num.ofNat 100) (add (Num.ofNat 1) (div g l))).isNaN = false := div_not_nan h100.1 h2 h3
    change (sub (Num.ofNat 100) (div (Num.ofNat 100) (add (Num.ofNat 1) (div g l)))).isNaN = false
    unfold sub
    exact add_not_nan h100.1 (by rw [isNaN_neg]; exact h4)
  · exact not_nan_of_fin h100.1

omit [Platform] in
/-- Multiples of 2^1001. -/
theorem exists_multiple {k : Nat} (hk : k ≤ 2 ^ 20) : ∃ c : F64, c.isFin = true ∧ val c = k * 2 ^ 1001 := by
  have hlim : k * 2 ^ 2075 < 2 ^ 2098 := by
    calc k * 2 ^ 2075 ≤ 2 ^ 20 * 2 ^ 2075 := Nat.mul_le_mul_right _ hk
      _ = 2 ^ 2095 := by rw [← Nat.pow_add]
      _ < 2 ^ 2098 := Nat.pow_lt_pow_right (by norm_num) (by norm_num)
  obtain ⟨b, hb, hd⟩ := dec_surj (n := k * 2 ^ 2075) rfl (le_trans hk (by norm_num)) hlim
  have hb' := lt_trans hb infMag_lt
  refine ⟨ofMag false b, by rw [isFin_iff, mag_ofMag hb']; exact hb, ?_⟩
  rw [val_nonneg_ofMag hb', hd, div_eq_iff one_posQ.ne']
  have e : 2 ^ 2075 = 2 ^ 1001 * one := by unfold one; rw [← Nat.pow_add]
  rw [e]
  push_cast
  ring

end F64
end Rtbot
