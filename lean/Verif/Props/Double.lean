import Verif.Lemmas.DoubleRsi
import Verif.Lemmas.DoubleSqrt
import Verif.Lemmas.Numeric
import Verif.Props.Windows
import Verif.Props.Pointwise
import Verif.Props.Order
import Verif.Spec.Codec

/-! # Properties with IEEE 754 doubles: C57, C58, C59, and what doubles mean for C07, C08, C10, C52, C53 -/

namespace Rtbot
open Spec F64

/-- A platform for concrete cases: the usual NaN, `pow(x, y) = x * x`, `cos(x) = x`. None of the cases depends on `cos`, and `pow` is only used for squares. -/
@[reducible] def plainPlatform : Platform where
  nan := ⟨0x7FF8000000000000⟩
  nan_isNaN := by decide
  pow a _ := letI : Platform := ⟨⟨0x7FF8000000000000⟩, by decide, fun x _ => x, fun x => x⟩; mul a a
  cos a := a

/-- Times and object representations of the values of what was emitted on "o1". -/
def bitsOf [Platform] (r : Res (Op F64) (List (OpMsg F64))) : Option (List (UInt64 × UInt64)) :=
  match r with
  | .ok outs _ => some ((emittedOn o1 outs).map fun m => (m.time, m.value.bits))
  | .err _ _ => none

variable [Platform]

/-! ## The model of doubles -/

/-- The model of doubles is IEEE 754: the representation is the one of the standard; the results of the four operations, of the square root and of the
conversion of integers are the nearest doubles to the exact results, ties to even, and infinite from the limit of the standard on; comparisons compare the
numbers; the conversion to a time drops the fraction, and is undefined exactly when the result is not a `uint64_t`. -/
theorem double_model {a b : F64} (ha : a.isFin = true) (hb : b.isFin = true) :
    RoundsTo (val a + val b) (a +. b) ∧
    RoundsTo (val a - val b) (a -. b) ∧
    RoundsTo (val a * val b) (a *. b) ∧
    (val b ≠ 0 → RoundsTo (val a / val b) (a /. b)) ∧
    (0 ≤ val a → RoundsReal (Real.sqrt (val a)) (Num.sqrt a)) ∧
    (val a < 0 → (Num.sqrt a).isNaN = true) ∧
    (Num.neg a).isFin = true ∧ val (Num.neg a) = - val a ∧
    (∀ n : Nat, RoundsTo (n : ℚ) (Num.ofNat n : F64)) ∧
    val (Num.half : F64) = 1 / 2 ∧
    (Num.lt a b = true ↔ val a < val b) ∧ (Num.le a b = true ↔ val a ≤ val b) ∧ (Num.eq a b = true ↔ val a = val b) ∧
    (∀ t, Num.toTime a = some t ↔ Truncates (val a) t) :=
  ⟨add_to ha hb, sub_to ha hb, mul_to ha hb, div_to ha hb, sqrt_rounds ha, sqrt_neg ha, (isFin_neg a).trans ha, val_neg a, ofNat_to, val_half,
    (compare_fin ha hb).1, (compare_fin ha hb).2.1, (compare_fin ha hb).2.2, fun _ => toTime_iff.trans (by simp [ha])⟩

omit [Platform] in
/-- The representation of a double: sign, exponent and fraction. -/
theorem double_format (a : F64) :
    fields (decide (2 ^ 63 ≤ a.bits.toNat)) (a.bits.toNat % 2 ^ 63 / 2 ^ 52) (a.bits.toNat % 2 ^ 52) = if a.isFin then some (val a) else none := by
  have h := val_fields a
  unfold sign mag at h
  rwa [Nat.mod_mod_of_dvd _ (by norm_num)] at h

/-- Infinities and NaNs: comparisons with NaN are false, operations on NaN give NaN, and so do the operations without a result; times are not made of either. -/
theorem double_special {a b : F64} :
    ((a.isNaN = true ∨ b.isNaN = true) → Num.lt a b = false ∧ Num.le a b = false ∧ Num.eq a b = false ∧ (a +. b).isNaN = true ∧ (a -. b).isNaN = true ∧
      (a *. b).isNaN = true ∧ (a /. b).isNaN = true) ∧
    (a.mag = infMag → b.isFin = true → a +. b = a ∧ a -. b = a ∧ (b -. a = Num.neg a) ∧ (a /. b).mag = infMag ∧ (b /. a).mag = 0) ∧
    (a.mag = infMag → b.mag = infMag → (a /. b).isNaN = true ∧ (a *. b).mag = infMag ∧
      ((a +. b).isNaN = true ↔ a.sign ≠ b.sign) ∧ ((a -. b).isNaN = true ↔ a.sign = b.sign)) ∧
    (a.mag = 0 → b.mag = 0 → (a /. b).isNaN = true) ∧
    (a.isFin = true → a.mag ≠ 0 → b.mag = 0 → (a /. b).mag = infMag) ∧
    (a.mag = infMag → b.mag = 0 → (a *. b).isNaN = true ∧ (b *. a).isNaN = true) ∧
    (a.isFin = false → Num.toTime a = none) :=
  ⟨special_nan, special_inf_fin, special_inf_inf, special_zero_zero, special_div_zero, special_inf_zero, fun h => by
    show toTime a = none
    unfold toTime
    rw [if_neg (by simp [h])]⟩

omit [Platform] in
/-- Concrete cases: 0.1 + 0.2, the root of 2, an overflow, a truncation. -/
example : letI := plainPlatform
    ((⟨0x3FB999999999999A⟩ : F64) +. ⟨0x3FC999999999999A⟩) = ⟨0x3FD3333333333334⟩ ∧ Num.sqrt (Num.ofNat 2 : F64) = ⟨0x3FF6A09E667F3BCD⟩ ∧
    ((⟨0x7FEFFFFFFFFFFFFF⟩ : F64) +. ⟨0x7C90000000000000⟩) = ⟨0x7FF0000000000000⟩ ∧ Num.toTime (⟨0xBFEFFFFFFFFFFFFF⟩ : F64) = some 0 ∧
    Num.toTime (⟨0x43F0000000000000⟩ : F64) = none := by
  decide +kernel

/-- Snapshots keep doubles: the theorems on snapshots (C35 to C38) apply to them. -/
instance : LosslessBits F64 := ⟨fun _ => rfl⟩

/-! ## C07, C52, C53: times converted to double -/

/-- C07 with doubles: up to 2^53 the times survive, and Difference emits consecutive differences. -/
theorem C07_double (id : Str) : ComputesOn (fun ms => ∀ m ∈ ms, m.time.toNat ≤ 2 ^ 53) (Op.newDifference id true : Op F64) i1 fun h m =>
    match h.getLast? with
    | none => []
    | some older => [(o1, [⟨m.time, m.value -. older.value⟩])] := by
  intro ms hms
  obtain ⟨o', h⟩ := C07_difference (V := F64) id ms (fun m hm => toTime_ofTime_le (hms m hm))
  refine ⟨o', h.trans ?_⟩
  congr 2
  funext h m
  cases h.getLast? <;> rfl

omit [Platform] in
/-- C07 fails with doubles beyond 2^53. Times in nanoseconds since 1970 are: messages with times 1700000000000000001 and 1700000000000000101 give a message with time
1700000000000000000, which is earlier than both. -/
theorem C07_violated_double : letI := plainPlatform
    bitsOf (feedOp (Op.newDifference [] true : Op F64) i1 [⟨1700000000000000001, Num.ofNat 1⟩, ⟨1700000000000000101, Num.ofNat 3⟩]) =
      some [(1700000000000000000, (Num.ofNat 2 : F64).bits)] := by
  decide +kernel

/-- A concrete case up to 2^53. -/
example : letI := plainPlatform
    (∀ m ∈ ([⟨7, Num.ofNat 1⟩, ⟨2 ^ 53, Num.ofNat 3⟩] : List (Msg F64)), m.time.toNat ≤ 2 ^ 53) ∧
    bitsOf (feedOp (Op.newDifference [] true : Op F64) i1 [⟨7, Num.ofNat 1⟩, ⟨2 ^ 53, Num.ofNat 3⟩]) = some [(2 ^ 53, (Num.ofNat 2 : F64).bits)] := by
  decide +kernel

/-- C52 with doubles, for Difference: messages up to time 2^53 that arrive in the order of time leave in the order of time. -/
theorem C52_double (id : Str) (as : List (Act F64)) (hin : InOrder (Op.newDifference id true : Op F64) as)
    (ht : ∀ m ∈ addressed true i1 as, m.time.toNat ≤ 2 ^ 53) (q : Str) : Increasing (sent q (results (Op.newDifference id true) as)) :=
  C52_order_partial (.difference id true) as hin (fun m hm => toTime_ofTime_le (ht m hm)) q

omit [Platform] in
/-- C52 fails with doubles beyond 2^53: Difference gives two messages the same time. -/
theorem C52_violated_double : letI := plainPlatform
    bitsOf (feedOp (Op.newDifference [] true : Op F64) i1 [⟨2 ^ 53 + 2, Num.ofNat 1⟩, ⟨2 ^ 53 + 3, Num.ofNat 3⟩, ⟨2 ^ 53 + 4, Num.ofNat 4⟩]) =
      some [(2 ^ 53 + 4, (Num.ofNat 2 : F64).bits), (2 ^ 53 + 4, (Num.ofNat 1 : F64).bits)] := by
  decide +kernel

omit [Platform] in
/-- C53 fails with doubles beyond 2^53: the first result above is later than the messages it is made of. -/
theorem C53_violated_double : letI := plainPlatform
    bitsOf (feedOp (Op.newDifference [] true : Op F64) i1 [⟨2 ^ 53 + 2, Num.ofNat 1⟩, ⟨2 ^ 53 + 3, Num.ofNat 3⟩]) =
      some [(2 ^ 53 + 4, (Num.ofNat 2 : F64).bits)] ∧ (2 ^ 53 + 3 : UInt64) < 2 ^ 53 + 4 := by
  decide +kernel

/-! ## C10 with doubles -/

theorem double_trichotomy {a b : F64} (ha : a.isNaN = false) (hb : b.isNaN = false) :
    (Num.lt a b = true ∧ Num.lt b a = false ∧ Num.eq a b = false) ∨ (Num.lt a b = false ∧ Num.lt b a = true ∧ Num.eq a b = false) ∨
      (Num.lt a b = false ∧ Num.lt b a = false ∧ Num.eq a b = true) := by
  have h1 : Num.lt a b = decide (a.key < b.key) := by show (!a.isNaN && !b.isNaN && decide (a.key < b.key)) = _; rw [ha, hb]; rfl
  have h2 : Num.lt b a = decide (b.key < a.key) := by show (!b.isNaN && !a.isNaN && decide (b.key < a.key)) = _; rw [ha, hb]; rfl
  have h3 : Num.eq a b = decide (a.key = b.key) := by show (!a.isNaN && !b.isNaN && decide (a.key = b.key)) = _; rw [ha, hb]; rfl
  rw [h1, h2, h3]
  simp only [decide_eq_true_eq, decide_eq_false_iff_not]
  omega

/-- C10 with doubles: if neither the threshold nor any value is NaN, every message is forwarded by exactly one of the three filters. -/
theorem C10_trichotomy_double (id : Str) (c : F64) (hc : c.isNaN = false) (ms : List (Msg F64)) (hms : ∀ m ∈ ms, m.value.isNaN = false) :
    ∃ l g e o1' o2' o3', feedOp (Op.newFilter id .lessThan c) i1 ms = .ok l o1' ∧
      feedOp (Op.newFilter id .greaterThan c) i1 ms = .ok g o2' ∧
      feedOp (Op.newFilter id .equalTo c) i1 ms = .ok e o3' ∧
      (emittedOn o1 l ++ emittedOn o1 g ++ emittedOn o1 e).Perm ms := by
  obtain ⟨⟨_, h1⟩, ⟨_, h2⟩, ⟨_, h3⟩⟩ := C10_filters id c
  obtain ⟨l, o1', hl, el⟩ := h1 ms
  obtain ⟨g, o2', hg, eg⟩ := h2 ms
  obtain ⟨e, o3', he, ee⟩ := h3 ms
  refine ⟨l, g, e, o1', o2', o3', hl, hg, he, ?_⟩
  rw [el, eg, ee]
  clear hl hg he el eg ee
  induction ms with
  | nil => exact List.Perm.refl _
  | cons m ms ih =>
    have ih := ih (fun x hx => hms x (by simp [hx]))
    rcases double_trichotomy (hms m (by simp)) hc with ⟨a, b, d⟩ | ⟨a, b, d⟩ | ⟨a, b, d⟩ <;> simp only [List.filter_cons, a, b, d, if_true, Bool.false_eq_true, if_false]
    · exact ih.cons m
    · exact (List.perm_middle.append_right _).trans (ih.cons m)
    · exact List.perm_middle.trans (ih.cons m)

/-- NaN is forwarded by none of the three. -/
theorem C10_nan_double (c v : F64) (h : v.isNaN = true) : Num.lt v c = false ∧ Num.lt c v = false ∧ Num.eq v c = false := by
  refine ⟨?_, ?_, ?_⟩
  · show (!v.isNaN && _ && _) = false; rw [h]; rfl
  · show (!c.isNaN && !v.isNaN && _) = false; rw [h]; cases c.isNaN <;> rfl
  · show (!v.isNaN && _ && _) = false; rw [h]; rfl

example : (⟨0xFFF0000000000000⟩ : F64).isNaN = false ∧ (⟨0x7FF0000000000001⟩ : F64).isNaN = true := by decide

/-! ## C58: integers -/

/-- The exact sum of the values. -/
def exactSum (ms : List (Msg F64)) : ℚ := (ms.map fun m => val m.value).sum

/-- C58 Count: exact up to 2^53 messages. -/
theorem C58_count (id : Str) (ms : List (Msg F64)) (h : ms.length ≤ 2 ^ 53) :
    ∃ outs o', feedOp (Op.newCount id : Op F64) i1 ms = .ok outs o' ∧ (emittedOn o1 outs).map (fun m => (m.time, val m.value)) =
      ms.mapIdx fun k m => (m.time, ((k + 1 : Nat) : ℚ)) := by
  obtain ⟨o', ho⟩ := C08_count (V := F64) id ms (lt_of_le_of_lt h (by norm_num))
  refine ⟨_, o', ho, ?_⟩
  have gen : ∀ (ms pre : List (Msg F64)), pre.length + ms.length ≤ 2 ^ 53 →
      (emittedOn o1 (answers (fun h m => [(o1, [(⟨m.time, Num.ofNat (h.length + 1)⟩ : Msg F64)])]) pre ms)).map (fun m => (m.time, val m.value)) =
        ms.mapIdx fun k m => (m.time, ((pre.length + k + 1 : Nat) : ℚ)) := by
    intro ms
    induction ms with
    | nil => intro pre _; rfl
    | cons m ms ih =>
      intro pre hl
      simp only [List.length_cons] at hl
      have hi := ofNat_int (n := pre.length + 1) (by omega)
      rw [answers, emittedOn_cons, List.map_append, ih _ (by simp; omega), List.mapIdx_cons]
      have e : (msgsOn o1 [(o1, [(⟨m.time, Num.ofNat (pre.length + 1)⟩ : Msg F64)])]) = [⟨m.time, Num.ofNat (pre.length + 1)⟩] := by simp [msgsOn]
      rw [e]
      simp only [List.map_cons, List.map_nil, List.singleton_append, hi.2]
      congr 1
      apply List.mapIdx_eq_mapIdx_iff.2
      intro i hi
      simp only [List.length_append, List.length_singleton]
      congr 2
      omega
  have := gen ms [] (by simpa using h)
  simpa using this

/-- The sum of integers, converted one by one. -/
theorem foldl_int : ∀ (vs : List F64) (zs : List Int) (a : F64) (x : Int), IsInt a x → List.Forall₂ IsInt vs zs →
    (∀ pre, pre <+: zs → (x + pre.sum).natAbs ≤ 2 ^ 53) → IsInt (vs.foldl Num.add a) (x + zs.sum) := by
  intro vs
  induction vs with
  | nil => intro zs a x ha hf _; cases hf; simpa using ha
  | cons v vs ih =>
    intro zs a x ha hf hb
    cases hf with
    | cons hv hf =>
      rename_i z zs
      rw [List.foldl_cons, List.sum_cons, ← add_assoc]
      refine ih zs _ _ (add_int ha hv ?_) hf ?_
      · have := hb [z] (by simp)
        simpa using this
      · intro pre hp
        have := hb (z :: pre) (by simpa using hp)
        simpa [add_assoc] using this

/-- C58 CumulativeSum: for integer values whose running sums do not exceed 2^53 in absolute value, each answer is exactly the sum so far. -/
theorem C58_cumulativeSum (id : Str) (ms : List (Msg F64)) (zs : List Int) (hz : List.Forall₂ IsInt (ms.map (·.value)) zs)
    (hb : ∀ pre, pre <+: zs → pre.sum.natAbs ≤ 2 ^ 53) :
    ∃ outs o', feedOp (Op.newCumSum id : Op F64) i1 ms = .ok outs o' ∧ (emittedOn o1 outs).map (fun m => (m.time, val m.value)) =
      ms.mapIdx fun k m => (m.time, exactSum (ms.take (k + 1))) := by
  obtain ⟨o', ho⟩ := C08_cumulativeSum (V := F64) id ms
  refine ⟨_, o', ho, ?_⟩
  have hval : ∀ k, val (((ms.take (k + 1)).map (·.value)).foldl Num.add (Num.ofNat 0)) = exactSum (ms.take (k + 1)) := by
    intro k
    have h1 : List.Forall₂ IsInt ((ms.take (k + 1)).map (·.value)) (zs.take (k + 1)) := by
      rw [List.map_take]; exact List.forall₂_take (k + 1) hz
    have h2 := foldl_int _ _ (Num.ofNat 0) 0 (ofNat_int (n := 0) (by norm_num)) h1 (by
      intro pre hp
      rw [zero_add]
      exact hb pre (hp.trans (List.take_prefix _ _)))
    rw [h2.2, zero_add]
    unfold exactSum
    have e : ∀ (vs : List (Msg F64)) (ys : List Int), List.Forall₂ IsInt (vs.map (·.value)) ys → ((ys.sum : Int) : ℚ) = (vs.map fun m => val m.value).sum := by
      intro vs
      induction vs with
      | nil => intro ys h; cases h; simp
      | cons v vs ih =>
        intro ys h
        cases h with
        | cons h1 h2 => rw [List.sum_cons, List.map_cons, List.sum_cons, Int.cast_add, ih _ h2, h1.2]
    exact e _ _ h1
  have gen : ∀ (ms pre : List (Msg F64)),
      (emittedOn o1 (answers (fun h m => [(o1, [(⟨m.time, ((h ++ [m]).map (·.value)).foldl Num.add (Num.ofNat 0)⟩ : Msg F64)])]) pre ms)).map (fun m => (m.time, val m.value)) =
        ms.mapIdx fun k m => (m.time, val (((pre ++ ms.take (k + 1)).map (·.value)).foldl Num.add (Num.ofNat 0))) := by
    intro ms
    induction ms with
    | nil => intro pre; rfl
    | cons m ms ih =>
      intro pre
      rw [answers, emittedOn_cons, List.map_append, ih, List.mapIdx_cons]
      have e : (msgsOn o1 [(o1, [(⟨m.time, ((pre ++ [m]).map (·.value)).foldl Num.add (Num.ofNat 0)⟩ : Msg F64)])]) =
        [⟨m.time, ((pre ++ [m]).map (·.value)).foldl Num.add (Num.ofNat 0)⟩] := by simp [msgsOn]
      rw [e]
      simp
  have := gen ms []
  simp only [List.nil_append] at this
  rw [this]
  apply List.mapIdx_eq_mapIdx_iff.2
  intro i hi
  rw [hval]


/-- A sum of integer values is an integer. -/
theorem sum_int {ms : List (Msg F64)} (h : ∀ m ∈ ms, ∃ z : Int, IsInt m.value z) : ∃ z : Int, exactSum ms = z := by
  induction ms with
  | nil => exact ⟨0, by simp [exactSum]⟩
  | cons m ms ih =>
    obtain ⟨z, hz⟩ := h m (by simp)
    obtain ⟨y, hy⟩ := ih (fun x hx => h x (by simp [hx]))
    refine ⟨z + y, ?_⟩
    unfold exactSum at hy ⊢
    rw [List.map_cons, List.sum_cons, hy, hz.2]
    push_cast; rfl

theorem sum_bound {ms : List (Msg F64)} {n : Nat} {B : ℚ} (hB : 0 ≤ B) (hl : ms.length ≤ n) (h : ∀ m ∈ ms, |val m.value| ≤ B) : |exactSum ms| ≤ n * B := by
  have : |exactSum ms| ≤ ms.length * B := by
    clear hl
    induction ms with
    | nil => simp [exactSum]
    | cons m ms ih =>
      have h1 := h m (by simp)
      have h2 := ih (fun x hx => h x (by simp [hx]))
      unfold exactSum at h2 ⊢
      rw [List.map_cons, List.sum_cons, List.length_cons]
      refine le_trans (abs_add_le _ _) ?_
      push_cast
      linarith
  exact le_trans this (mul_le_mul_of_nonneg_right (by exact_mod_cast hl) hB)

/-- The values are integers of at most `2^53 / n`. -/
def SmallInts (n : Nat) (ms : List (Msg F64)) : Prop := ∀ m ∈ ms, ∃ z : Int, IsInt m.value z ∧ n * z.natAbs ≤ 2 ^ 53

/-- C58 MovingAverage: for integer values of at most `2^53 / n` in absolute value the running sum never deviates from the sum of the window, whatever the history, so each
answer is the double nearest to the exact mean of the last `n` values. -/
theorem C58_movingAverage (id : Str) (n : Nat) (hn : 0 < n) (hn' : n ≤ 2 ^ 53) (ms : List (Msg F64)) (hms : SmallInts n ms) :
    ∃ (v : List (Msg F64) → Msg F64 → F64) (o' : Op F64),
      feedOp (Op.newMovAvg id n : Op F64) i1 ms = .ok (answers (fun h m => if h.length + 1 < n then [] else [(o1, [⟨m.time, v h m⟩])]) [] ms) o' ∧
      ∀ pre m post, ms = pre ++ m :: post → n ≤ pre.length + 1 → Rounds (exactSum (lastN n (pre ++ [m])) / n) (v pre m) := by
  obtain ⟨S, h0, hS⟩ := exists_sums (V := F64) n (Num.ofNat 0)
  let v : List (Msg F64) → Msg F64 → F64 := fun h m => S (h ++ [m]) /. Num.ofNat n
  have hint : ∀ h : List (Msg F64), SmallInts n h → ∃ z : Int, IsInt (S h) z ∧ exactSum (lastN n h) = z ∧ z.natAbs ≤ 2 ^ 53 := by
    intro h
    have bound : ∀ w : List (Msg F64), SmallInts n w → w.length ≤ n → ∃ z : Int, exactSum w = z ∧ z.natAbs ≤ 2 ^ 53 := by
      intro w hw hl
      obtain ⟨z, hz⟩ := sum_int (ms := w) (fun m hm => ⟨_, (hw m hm).choose_spec.1⟩)
      refine ⟨z, hz, ?_⟩
      have hnp : (0 : ℚ) < n := by exact_mod_cast hn
      have := sum_bound (B := 2 ^ 53 / n) (by positivity) hl (fun m hm => by
        obtain ⟨y, hy, hyn⟩ := hw m hm
        rw [hy.2, le_div_iff₀ hnp, ← Int.cast_abs, Int.abs_eq_natAbs, Int.cast_natCast, mul_comm]
        exact_mod_cast hyn)
      rw [hz, mul_div_cancel₀ _ hnp.ne', ← Int.cast_abs, Int.abs_eq_natAbs, Int.cast_natCast] at this
      exact_mod_cast this
    have mem_last : ∀ {k : Nat} {h : List (Msg F64)}, SmallInts n h → SmallInts n (lastN k h) := fun hh m hm => hh m (List.mem_of_mem_drop hm)
    induction h using List.reverseRecOn with
    | nil =>
      intro _
      refine ⟨0, ?_, by simp [exactSum, lastN], by simp⟩
      rw [h0]
      exact ofNat_int (n := 0) (by norm_num)
    | append_singleton h m ih =>
      intro hs
      have hsh : SmallInts n h := fun x hx => hs x (by simp [hx])
      obtain ⟨z, hz, hez, hzb⟩ := ih hsh
      obtain ⟨y, hy, hyb⟩ := hs m (by simp)
      obtain ⟨t, het, htb⟩ := bound (lastN n (h ++ [m])) (mem_last hs) (by rw [length_lastN]; omega)
      refine ⟨t, ?_, het, htb⟩
      rw [hS]
      unfold nextSum
      by_cases hl : n ≤ h.length
      · rw [if_pos hl]
        rw [lastN_snoc_of_ge m hn hl] at het
        cases hw : lastN n h with
        | nil => have := congrArg List.length hw; rw [length_lastN, List.length_nil] at this; omega
        | cons a w =>
          rw [hw] at het hez
          have hwin : SmallInts n (a :: w) := hw ▸ mem_last hsh
          obtain ⟨x, hx, hxb⟩ := hwin a (by simp)
          have hwl : (a :: w).length = n := by rw [← hw, length_lastN]; omega
          obtain ⟨u, hu, hub⟩ := bound w (fun q hq => hwin q (by simp [hq])) (by simp at hwl; omega)
          have hzx : z - x = u := by
            have : (z : ℚ) - x = u := by
              rw [← hez, ← hu, ← hx.2]; unfold exactSum; rw [List.map_cons, List.sum_cons]; ring
            exact_mod_cast this
          have hty : u + y = t := by
            have : (u : ℚ) + y = t := by
              rw [← het, ← hu, ← hy.2]; unfold exactSum; simp
            exact_mod_cast this
          have h1 := sub_int hz hx (by rw [hzx]; exact hub)
          rw [hzx] at h1
          have h2 := add_int h1 hy (by rw [hty]; exact htb)
          rw [hty] at h2
          exact h2
      · rw [if_neg hl]
        rw [lastN_snoc_of_lt m (by omega)] at het
        have hty : z + y = t := by
          have : (z : ℚ) + y = t := by
            rw [← het, ← hez, ← hy.2]; unfold exactSum
            simp
          exact_mod_cast this
        have h2 := add_int hz hy (by rw [hty]; exact htb)
        rw [hty] at h2
        exact h2
  have hcomp : Computes (Op.newMovAvg id n : Op F64) i1 (fun h m => if h.length + 1 < n then [] else [(o1, [⟨m.time, v h m⟩])]) := by
    unfold Op.newMovAvg
    rw [simple_eq_winCore id hn, ← h0]
    apply computes_window hn S (fun _ => .movAvg) _ (fun _ => rfl) hS
    · intro h m hl; exact ⟨if_pos hl, rfl⟩
    · intro h m hl
      rw [if_neg (by omega)]
      have hlen : (lastN (n - 1) h ++ [m]).length = n := by rw [List.length_append, length_lastN]; simp; omega
      rw [runCore_eq, lastN_snoc hn]
      simp only [Op.process, procMovAvg, solePort_run, bind_ok, dataPort_run, dataLast_run, single, hlen]
      rfl
  obtain ⟨o', ho⟩ := hcomp ms
  refine ⟨v, o', ho, ?_⟩
  intro pre m post he hl
  obtain ⟨z, hz, hez, hzb⟩ := hint (pre ++ [m]) (fun x hx => hms x (by rw [he]; simp at hx ⊢; tauto))
  have hni := ofNat_int hn'
  have hv' : val (Num.ofNat n : F64) = n := by rw [hni.2]; norm_cast
  have hnp : (1 : ℚ) ≤ n := by exact_mod_cast hn
  have hne : val (Num.ofNat n : F64) ≠ 0 := by rw [hv']; linarith
  have hfin : (div (S (pre ++ [m])) (Num.ofNat n)).isFin = true := by
    have h53 := ofNat_int (n := 2 ^ 53) le_rfl
    have hv53 : val (Num.ofNat (2 ^ 53) : F64) = 2 ^ 53 := by rw [h53.2]; norm_cast
    refine div_fin_of_le hz.1 hni.1 hne h53.1 (by rw [hv53]; norm_num) ?_
    rw [hv53, hz.2, hv', abs_of_pos (by linarith : (0:ℚ) < n)]
    have : |(z : ℚ)| ≤ 2 ^ 53 := by rw [← Int.cast_abs, Int.abs_eq_natAbs, Int.cast_natCast]; exact_mod_cast hzb
    nlinarith
  have := div_rounds hz.1 hni.1 hne hfin
  rw [hz.2, hv', ← hez] at this
  exact this

/-- Concrete cases: integers as required, a running sum, and the mean of 1 and 2, which is 1.5, and of 2 and -7, which is -2.5. -/
example : SmallInts 2 [⟨1, Num.ofNat 1⟩, ⟨2, Num.ofNat 2⟩, ⟨5, (Num.ofNat 7 : F64).neg⟩] := by
  intro m hm
  rcases List.mem_cons.1 hm with rfl | hm
  · exact ⟨1, ofNat_int (n := 1) (by norm_num), by norm_num⟩
  rcases List.mem_cons.1 hm with rfl | hm
  · exact ⟨2, ofNat_int (n := 2) (by norm_num), by norm_num⟩
  rw [List.mem_singleton.1 hm]
  exact ⟨-7, neg_int (ofNat_int (n := 7) (by norm_num)), by norm_num⟩

example : List.Forall₂ IsInt [Num.ofNat 5, (Num.ofNat 7 : F64).neg] [5, -7] ∧ ∀ pre, pre <+: ([5, -7] : List Int) → pre.sum.natAbs ≤ 2 ^ 53 := by
  refine ⟨.cons (ofNat_int (n := 5) (by norm_num)) (.cons (neg_int (ofNat_int (n := 7) (by norm_num))) .nil), ?_⟩
  intro pre h
  have : pre ∈ ([5, -7] : List Int).inits := (List.mem_inits _ _).2 h
  simp at this
  rcases this with rfl | rfl | rfl <;> simp

example : letI := plainPlatform
    bitsOf (feedOp (Op.newMovAvg [] 2 : Op F64) i1 [⟨1, Num.ofNat 1⟩, ⟨2, Num.ofNat 2⟩, ⟨5, (Num.ofNat 7 : F64).neg⟩]) =
      some [(2, 0x3FF8000000000000), (5, 0xC004000000000000)] := by
  decide +kernel

/-! ## C57: windowed statistics depend on the window only -/

theorem answers_append {V : Type} [Num V] (f : List (Msg V) → Msg V → OpMsg V) (ms : List (Msg V)) (m : Msg V) : ∀ pre,
    (answers f pre (ms ++ [m])).getLast? = some (f (pre ++ ms) m) := by
  induction ms with
  | nil => intro pre; simp [answers]
  | cons a ms ih =>
    intro pre
    rw [List.cons_append, answers, List.getLast?_cons, ih]
    simp

theorem windowOnly_of {V : Type} [Num V] {o : Op V} {n : Nat} {f : List (Msg V) → Msg V → OpMsg V} (h : Computes o i1 f)
    (hf : ∀ h h' m, n ≤ h.length + 1 → n ≤ h'.length + 1 → lastN n (h ++ [m]) = lastN n (h' ++ [m]) → f h m = f h' m) : WindowOnly o n := by
  intro pre pre' w hw outs outs' o1' o2' h1 h2 hn
  obtain ⟨_, e1⟩ := h (pre ++ w)
  obtain ⟨_, e2⟩ := h (pre' ++ w)
  rw [h1] at e1
  rw [h2] at e2
  cases e1; cases e2
  rcases List.eq_nil_or_concat w with rfl | ⟨w, m, rfl⟩
  · simp at hw; omega
  · rw [List.concat_eq_append, List.length_append, List.length_singleton] at hw
    rw [List.concat_eq_append, ← List.append_assoc, ← List.append_assoc, answers_append, answers_append]
    congr 1
    refine hf _ _ _ (by simp; omega) (by simp; omega) ?_
    simp only [List.nil_append]
    unfold lastN
    have : ∀ p : List (Msg V), (p ++ w ++ [m]).drop ((p ++ w ++ [m]).length - n) = w ++ [m] := by
      intro p
      rw [List.append_assoc]
      exact List.drop_left' (by simp; omega)
    rw [this, this]

/-- C57 FiniteImpulseResponse: in any arithmetic the answer depends on the last messages only, as many as there are coefficients. -/
theorem C57_fir {V : Type} [Num V] (id : Str) (coeff : List V) (hc : coeff ≠ []) : WindowOnly (Op.newFir id coeff) coeff.length := by
  refine windowOnly_of (C05_fir id coeff hc) ?_
  intro h h' m hl hl' he
  rw [if_neg (by omega), if_neg (by omega)]
  have key : ∀ h : List (Msg V), coeff.length ≤ h.length + 1 →
      List.zipWith (fun x c => x *. c) (values (h ++ [m])).reverse coeff = List.zipWith (fun x c => x *. c) (values (lastN coeff.length (h ++ [m]))).reverse coeff := by
    intro h hl
    have e : (values (h ++ [m])).reverse = (values (lastN coeff.length (h ++ [m]))).reverse ++ (values ((h ++ [m]).take ((h ++ [m]).length - coeff.length))).reverse := by
      rw [← List.reverse_append]
      congr 1
      unfold values lastN
      rw [← List.map_append, List.take_append_drop]
    rw [e, List.zipWith_eq_zipWith_take_min]
    conv_rhs => rw [List.zipWith_eq_zipWith_take_min]
    have hlen : (values (lastN coeff.length (h ++ [m]))).reverse.length = coeff.length := by
      simp [values, length_lastN]; omega
    rw [List.length_append, hlen, Nat.min_eq_right (by omega), Nat.min_self, List.take_append_of_le_length (by omega)]
  rw [key h hl, key h' hl', he]

/-- C57 PeakDetector: in any arithmetic. -/
theorem C57_peakDetector {V : Type} [Num V] (id : Str) (n : Nat) (hn : 0 < n) : WindowOnly (Op.newPeak id n : Op V) n := by
  refine windowOnly_of (C06_peakDetector id n hn) ?_
  intro h h' m hl hl' he
  rw [if_neg (by omega), if_neg (by omega), he]

/-- C57 MovingAverage in exact arithmetic. -/
theorem C57_movingAverage_exact {V : Type} [Num V] [Field V] [LinearOrder V] [Exact V] (id : Str) (n : Nat) (hn : 0 < n) : WindowOnly (Op.newMovAvg id n : Op V) n := by
  refine windowOnly_of (C03_movingAverage id n hn) ?_
  intro h h' m hl hl' he
  rw [if_neg (by omega), if_neg (by omega), he]

omit [Platform] in
/-- C57 fails for MovingAverage with doubles: having seen 2^53, it takes the mean of 1 and 1 to be 0.5, and this error stays for ever (the mean of 1 and 1 is still 0.5 after
further messages 1). -/
theorem C57_violated_movingAverage : letI := plainPlatform
    bitsOf (feedOp (Op.newMovAvg [] 2 : Op F64) i1 [⟨1, Num.ofNat (2 ^ 53)⟩, ⟨2, Num.ofNat 1⟩, ⟨3, Num.ofNat 1⟩, ⟨4, Num.ofNat 1⟩]) =
      some [(2, (Num.ofNat (2 ^ 52) : F64).bits), (3, (Num.half : F64).bits), (4, (Num.half : F64).bits)] ∧
    bitsOf (feedOp (Op.newMovAvg [] 2 : Op F64) i1 [⟨3, Num.ofNat 1⟩, ⟨4, Num.ofNat 1⟩]) = some [(4, (Num.ofNat 1 : F64).bits)] := by
  decide +kernel

omit [Platform] in
/-- C57 fails for StandardDeviation with doubles: having seen 2^53, it takes the deviation of 1 and 1 to be sqrt(0.5) instead of 0. -/
theorem C57_violated_standardDeviation : letI := plainPlatform
    (bitsOf (feedOp (Op.newStdDev [] 2 : Op F64) i1 [⟨1, Num.ofNat (2 ^ 53)⟩, ⟨2, Num.ofNat 1⟩, ⟨3, Num.ofNat 1⟩])).map (·.drop 1) =
      some [(3, (Num.sqrt (Num.half : F64)).bits)] ∧
    bitsOf (feedOp (Op.newStdDev [] 2 : Op F64) i1 [⟨2, Num.ofNat 1⟩, ⟨3, Num.ofNat 1⟩]) = some [(3, (Num.ofNat 0 : F64).bits)] := by
  decide +kernel

/-! ## C59: the range of the relative strength index -/

theorem rsi_emitted {P : F64 → Prop} (id : Str) {n : Nat} (hn : 1 ≤ n) (hlen : n + 1 < 2 ^ 64) (ms : List (Msg F64))
    (hP : ∀ pre m post g l, ms = pre ++ m :: post → rsiState n (m :: pre.reverse) = some (g, l) → P (rsiValue g l)) :
    ∃ outs o', feedOp (Op.newRsi id n : Op F64) i1 ms = .ok outs o' ∧ (emittedOn o1 outs).map (·.time) = (ms.drop n).map (·.time) ∧ ∀ m ∈ emittedOn o1 outs, P m.value := by
  obtain ⟨o', h⟩ := rsi_computes_num (V := F64) id hn hlen ms
  refine ⟨_, o', h, ?_⟩
  have gen : ∀ (ms h : List (Msg F64)), (∀ pre m post g l, ms = pre ++ m :: post → rsiState n (m :: (h ++ pre).reverse) = some (g, l) → P (rsiValue g l)) →
      (emittedOn o1 (answers (rsiAnswer n) h ms)).map (·.time) = (ms.drop (n - h.length)).map (·.time) ∧ ∀ m ∈ emittedOn o1 (answers (rsiAnswer n) h ms), P m.value := by
    intro ms
    induction ms with
    | nil => intro h _; simp [answers, emittedOn]
    | cons x ms ih =>
      intro h hP
      have hP' := ih (h ++ [x]) (fun pre m post g l e => by
        have := hP (x :: pre) m post g l (by rw [e]; rfl)
        simpa using this)
      rw [answers, emittedOn_cons]
      by_cases hl : h.length < n
      · have e : rsiAnswer n h x = [] := by unfold rsiAnswer; rw [rsiState_none (by simp; omega)]
        rw [e]
        have e2 : n - h.length = (n - (h ++ [x]).length) + 1 := by simp; omega
        rw [e2, List.drop_succ_cons]
        simpa [msgsOn] using hP'
      · obtain ⟨g, l, e⟩ := rsiState_some (V := F64) (n := n) (x :: h.reverse) (by simp; omega)
        have e1 : rsiAnswer n h x = [(o1, [⟨x.time, rsiValue g l⟩])] := by unfold rsiAnswer; rw [e]
        have e2 : msgsOn o1 (rsiAnswer n h x) = [⟨x.time, rsiValue g l⟩] := by rw [e1]; simp [msgsOn]
        rw [e2]
        have hn0 : n - h.length = 0 := by omega
        have hn1 : n - (h ++ [x]).length = 0 := by simp; omega
        rw [hn1] at hP'
        rw [hn0]
        refine ⟨?_, ?_⟩
        · rw [List.map_append, hP'.1]; rfl
        · intro m hm
          rcases List.mem_append.1 hm with hm | hm
          · have hx := List.mem_singleton.1 hm
            subst hx
            have hp := hP [] x ms g l (List.nil_append _).symm
            rw [List.append_nil] at hp
            dsimp only
            exact hp e
          · exact hP'.2 m hm
  have := gen ms [] (by simpa using hP)
  simpa using this

/-- C59: whatever doubles it is fed, infinities and NaN included, RelativeStrengthIndex(n), n ≥ 1, answers every message after the first n with one message with its time, and the
value is NaN or lies between 0 and 100. -/
theorem C59_range_partial (id : Str) (n : Nat) (hn : 1 ≤ n) (hlen : n + 1 < 2 ^ 64) (ms : List (Msg F64)) :
    ∃ outs o', feedOp (Op.newRsi id n : Op F64) i1 ms = .ok outs o' ∧ (emittedOn o1 outs).map (·.time) = (ms.drop n).map (·.time) ∧
      ∀ m ∈ emittedOn o1 outs, m.value.isNaN = true ∨ m.value.isFin = true ∧ 0 ≤ val m.value ∧ val m.value ≤ 100 :=
  rsi_emitted id hn hlen ms (fun _ _ _ _ _ _ e => rsiValue_pct (nn_state e))

/-- C59: if the values are finite and of at most 2^1000 in absolute value, and n is at most 2^20, the value always is a number between 0 and 100. -/
theorem C59_range (id : Str) (n : Nat) (hn : 1 ≤ n) (hn' : n ≤ 2 ^ 20) (ms : List (Msg F64)) (hms : ∀ m ∈ ms, m.value.isFin = true ∧ |val m.value| ≤ 2 ^ 1000) :
    ∃ outs o', feedOp (Op.newRsi id n : Op F64) i1 ms = .ok outs o' ∧ (emittedOn o1 outs).map (·.time) = (ms.drop n).map (·.time) ∧
      ∀ m ∈ emittedOn o1 outs, m.value.isFin = true ∧ 0 ≤ val m.value ∧ val m.value ≤ 100 := by
  refine rsi_emitted (P := fun v => v.isFin = true ∧ 0 ≤ val v ∧ val v ≤ 100) id hn (lt_of_le_of_lt (Nat.succ_le_succ hn') (by norm_num)) ms ?_
  intro pre m post g l he e
  have hclose : ∀ xs : List (Msg F64), (∀ x ∈ xs, x ∈ ms) → Close (2 ^ 1001) xs := by
    intro xs
    induction xs with
    | nil => intro _; trivial
    | cons x xs ih =>
      intro hx
      refine ⟨(hms x (hx x (by simp))).1, ih (fun y hy => hx y (by simp [hy])), fun a ha => ?_⟩
      have h1 := (hms x (hx x (by simp))).2
      have h2 := (hms a (hx a (by simp [ha]))).2
      refine le_trans (abs_sub _ _) ?_
      have : (2 : ℚ) ^ 1001 = 2 * 2 ^ 1000 := pow_succ' 2 1000
      rw [this]
      linarith
  have hb := bnd_state (B := 2 ^ 1001) (pow_nonneg (by norm_num) _) hn (le_trans hn' (by norm_num)) (fun k hk => exists_multiple (le_trans hk hn'))
    (hclose (m :: pre.reverse) (fun x hx => by rw [he]; simp at hx ⊢; tauto)) e
  have hnan := rsiValue_not_nan hb.1 hb.2.1
  rcases rsiValue_pct (l := l) (nn_state e) with h | h
  · rw [hnan] at h; cases h
  · exact h

/-- A concrete case: values 5, 7, 6 are as required, and RelativeStrengthIndex(2) emits 66.67 (rounded). -/
example : (∀ m ∈ ([⟨1, Num.ofNat 5⟩] : List (Msg F64)), m.value.isFin = true ∧ |val m.value| ≤ 2 ^ 1000) ∧
    (letI := plainPlatform
     bitsOf (feedOp (Op.newRsi [] 2 : Op F64) i1 [⟨1, Num.ofNat 5⟩, ⟨2, Num.ofNat 7⟩, ⟨3, Num.ofNat 6⟩]) = some [(3, 0x4050AAAAAAAAAAAA)]) := by
  constructor
  · intro m hm
    rw [List.mem_singleton.1 hm]
    have h := ofNat_int (n := 5) (by norm_num)
    refine ⟨h.1, ?_⟩
    rw [h.2]
    have : (2 : ℚ) ^ 3 ≤ 2 ^ 1000 := pow_le_pow_right₀ (by norm_num) (by norm_num)
    refine le_trans ?_ this
    norm_num
  · decide +kernel

omit [Platform] in
/-- C59 fails for finite values: after -1.5e308, 1.5e308, -1.5e308 RelativeStrengthIndex(2) emits NaN. -/
theorem C59_violated : letI := plainPlatform
    bitsOf (feedOp (Op.newRsi [] 2 : Op F64) i1 [⟨1, ⟨0xFFEAB36D48EFABE8⟩⟩, ⟨2, ⟨0x7FEAB36D48EFABE8⟩⟩, ⟨3, ⟨0xFFEAB36D48EFABE8⟩⟩]) = some [(3, 0x7FF8000000000000)] := by
  decide +kernel

end Rtbot
