import Verif.Lemmas.Numeric

/-! # Properties of the sliding window operators: C03, C04, C05, C06, C07 -/

namespace Rtbot
open Spec

/-! ## C03 -/

/-- C03: MovingAverage(n) is silent for the first n-1 messages, then emits for each message one message with its time and the
arithmetic mean of the last n values; in exact arithmetic the running sum never drifts. -/
theorem C03_movingAverage {V : Type} [Num V] [Field V] [LinearOrder V] [Exact V] (id : Str) (n : Nat) (hn : 0 < n) :
    Computes (Op.newMovAvg id n : Op V) i1 fun h m =>
      if h.length + 1 < n then [] else [(o1, [⟨m.time, mean (values (lastN n (h ++ [m])))⟩])] := by
  unfold Op.newMovAvg
  rw [simple_eq_winCore id hn]
  apply computes_exact hn _ _ rfl
  · intro h m hl; simp [hl]
  · intro h m hl
    rw [if_neg (by omega)]
    simp only [Op.process, procMovAvg, solePort_run, bind_ok, dataPort_run, dataLast_run, single]
    simp [mean, values, Exact.div_eq, Exact.ofNat_eq, ← lastN_snoc hn]

example : (0 : Nat) < 3 := by decide

example : (match feedOp (Op.newMovAvg [] 2 : Op ℚ) i1 [⟨1, 1⟩, ⟨2, 3⟩, ⟨5, 7⟩] with
    | .ok outs _ => outs
    | .err _ _ => []) = [[], [(o1, [⟨2, 2⟩])], [(o1, [⟨5, 5⟩])]] := by decide +kernel

/-! ## C04 -/

/-- C04: StandardDeviation(n), n ≥ 2, is silent for the first n-1 messages, then emits for each message one message with its
time and the sample standard deviation of the last n values (real arithmetic). -/
theorem C04_standardDeviation (id : Str) (n : Nat) (hn : 2 ≤ n) (hn' : n < 2 ^ 64) :
    Computes (Op.newStdDev id n : Op ℝ) i1 fun h m =>
      if h.length + 1 < n then [] else [(o1, [⟨m.time, sampleStdDev (values (lastN n (h ++ [m])))⟩])] := by
  have hn0 : 0 < n := by omega
  unfold Op.newStdDev
  rw [simple_eq_winCore id hn0]
  apply computes_exact hn0 _ _ rfl
  · intro h m hl; simp [hl]
  · intro h m hl
    rw [if_neg (by omega)]
    simp only [Op.process, procStdDev, solePort_run, bind_ok, dataPort_run, dataLast_run, single]
    rw [← lastN_snoc hn0]
    have hlen : (lastN n (h ++ [m])).length = n := by rw [length_lastN]; simp; omega
    have hsub : subSize n 1 = n - 1 := by unfold subSize; omega
    rw [foldl_exact (fun x : Msg ℝ => Num.pow (x.value -. ((values (lastN n (h ++ [m]))).sum /. Num.ofNat (lastN n (h ++ [m])).length)) (Num.ofNat 2))]
    rw [hlen, hsub]
    have hc : ((n - 1 : ℕ) : ℝ) = (n : ℝ) - 1 := by rw [Nat.cast_sub (by omega)]; simp
    have hl' : (values (lastN n (h ++ [m]))).length = n := by simp [values, hlen]
    have hv : Num.sqrt ((Num.ofNat 0 + ((lastN n (h ++ [m])).map fun x : Msg ℝ =>
        Num.pow (x.value -. ((values (lastN n (h ++ [m]))).sum /. Num.ofNat n)) (Num.ofNat 2)).sum) /. Num.ofNat (n - 1)) =
        sampleStdDev (values (lastN n (h ++ [m]))) := by
      unfold sampleStdDev
      rw [hl', ← hc]
      simp only [Exact.pow_two]
      simp only [Exact.div_eq, Exact.sub_eq, Exact.ofNat_eq, mean, hl', Nat.cast_zero, zero_add]
      show Real.sqrt _ = Real.sqrt _
      simp only [values, List.map_map, Function.comp_def, sq]
    rw [hv]

example : (2 : Nat) ≤ 3 ∧ 3 < 2 ^ 64 := by decide

/-! ## C05 -/

/-- C05: FiniteImpulseResponse with coefficients c0..c(N-1), N > 0, is silent for the first N-1 messages; then each message
yields one message with its time and the sum of `x_(k-i) * c_i`, newest sample times c0 first, added in that order (any
arithmetic). -/
theorem C05_fir {V : Type} [Num V] (id : Str) (coeff : List V) (hc : coeff ≠ []) :
    Computes (Op.newFir id coeff) i1 fun h m =>
      if h.length + 1 < coeff.length then []
      else [(o1, [⟨m.time, (List.zipWith (fun x c => x *. c) (values (h ++ [m])).reverse coeff).foldl Num.add (Num.ofNat 0)⟩])] := by
  have hn : 0 < coeff.length := List.length_pos_iff.2 hc
  unfold Op.newFir
  rw [simple_eq_winCore id hn]
  apply computes_stateless hn _ _ _ rfl
  · intro h m hl; simp [hl]
  · intro h m s hl
    rw [if_neg (by omega)]
    have key : ∀ (w : List (Msg V)) (cs : List V) (acc : V), w.length = cs.length →
        firLoop acc w cs = .ok ((List.zipWith (fun x c => x *. c) (values w) cs).foldl Num.add acc) := by
      intro w
      induction w with
      | nil => intro cs acc hl; cases cs with
        | nil => rfl
        | cons _ _ => simp at hl
      | cons x w ih => intro cs acc hl; cases cs with
        | nil => simp at hl
        | cons c cs =>
          simp only [firLoop]
          rw [ih cs _ (by simpa using hl)]
          simp [values]
    have hlen : (lastN coeff.length (h ++ [m])).reverse.length = coeff.length := by
      rw [List.length_reverse, length_lastN]; simp; omega
    have hz : List.zipWith (fun x c => x *. c) (values (lastN coeff.length (h ++ [m])).reverse) coeff =
        List.zipWith (fun x c => x *. c) (values (h ++ [m])).reverse coeff := by
      have : (values (lastN coeff.length (h ++ [m])).reverse) = ((values (h ++ [m])).reverse).take coeff.length := by
        unfold lastN values
        rw [List.map_reverse, List.map_drop, List.reverse_drop, List.length_map]
        congr 1
        simp only [List.length_append, List.length_singleton]
        omega
      rw [this]
      apply List.ext_getElem
      · simp [min_comm]
      · intro i h1 h2; simp
    simp only [Op.process, procFir, solePort_run, bind_ok, dataPort_run, single, ← lastN_snoc hn]
    rw [key _ _ _ hlen, hz]
    have hd : Core.dataLast (runCore (Core.simple id coeff.length) coeff.length s (lastN coeff.length (h ++ [m]))) i1 = .ok m := by
      rw [lastN_snoc hn]; simp
    rw [hd]
    rfl

/-- C05 in exact arithmetic: the convolution sum. -/
theorem C05_fir_exact {V : Type} [Num V] [Field V] [LinearOrder V] [Exact V] (id : Str) (coeff : List V) (hc : coeff ≠ []) :
    Computes (Op.newFir id coeff) i1 fun h m =>
      if h.length + 1 < coeff.length then []
      else [(o1, [⟨m.time, (List.zipWith (fun x c => c * x) (values (h ++ [m])).reverse coeff).sum⟩])] := by
  have := C05_fir id coeff hc
  simpa [foldl_add_exact, Exact.ofNat_eq, Exact.mul_eq, mul_comm] using this

example : ([1, -1] : List ℚ) ≠ [] := by decide

/-! ## C06 -/

/-- C06: PeakDetector(n), n > 0: for each full window of the last n messages, the unmodified message at position n/2 iff no
message of the window has a strictly larger value; nothing otherwise. -/
theorem C06_peakDetector {V : Type} [Num V] (id : Str) (n : Nat) (hn : 0 < n) :
    Computes (Op.newPeak id n : Op V) i1 fun h m =>
      if h.length + 1 < n then []
      else match (lastN n (h ++ [m]))[n / 2]? with
        | some mid => if ∀ x ∈ lastN n (h ++ [m]), Num.lt mid.value x.value = false then [(o1, [mid])] else []
        | none => [] := by
  unfold Op.newPeak
  rw [simple_eq_winCore id hn]
  apply computes_stateless hn _ _ _ rfl
  · intro h m hl; simp [hl]
  · intro h m s hl
    rw [if_neg (by omega)]
    simp only [Op.process, procPeak, solePort_run, bind_ok, dataPort_run, ← lastN_snoc hn]
    have hlen : (lastN n (h ++ [m])).length = n := by rw [length_lastN]; simp; omega
    have hlt : n / 2 < (lastN n (h ++ [m])).length := by rw [hlen]; omega
    have hget := List.getElem?_eq_getElem hlt
    rw [hlen, dataMsg_run _ _ _ _ _ _ hget, hget]
    simp only [bind_ok, single]
    congr 2
    by_cases hx : ∀ x ∈ lastN n (h ++ [m]), Num.lt ((lastN n (h ++ [m]))[n / 2]'hlt).value x.value = false
    · rw [if_pos hx, if_neg]
      simp only [List.any_eq_true, not_exists, not_and, Bool.not_eq_true]
      exact hx
    · rw [if_neg hx, if_pos]
      simp only [List.any_eq_true]
      by_contra hne
      apply hx
      intro x hx'
      by_contra h2
      exact hne ⟨x, hx', by simpa using h2⟩

example : (match feedOp (Op.newPeak [] 3 : Op ℚ) i1 [⟨1, 1⟩, ⟨2, 3⟩, ⟨5, 2⟩, ⟨6, 9⟩] with
    | .ok outs _ => outs
    | .err _ _ => []) = [[], [], [(o1, [⟨2, 3⟩])], []] := by decide +kernel

/-! ## C07 -/

/-- C07: Difference, as built from a program (`useOldestTime = true`), is silent on the first message and then emits for each
message one message with its time and the value newer minus older. The hypothesis says that the timestamps survive the
conversion to double and back that the code performs (true below 2^53 for IEEE doubles, and always in exact arithmetic). -/
theorem C07_difference {V : Type} [Num V] (id : Str) :
    ComputesOn (fun ms => ∀ m ∈ ms, Num.toTime (ofTime m.time : V) = some m.time) (Op.newDifference id true : Op V) i1 fun h m =>
      match h.getLast? with
      | none => []
      | some older => [(o1, [⟨m.time, m.value -. older.value⟩])] := by
  unfold Op.newDifference
  rw [simple_eq_winCore id (by decide)]
  refine computesOn_window' (fun h m hp x hx => hp x (by simp [hx])) (by decide) _ (fun _ => .difference true) _ (fun _ => rfl) ?_ ?_
  · intro h m hl
    have : h = [] := List.eq_nil_of_length_eq_zero (by omega)
    subst this; exact ⟨rfl, rfl⟩
  · intro h m s hp hl
    rcases List.eq_nil_or_concat h with rfl | ⟨l, a, rfl⟩
    · simp at hl
    · rw [List.concat_eq_append] at *
      have hw : lastN 2 (l ++ [a] ++ [m]) = [a, m] := by
        rw [lastN_snoc (by decide), lastN_snoc (by decide)]
        simp [lastN]
      rw [runCore_eq, hw]
      simp only [Op.process, procDifference, solePort_run, bind_ok]
      rw [dataMsg_run _ _ _ _ 1 m rfl, dataMsg_run _ _ _ _ 0 a rfl]
      simp [toTimeE, hp m (by simp), single]

/-- C07 in exact arithmetic, without any hypothesis on the messages. -/
theorem C07_difference_exact {V : Type} [Num V] [Field V] [LinearOrder V] [IsStrictOrderedRing V] [Exact V] (id : Str) :
    Computes (Op.newDifference id true : Op V) i1 fun h m =>
      match h.getLast? with
      | none => []
      | some older => [(o1, [⟨m.time, m.value - older.value⟩])] := by
  intro ms
  have h := C07_difference (V := V) id ms (by
    intro m _
    apply Exact.toTime_eq
    · rw [ofTime, Exact.ofNat_eq]
    · rw [ofTime, Exact.ofNat_eq]; exact lt_add_one _)
  simpa only [Exact.sub_eq] using h

example : ∀ m ∈ ([⟨1, 4⟩, ⟨7, 5⟩] : List (Msg ℚ)), Num.toTime (ofTime m.time : ℚ) = some m.time := by decide

end Rtbot
