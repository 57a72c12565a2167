import Verif.Lemmas.CosRes
import Verif.Lemmas.HermRes
import Verif.Lemmas.Numeric

/-! # Properties of the resamplers: C13, C14, C15 -/

namespace Rtbot
open Spec
variable {V : Type} [Num V]

/-- C13: ConstantResampler fed `m0 :: ms` with strictly increasing times and no overflow of time + dt: the messages emitted so far
are exactly one per grid point `m0.time + k*dt`, `k ≥ 1`, up to the time of the last message, in increasing order (see
`mem_gridUpTo`, `gridUpTo_increasing`), each carrying the value of the latest message at or before the grid point. The
unspecified initial member values `junkT`, `junkV` do not matter. -/
theorem C13_constantResampler (id : Str) (dt junkT : UInt64) (junkV : V) (o : Op V)
    (ho : Op.newConstRes id dt junkT junkV = .ok o) (m0 : Msg V) (ms : List (Msg V))
    (hinc : Increasing (m0 :: ms)) (hov : ∀ m ∈ m0 :: ms, m.time.toNat + dt.toNat < 2 ^ 64) :
    ∃ outs o', feedOp o i1 (m0 :: ms) = .ok outs o' ∧
      (emittedOn o1 outs).map (fun m => (m.time.toNat, some m.value)) =
        (gridUpTo m0.time.toNat dt.toNat ((m0 :: ms).getLast (by simp)).time.toNat).map fun g =>
          (g, (latestAt (m0 :: ms) g).map (·.value)) := by
  unfold Op.newConstRes at ho
  split at ho
  · cases ho
  · rename_i hdt
    cases ho
    have hdt' : 0 < dt.toNat := by
      rw [UInt64.le_iff_toNat_le] at hdt
      simpa [Nat.pos_iff_ne_zero] using hdt
    rw [simple1_eq id]
    obtain ⟨outs, o', h1, h2⟩ := feed_window (P := ConstRes.Pre dt) (n := 1) ConstRes.pre_init (by decide) (c := Core.simple id 1) (Num.ofNat 0)
      (fun m : Msg V => (m.time.toNat, some m.value)) (ConstRes.KI dt) (by
        intro h k hk
        unfold ConstRes.KI at hk
        split at hk
        · obtain ⟨_, _, rfl⟩ := hk; rfl
        · obtain ⟨_, _, rfl⟩ := hk; rfl)
      (ConstRes.due dt.toNat) rfl (by intro h m k _ _ hl; omega) (by
        intro h m k s hp hk _
        have : lastN 1 (h ++ [m]) = [m] := by rw [lastN_snoc (by decide)]; simp [lastN]
        rw [this]
        exact ConstRes.step_due hdt' hp hk) (.constRes dt junkT false junkV) ⟨_, _, rfl⟩ (m0 :: ms) ⟨hinc, hov⟩
    refine ⟨outs, o', h1, ?_⟩
    rw [h2]
    unfold ConstRes.due
    rw [List.head?_cons, List.getLast?_eq_some_getLast (by simp)]

/-- A concrete case: dt = 10, messages at 5, 12, 15, 40. -/
example (a b c d : V) :
    (∃ o, Op.newConstRes [65] 10 7 a = .ok o) ∧
    Increasing ([⟨5, a⟩, ⟨12, b⟩, ⟨15, c⟩, ⟨40, d⟩] : List (Msg V)) ∧
    (∀ m ∈ ([⟨5, a⟩, ⟨12, b⟩, ⟨15, c⟩, ⟨40, d⟩] : List (Msg V)), m.time.toNat + (10 : UInt64).toNat < 2 ^ 64) ∧
    gridUpTo 5 10 40 = [15, 25, 35] :=
  ⟨⟨_, rfl⟩, by simp [Increasing], by simp, by decide⟩

/-- C14: CosineResampler with dt > 0 fed `m0 :: ms` with strictly increasing times (no overflow of time + dt; gaps small enough for
the `int` loop counter): the messages emitted so far are exactly one per grid point `m0.time + k*dt`, `k ≥ 1`, up to the time of the
last message, in increasing order, each with the cosine interpolation of the two messages that bracket the grid point (any
arithmetic). -/
theorem C14_cosineResampler (id : Str) (dt : UInt64) (hdt : 0 < dt.toNat) (m0 : Msg V) (ms : List (Msg V))
    (hp : GridPre dt (m0 :: ms)) :
    ∃ outs o', feedOp (Op.newCosRes id dt) i1 (m0 :: ms) = .ok outs o' ∧
      (emittedOn o1 outs).map (fun m => (m.time.toNat, some m.value)) =
        (gridUpTo m0.time.toNat dt.toNat ((m0 :: ms).getLast (by simp)).time.toNat).map fun g => (g, cosineAt (m0 :: ms) g) := by
  unfold Op.newCosRes
  rw [simple_eq_winCore id (by decide)]
  obtain ⟨outs, o', h1, h2⟩ := feed_window (P := GridPre dt) (n := 2) GridPre.init (by decide) (c := Core.simple id 2) (Num.ofNat 0)
    (fun m : Msg V => (m.time.toNat, some m.value)) (CosRes.KI dt) (by rintro h k ⟨_, rfl, _⟩; rfl)
    (CosRes.due dt.toNat) rfl (by
      intro h m k _ hk hl
      have : h = [] := List.eq_nil_of_length_eq_zero (by omega)
      subst this
      obtain ⟨c, rfl, hc⟩ := hk
      refine ⟨⟨c, rfl, ?_⟩, ?_⟩
      · have : c = 0 := hc
        subst this; simp
      · simp [CosRes.due, gridUpTo_self]) (by
      intro h m k s hp hk hl
      exact CosRes.step_due hdt hp hk hl) (.cosRes dt 0) ⟨0, rfl, rfl⟩ (m0 :: ms) hp
  refine ⟨outs, o', h1, ?_⟩
  rw [h2]
  unfold CosRes.due
  rw [List.head?_cons, List.getLast?_eq_some_getLast (by simp)]

/-- C14, bounds (real arithmetic): every message emitted by CosineResampler lies between the values of two received messages that
bracket its time, and equals the later one when their times coincide. -/
theorem C14_bounds (id : Str) (dt : UInt64) (hdt : 0 < dt.toNat) (m0 : Msg ℝ) (ms : List (Msg ℝ)) (hp : GridPre dt (m0 :: ms)) :
    ∃ outs o', feedOp (Op.newCosRes id dt) i1 (m0 :: ms) = .ok outs o' ∧
      ∀ m ∈ emittedOn o1 outs, ∃ a ∈ m0 :: ms, ∃ b ∈ m0 :: ms, a.time < m.time ∧ m.time ≤ b.time ∧
        min a.value b.value ≤ m.value ∧ m.value ≤ max a.value b.value ∧ (m.time = b.time → m.value = b.value) := by
  obtain ⟨outs, o', h1, h2⟩ := C14_cosineResampler id dt hdt m0 ms hp
  refine ⟨outs, o', h1, ?_⟩
  intro m hm
  have h3 : (m.time.toNat, some m.value) ∈ (emittedOn o1 outs).map (fun m => (m.time.toNat, some m.value)) :=
    List.mem_map_of_mem (f := fun m : Msg ℝ => (m.time.toNat, some m.value)) hm
  rw [h2] at h3
  obtain ⟨g, _, hg⟩ := List.mem_map.1 h3
  rw [Prod.mk.injEq] at hg
  obtain ⟨rfl, hv⟩ := hg
  unfold cosineAt at hv
  split at hv
  · rename_i a b ha hb
    have ha' := List.mem_filter.1 (List.mem_of_getLast? ha)
    have hb' := List.mem_filter.1 (List.mem_of_mem_head? hb)
    have hat : a.time.toNat < m.time.toNat := by simpa using ha'.2
    have hbt : m.time.toNat ≤ b.time.toNat := by simpa using hb'.2
    have hval : m.value = cosineBetween a b m.time.toNat := (Option.some.inj hv).symm
    refine ⟨a, ha'.1, b, hb'.1, UInt64.lt_iff_toNat_lt.2 hat, UInt64.le_iff_toNat_le.2 hbt, ?_⟩
    have hform : cosineBetween a b m.time.toNat =
        a.value * (1 - (1 - Real.cos (((m.time.toNat - a.time.toNat : ℕ) : ℝ) / ((b.time.toNat - a.time.toNat : ℕ) : ℝ) * Real.pi)) / 2) +
        b.value * ((1 - Real.cos (((m.time.toNat - a.time.toNat : ℕ) : ℝ) / ((b.time.toNat - a.time.toNat : ℕ) : ℝ) * Real.pi)) / 2) := by
      simp only [cosineBetween, Exact.add_eq, Exact.mul_eq, Exact.sub_eq, Exact.div_eq, Exact.ofNat_eq, Nat.cast_one, Nat.cast_ofNat]
      rfl
    rw [hval]
    refine ⟨?_, ?_, ?_⟩
    · rw [hform]
      have hc1 := Real.cos_le_one (((m.time.toNat - a.time.toNat : ℕ) : ℝ) / ((b.time.toNat - a.time.toNat : ℕ) : ℝ) * Real.pi)
      have hc2 := Real.neg_one_le_cos (((m.time.toNat - a.time.toNat : ℕ) : ℝ) / ((b.time.toNat - a.time.toNat : ℕ) : ℝ) * Real.pi)
      generalize Real.cos _ = x at *
      have h5 := min_le_left a.value b.value
      have h6 := min_le_right a.value b.value
      nlinarith
    · rw [hform]
      have hc1 := Real.cos_le_one (((m.time.toNat - a.time.toNat : ℕ) : ℝ) / ((b.time.toNat - a.time.toNat : ℕ) : ℝ) * Real.pi)
      have hc2 := Real.neg_one_le_cos (((m.time.toNat - a.time.toNat : ℕ) : ℝ) / ((b.time.toNat - a.time.toNat : ℕ) : ℝ) * Real.pi)
      generalize Real.cos _ = x at *
      have h5 := le_max_left a.value b.value
      have h6 := le_max_right a.value b.value
      nlinarith
    · intro ht
      rw [hform, ht]
      have hne : ((b.time.toNat - a.time.toNat : ℕ) : ℝ) ≠ 0 := by
        rw [ht] at hat
        exact Nat.cast_ne_zero.2 (by omega)
      rw [div_self hne, one_mul, Real.cos_pi]
      ring
  · cases hv

/-- A concrete case for C14: dt = 10, messages at 5, 12, 15, 40. -/
example (a b c d : V) :
    GridPre 10 ([⟨5, a⟩, ⟨12, b⟩, ⟨15, c⟩, ⟨40, d⟩] : List (Msg V)) ∧ 0 < (10 : UInt64).toNat ∧
    gridUpTo 5 10 40 = [15, 25, 35] :=
  ⟨⟨by simp [Increasing], by simp, by simp⟩, by decide, by decide⟩

/-- Times of the messages emitted by a run, if the run succeeds. -/
def emittedTimes (r : Res (Op V) (List (OpMsg V))) : Option (List UInt64) :=
  match r with
  | .ok outs _ => some ((emittedOn o1 outs).map (·.time))
  | .err _ _ => none

/-- The failure of a run, if it fails. -/
def failure (r : Res (Op V) (List (OpMsg V))) : Option Err :=
  match r with
  | .ok _ _ => none
  | .err e _ => some e

/-- C15, restricted to sequences whose first gap is at least dt and whose first four times are below 2^30 (exact arithmetic):
HermiteResampler fed at least four messages emits exactly one message per grid point `m0.time + k*dt`, `k ≥ 1`, up to the time of
the last-but-one message, in order; fewer than four messages give no output.
Missing: both restrictions are needed, see `C15_violated_grid` (first gap < dt) and `C15_violated_ub` (large times). -/
theorem C15_hermiteResampler_partial [Field V] [LinearOrder V] [IsStrictOrderedRing V] [Exact V] (id : Str) (dt : UInt64)
    (hdt : 0 < dt.toNat) (h : List (Msg V)) (hp : GridPre dt h)
    (hfirst : ∀ a b, h[0]? = some a → h[1]? = some b → dt.toNat ≤ b.time.toNat - a.time.toNat)
    (hsmall : ∀ m ∈ h.take 4, m.time.toNat < 2 ^ 30) :
    ∃ outs o', feedOp (Op.newHermRes id dt) i1 h = .ok outs o' ∧
      (h.length < 4 → emittedOn o1 outs = []) ∧
      ∀ m0 l, 4 ≤ h.length → h.head? = some m0 → h[h.length - 2]? = some l →
        (emittedOn o1 outs).map (·.time.toNat) = gridUpTo m0.time.toNat dt.toNat l.time.toNat := by
  obtain ⟨outs, o', n, m, t, h1, _, _, h2⟩ := HermRes.run id hdt h ⟨hp, hfirst, hsmall⟩
  refine ⟨outs, o', h1, ?_, ?_⟩
  · intro hl
    unfold HermRes.due at h2
    rw [if_pos hl] at h2
    exact List.map_eq_nil_iff.1 h2
  · intro m0 l hl hm0 hll
    have h3 := congrArg (List.map Prod.fst) h2
    rw [List.map_map] at h3
    unfold HermRes.due HermRes.lastButOne at h3
    rw [if_neg (by omega), hm0, List.getLast?_eq_getElem?, List.length_dropLast, List.getElem?_dropLast] at h3
    rw [if_pos (by omega), show h.length - 1 - 1 = h.length - 2 by omega, hll] at h3
    simp only [List.map_map] at h3
    simpa [Function.comp_def] using h3

/-- C54, under the restrictions of C15 and when the average gap of the first four messages is at most the time of the first (exact
arithmetic): each message emitted by HermiteResampler has the value at its time of the cubic determined by the two messages around it and
their neighbours; before the first message the least-squares line of the first four messages is used, one average gap (rounded down) earlier.
Missing: when the average gap exceeds the first time, see `C54_violated`. -/
theorem C54_hermiteResampler_partial [Field V] [LinearOrder V] [IsStrictOrderedRing V] [Exact V] (id : Str) (dt : UInt64)
    (hdt : 0 < dt.toNat) (h : List (Msg V)) (hp : GridPre dt h)
    (hfirst : ∀ a b, h[0]? = some a → h[1]? = some b → dt.toNat ≤ b.time.toNat - a.time.toNat)
    (hsmall : ∀ m ∈ h.take 4, m.time.toNat < 2 ^ 30)
    (hearly : ∀ a d, h[0]? = some a → h[3]? = some d → (d.time.toNat - a.time.toNat) / 3 ≤ a.time.toNat) :
    ∃ (outs : List (OpMsg V)) (o' : Op V) (n m : V), feedOp (Op.newHermRes id dt) i1 h = .ok outs o' ∧
      (4 ≤ h.length → LeastSquares (h.take 4) n m) ∧
      ∀ a d l, h[0]? = some a → h[3]? = some d → h[h.length - 2]? = some l →
        (emittedOn o1 outs).map (fun x => (x.time.toNat, some x.value)) = (gridUpTo a.time.toNat dt.toNat l.time.toNat).map fun g =>
          (g, hermiteAt (n + m * ((a.time.toNat - (d.time.toNat - a.time.toNat) / 3 : ℕ) : V)) h g) := by
  obtain ⟨outs, o', n, m, t, h1, hls, ht, h2⟩ := HermRes.run id hdt h ⟨hp, hfirst, hsmall⟩
  refine ⟨outs, o', n, m, h1, hls, ?_⟩
  intro a d l ha hd hll
  have hl : 4 ≤ h.length := (List.getElem?_eq_some_iff.1 hd).1
  have hm0 : h.head? = some a := by rw [List.head?_eq_getElem?]; exact ha
  have htn : t.toNat = a.time.toNat - (d.time.toNat - a.time.toNat) / 3 := by
    rw [ht a d ha hd]
    have := hearly a d ha hd
    have := a.time.toNat_lt
    have := d.time.toNat_lt
    rw [UInt64.toNat_sub_of_le, UInt64.toNat_ofNat_of_lt' (show _ < 2 ^ 64 by omega)]
    rw [UInt64.le_iff_toNat_le, UInt64.toNat_ofNat_of_lt' (show _ < 2 ^ 64 by omega)]
    omega
  rw [h2, htn]
  unfold HermRes.due HermRes.lastButOne
  rw [if_neg (by omega), hm0, List.getLast?_eq_getElem?, List.length_dropLast, List.getElem?_dropLast]
  rw [if_pos (by omega), show h.length - 1 - 1 = h.length - 2 by omega, hll]

/-- C54, at the times of received messages (exact arithmetic, restrictions of C15): a message emitted with the time of a received message has
its value. -/
theorem C54_on_time_partial [Field V] [LinearOrder V] [IsStrictOrderedRing V] [Exact V] (id : Str) (dt : UInt64)
    (hdt : 0 < dt.toNat) (h : List (Msg V)) (hp : GridPre dt h)
    (hfirst : ∀ a b, h[0]? = some a → h[1]? = some b → dt.toNat ≤ b.time.toNat - a.time.toNat)
    (hsmall : ∀ m ∈ h.take 4, m.time.toNat < 2 ^ 30) :
    ∃ outs o', feedOp (Op.newHermRes id dt) i1 h = .ok outs o' ∧
      ∀ x ∈ emittedOn o1 outs, ∀ b ∈ h, b.time = x.time → x = b := by
  obtain ⟨outs, o', n, m, t, h1, hls, ht, h2⟩ := HermRes.run id hdt h ⟨hp, hfirst, hsmall⟩
  refine ⟨outs, o', h1, ?_⟩
  intro x hx b hb hbx
  have h3 : (x.time.toNat, some x.value) ∈ (emittedOn o1 outs).map (fun m => (m.time.toNat, some m.value)) :=
    List.mem_map_of_mem (f := fun m : Msg V => (m.time.toNat, some m.value)) hx
  rw [h2] at h3
  have h4 : hermiteAt (n + m * (t.toNat : V)) h x.time.toNat = some x.value := by
    unfold HermRes.due at h3
    split at h3
    · cases h3
    · split at h3
      · obtain ⟨g, _, hg⟩ := List.mem_map.1 h3
        rw [Prod.mk.injEq] at hg
        obtain ⟨rfl, hv⟩ := hg
        exact hv
      · cases h3
  unfold hermiteAt at h4
  simp only [Option.bind_eq_bind, Option.bind_eq_some_iff] at h4
  obtain ⟨a, ha, b', hb', e, he, hv⟩ := h4
  have hat : a.time.toNat < x.time.toNat := by
    have := (List.mem_filter.1 (List.mem_of_getLast? ha)).2
    simpa using this
  have hbb : b' = b := by
    have hm := List.mem_filter.1 (List.mem_of_mem_head? hb')
    have h5 := HermRes.firstFrom_le hp.inc hb (by rw [hbx]) hb'
    have h6 : x.time.toNat ≤ b'.time.toNat := by simpa using hm.2
    exact HermRes.eq_of_time hp.inc hm.1 hb (by rw [← UInt64.toNat_inj]; have := congrArg UInt64.toNat hbx; omega)
  subst hbb
  have hx1 : x.value = b'.value := by
    rw [← Option.some.inj hv, hbx, div_self (Nat.cast_ne_zero.2 (by omega))]
    unfold catmullRom
    ring
  obtain ⟨xt, xv⟩ := x
  obtain ⟨bt, bv⟩ := b'
  simp only at hbx hx1
  rw [hbx, hx1]

/-- Times and values of the messages emitted by a run, if the run succeeds. -/
def emittedMsgs (r : Res (Op V) (List (OpMsg V))) : Option (List (UInt64 × V)) :=
  match r with
  | .ok outs _ => some ((emittedOn o1 outs).map fun m => (m.time, m.value))
  | .err _ _ => none

/-- A concrete case for C54: dt = 3, messages at 10, 13, 17, 20, 30. The average gap of the first four is 10/3, rounded down to 3. -/
example : GridPre 3 ([⟨10, 1⟩, ⟨13, 2⟩, ⟨17, 2⟩, ⟨20, 5⟩, ⟨30, 1⟩] : List (Msg ℚ)) ∧
    LeastSquares ([⟨10, 1⟩, ⟨13, 2⟩, ⟨17, 2⟩, ⟨20, 5⟩] : List (Msg ℚ)) (-155 / 58) (10 / 29) ∧
    emittedMsgs (feedOp (Op.newHermRes [] 3 : Op ℚ) i1 [⟨10, 1⟩, ⟨13, 2⟩, ⟨17, 2⟩, ⟨20, 5⟩, ⟨30, 1⟩]) =
      some [(13, 2), (16, 29 / 16), (19, 119 / 27)] ∧
    hermiteAt (0 : ℚ) [⟨10, 1⟩, ⟨13, 2⟩, ⟨17, 2⟩, ⟨20, 5⟩, ⟨30, 1⟩] 16 = some (29 / 16) :=
  ⟨⟨by simp [Increasing], by simp, by simp⟩, ⟨by decide +kernel, by decide +kernel⟩, by decide +kernel, by decide +kernel⟩

/-- C54 fails when the average gap exceeds the first time: the time before the first message wraps around 2^64. With dt = 5 and the messages
(1, 1), (11, 11), (21, 21), (31, 31), on a straight line, the value emitted at time 6 is -1152921504606846970; with the value of the line one
gap before the first message, -9, it would be 6. -/
theorem C54_violated :
    GridPre 5 ([⟨1, 1⟩, ⟨11, 11⟩, ⟨21, 21⟩, ⟨31, 31⟩] : List (Msg ℚ)) ∧
    LeastSquares ([⟨1, 1⟩, ⟨11, 11⟩, ⟨21, 21⟩, ⟨31, 31⟩] : List (Msg ℚ)) 0 1 ∧
    emittedMsgs (feedOp (Op.newHermRes [] 5 : Op ℚ) i1 [⟨1, 1⟩, ⟨11, 11⟩, ⟨21, 21⟩, ⟨31, 31⟩]) =
      some [(6, -1152921504606846970), (11, 11), (16, 16), (21, 21)] ∧
    hermiteAt (0 + 1 * (1 - 10) : ℚ) [⟨1, 1⟩, ⟨11, 11⟩, ⟨21, 21⟩, ⟨31, 31⟩] 6 = some 6 :=
  ⟨⟨by simp [Increasing], by simp, by simp⟩, ⟨by decide +kernel, by decide +kernel⟩, by decide +kernel, by decide +kernel⟩

/-- A concrete case: dt = 10, messages at 5, 17, 30, 31, 62, 70. -/
example : GridPre 10 ([⟨5, 1⟩, ⟨17, 2⟩, ⟨30, 3⟩, ⟨31, 5⟩, ⟨62, 1⟩, ⟨70, 3⟩] : List (Msg ℚ)) ∧
    (∀ a b, ([⟨5, 1⟩, ⟨17, 2⟩, ⟨30, 3⟩, ⟨31, 5⟩, ⟨62, 1⟩, ⟨70, 3⟩] : List (Msg ℚ))[0]? = some a →
      ([⟨5, 1⟩, ⟨17, 2⟩, ⟨30, 3⟩, ⟨31, 5⟩, ⟨62, 1⟩, ⟨70, 3⟩] : List (Msg ℚ))[1]? = some b → (10 : UInt64).toNat ≤ b.time.toNat - a.time.toNat) ∧
    gridUpTo 5 10 62 = [15, 25, 35, 45, 55] ∧
    emittedTimes (feedOp (Op.newHermRes [] 10 : Op ℚ) i1 [⟨5, 1⟩, ⟨17, 2⟩, ⟨30, 3⟩, ⟨31, 5⟩, ⟨62, 1⟩, ⟨70, 3⟩]) = some [15, 25, 35, 45, 55] := by
  refine ⟨⟨by simp [Increasing], by simp, by simp⟩, ?_, by decide, by decide +kernel⟩
  intro a b ha hb
  simp only [List.getElem?_cons_zero, List.getElem?_cons_succ, Option.some.injEq] at ha hb
  subst ha; subst hb
  decide

/-- C15 fails when the first gap is below dt: with dt = 10 and messages at 0..7 a message with time 6 is emitted although no grid
point 10, 20, … has been reached (the interval [t0, t1] is looked at again on every message until a `before` message exists,
adding its length to the carry each time). -/
theorem C15_violated_grid :
    GridPre 10 ([⟨0, 1⟩, ⟨1, 1⟩, ⟨2, 1⟩, ⟨3, 1⟩, ⟨4, 1⟩, ⟨5, 1⟩, ⟨6, 1⟩, ⟨7, 1⟩] : List (Msg ℚ)) ∧
    emittedTimes (feedOp (Op.newHermRes [] 10 : Op ℚ) i1
      [⟨0, 1⟩, ⟨1, 1⟩, ⟨2, 1⟩, ⟨3, 1⟩, ⟨4, 1⟩, ⟨5, 1⟩, ⟨6, 1⟩, ⟨7, 1⟩]) = some [6] ∧
    gridUpTo 0 10 6 = [] :=
  ⟨⟨by simp [Increasing], by simp, by simp⟩, by decide +kernel, by decide⟩

/-- C15 fails for millisecond timestamps: the least-squares sums are converted from `double` to `uint64_t` out of range, which is
undefined behaviour. -/
theorem C15_violated_ub :
    GridPre 1000 ([⟨1600000000000, 1⟩, ⟨1600000001000, 2⟩, ⟨1600000002000, 3⟩, ⟨1600000003000, 3⟩] : List (Msg ℚ)) ∧
    failure (feedOp (Op.newHermRes [] 1000 : Op ℚ) i1
      [⟨1600000000000, 1⟩, ⟨1600000001000, 2⟩, ⟨1600000002000, 3⟩, ⟨1600000003000, 3⟩]) = some (.ub .badConversion) :=
  ⟨⟨by simp [Increasing], by simp, by simp⟩, by decide +kernel⟩

end Rtbot
