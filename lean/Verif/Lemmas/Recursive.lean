import Verif.Spec.Recursive
import Verif.Lemmas.Numeric
import Verif.Lemmas.Feed

/-! # AutoRegressive and RelativeStrengthIndex -/

set_option linter.unusedSectionVars false
set_option linter.unnecessarySeqFocus false

namespace Rtbot
open Spec
variable {V : Type} [Num V] [Field V] [LinearOrder V] [Exact V]

theorem arLoop_exact : ∀ (ps : List (Msg V)) (cs : List V) (acc : V) (rest : List (Msg V)), ps.length = cs.length →
    arLoop cs.length acc (ps ++ rest) cs = .ok (acc + (List.zipWith (· * ·) cs (values ps)).sum) := by
  intro ps cs
  induction cs generalizing ps with
  | nil =>
    intro acc rest h
    simp [arLoop]
  | cons c cs ih =>
    intro acc rest h
    cases ps with
    | nil => simp at h
    | cons p ps =>
      simp only [List.length_cons, Nat.add_right_cancel_iff] at h
      simp only [List.length_cons, List.cons_append, arLoop]
      rw [ih ps _ rest h, Exact.add_eq, Exact.mul_eq]
      simp [values, add_assoc]

theorem arSum_eq {cs ys ps : List V} (hps : ps.reverse = (ys ++ List.replicate cs.length 0).take cs.length) :
    (List.zipWith (· * ·) cs ps).sum = (List.zipWith (· * ·) cs.reverse (ys ++ List.replicate cs.reverse.length 0)).sum := by
  have hl : ps.length = cs.length := by
    have := congrArg List.length hps
    simpa using this
  have h1 : List.zipWith (· * ·) cs.reverse (ys ++ List.replicate cs.reverse.length 0) =
      List.zipWith (· * ·) cs.reverse ps.reverse := by
    rw [hps, List.length_reverse, List.zipWith_eq_zipWith_take_min]
    have : (cs.reverse).take cs.length = cs.reverse := List.take_of_length_le (by simp)
    simp [this]
  rw [h1, ← List.reverse_zipWith hl.symm, List.sum_reverse]

/-- State of AutoRegressive whose previous outputs are `ys`, most recent first. -/
def ARState (id : Str) (cs : List V) (ys : List V) (o : Op V) : Prop :=
  ∃ d s, o = ⟨{ (Core.simple id cs.length : Core V) with dataIn := [(i1, { id := i1, max := cs.length, sum := s, data := d })] }, .autoReg cs⟩ ∧
    d.length ≤ cs.length ∧
    (values (d ++ List.replicate (cs.length - d.length) Msg.zero)).reverse = (ys ++ List.replicate cs.length 0).take cs.length

theorem ar_step {id : Str} {cs ys : List V} (hcs : cs ≠ []) (hlen : cs.length < 2 ^ 64 - 1) {o : Op V} (ho : ARState id cs ys o) (m : Msg V) :
    ∃ o', step o i1 m = .ok [(o1, [⟨m.time, arNext cs.reverse ys m.value⟩])] o' ∧ ARState id cs (arNext cs.reverse ys m.value :: ys) o' := by
  obtain ⟨d, s, rfl, hd, hv⟩ := ho
  have hpos : 0 < cs.length := List.length_pos_iff.2 hcs
  generalize hps : d ++ List.replicate (cs.length - d.length) (Msg.zero : Msg V) = ps at hv
  have hpl : ps.length = cs.length := by rw [← hps]; simp; omega
  have hrec : Op.recvData ⟨{ (Core.simple id cs.length : Core V) with dataIn := [(i1, { id := i1, max := cs.length, sum := s, data := d })] }, .autoReg cs⟩ m i1
      = .ok ⟨{ (Core.simple id cs.length : Core V) with dataIn := [(i1, { id := i1, max := cs.length, sum := s, data := ps ++ [m] })] }, .autoReg cs⟩ := by
    have hne : i1 ≠ [] := by decide
    have hmax : ¬ (cs.length = sizeMax ∧ d.length < cs.length) := by unfold sizeMax; omega
    simp [Op.recvData, Core.receiveDataAR, Core.resolveData, hne, hmax, Map.put, hps]
  have hloop := arLoop_exact ps cs m.value [m] hpl
  have hval : m.value + (List.zipWith (· * ·) cs (values ps)).sum = arNext cs.reverse ys m.value := by
    unfold arNext
    rw [arSum_eq hv]
  rw [hval] at hloop
  cases ps with
  | nil => simp at hpl; omega
  | cons p0 t =>
    refine ⟨⟨{ (Core.simple id cs.length : Core V) with dataIn := [(i1, { id := i1, max := cs.length, sum := s, data := t ++ [⟨m.time, arNext cs.reverse ys m.value⟩] })] }, .autoReg cs⟩, ?_, ?_⟩
    · unfold step
      rw [hrec]
      simp only [Op.execData, Op.execAR, List.getLast?_append, List.getLast?_singleton, Option.some_or, hloop]
      simp only [List.cons_append, List.tail_cons, List.dropLast_concat]
      cases t <;> simp [single]
    · refine ⟨_, s, rfl, le_of_eq (by simpa using hpl), ?_⟩
      have ht : t.length + 1 = cs.length := by simpa using hpl
      have h0 : cs.length - (t ++ [(⟨m.time, arNext cs.reverse ys m.value⟩ : Msg V)]).length = 0 := by
        rw [List.length_append, List.length_singleton]; omega
      rw [h0]
      simp only [values, List.map_append, List.map_cons, List.map_nil, List.replicate_zero, List.append_nil, List.reverse_append,
        List.reverse_cons, List.reverse_nil, List.nil_append, List.cons_append] at hv ⊢
      obtain ⟨k, hk⟩ : ∃ k, cs.length = k + 1 := ⟨t.length, ht.symm⟩
      generalize hL : ys ++ List.replicate cs.length (0 : V) = L at hv ⊢
      rw [hk, List.take_succ_cons]
      congr 1
      have h1 : (List.map (·.value) t).reverse = (List.take cs.length L).dropLast := by rw [← hv]; simp
      have hLl : cs.length ≤ L.length := by rw [← hL, List.length_append, List.length_replicate]; omega
      rw [h1, List.dropLast_eq_take, List.length_take, List.take_take]
      congr 1; omega

theorem ar_feed {id : Str} {cs : List V} (hcs : cs ≠ []) (hlen : cs.length < 2 ^ 64 - 1) (ms : List (Msg V)) :
    ∀ (ys : List V) (o : Op V), ARState id cs ys o →
    ∃ o', feedOp o i1 ms = .ok (List.zipWith (fun m y => [(o1, [⟨m.time, y⟩])]) ms (arOutputs cs.reverse ys (values ms))) o' := by
  induction ms with
  | nil => intro ys o _; exact ⟨o, rfl⟩
  | cons m ms ih =>
    intro ys o ho
    obtain ⟨o', h1, h2⟩ := ar_step hcs hlen ho m
    obtain ⟨o'', h3⟩ := ih _ o' h2
    refine ⟨o'', ?_⟩
    simp only [feedOp, h1, h3]
    simp [values, arOutputs]

theorem ar_init (id : Str) {cs : List V} (hcs : cs ≠ []) : ARState id cs [] (Op.newAutoReg id cs) := by
  have hpos : 0 < cs.length := List.length_pos_iff.2 hcs
  refine ⟨[], Num.ofNat 0, ?_, by simp, ?_⟩
  · unfold Op.newAutoReg Core.simple Inp.new
    rw [if_neg (by omega)]
  · simp [values, Msg.zero, Exact.ofNat_eq]


/-! ## Relative strength index -/

section rsi
variable [IsStrictOrderedRing V]

theorem diffs_cons2 (a b : V) (l : List V) : diffs (a :: b :: l) = (b - a) :: diffs (b :: l) := by simp [diffs]

theorem length_diffs (l : List V) : (diffs l).length = l.length - 1 := by simp [diffs]

theorem diffs_snoc (l : List V) (a b : V) : diffs (l ++ [a] ++ [b]) = diffs (l ++ [a]) ++ [b - a] := by
  induction l with
  | nil => simp [diffs]
  | cons x l ih =>
    cases l with
    | nil => simp [diffs]
    | cons y l =>
      simp only [List.cons_append] at ih ⊢
      rw [diffs_cons2, diffs_cons2, ih]
      simp

theorem gains_snoc (l : List V) (a b : V) : gains (l ++ [a] ++ [b]) = gains (l ++ [a]) ++ [max (b - a) 0] := by
  simp only [gains, diffs_snoc]; simp

theorem losses_snoc (l : List V) (a b : V) : losses (l ++ [a] ++ [b]) = losses (l ++ [a]) ++ [max (-(b - a)) 0] := by
  simp only [losses, diffs_snoc]; simp

theorem wilder_snoc {n : Nat} {ds : List V} (d : V) (hn : n ≤ ds.length) :
    wilder n (ds ++ [d]) = (wilder n ds * ((n : V) - 1) + d) / (n : V) := by
  unfold wilder
  rw [List.take_append_of_le_length hn, List.drop_append_of_le_length hn, List.foldl_append]
  rfl

/-- Gain and loss of one difference as the code computes them. -/
theorem rsi_branch (d : V) :
    (if Num.lt (Num.ofNat 0) d then (d, (Num.ofNat 0 : V)) else if Num.lt d (Num.ofNat 0) then ((Num.ofNat 0 : V), Num.neg d)
      else ((Num.ofNat 0 : V), (Num.ofNat 0 : V))) = (max d 0, max (-d) 0) := by
  simp only [Exact.lt_iff, Exact.ofNat_eq, Nat.cast_zero, Exact.neg_eq]
  rcases lt_trichotomy d 0 with h | h | h
  · rw [if_neg (not_lt.2 h.le), if_pos h, max_eq_right h.le, max_eq_left (by linarith)]
  · subst h; simp
  · rw [if_pos h, max_eq_left h.le, max_eq_right (by linarith)]

theorem rsiSums_exact (s : V × V) (ms : List (Msg V)) :
    rsiSums s ms = (s.1 + (gains (values ms)).sum, s.2 + (losses (values ms)).sum) := by
  induction ms generalizing s with
  | nil => simp [rsiSums, gains, losses, diffs, values]
  | cons a ms ih =>
    cases ms with
    | nil => simp [rsiSums, gains, losses, diffs, values]
    | cons b ms =>
      rw [rsiSums, ih]
      simp only [values, List.map_cons, gains, losses, diffs_cons2, List.sum_cons, Exact.lt_iff, Exact.ofNat_eq, Nat.cast_zero,
        Exact.sub_eq, Exact.add_eq]
      rcases lt_trichotomy (b.value - a.value) 0 with h | h | h
      · rw [if_neg (not_lt.2 h.le), if_pos h, max_eq_right h.le, max_eq_left (by linarith)]
        ext <;> simp <;> ring
      · rw [h]; simp
      · rw [if_pos h, max_eq_left h.le, max_eq_right (by linarith)]
        ext <;> simp <;> ring

theorem foldl_wilder_nonneg {n : Nat} (hn : 1 ≤ n) (ds : List V) (a : V) (ha : 0 ≤ a) (hd : ∀ d ∈ ds, 0 ≤ d) :
    0 ≤ ds.foldl (fun avg d => (avg * ((n : V) - 1) + d) / (n : V)) a := by
  induction ds generalizing a with
  | nil => exact ha
  | cons d ds ih =>
    rw [List.foldl_cons]
    apply ih _ _ (fun x hx => hd x (List.mem_cons_of_mem _ hx))
    have h1 : (1 : V) ≤ n := by exact_mod_cast hn
    have h2 := hd d (by simp)
    exact div_nonneg (add_nonneg (mul_nonneg ha (by linarith)) h2) (by linarith)

theorem wilder_nonneg {n : Nat} (hn : 1 ≤ n) (ds : List V) (hd : ∀ d ∈ ds, 0 ≤ d) : 0 ≤ wilder n ds := by
  unfold wilder
  apply foldl_wilder_nonneg hn
  · unfold mean
    apply div_nonneg
    · exact List.sum_nonneg fun x hx => hd x (List.mem_of_mem_take hx)
    · exact Nat.cast_nonneg _
  · exact fun x hx => hd x (List.mem_of_mem_drop hx)

theorem gains_nonneg (xs : List V) : ∀ d ∈ gains xs, 0 ≤ d := by
  intro d hd
  obtain ⟨x, _, rfl⟩ := List.mem_map.1 hd
  exact le_max_right _ _

theorem losses_nonneg (xs : List V) : ∀ d ∈ losses xs, 0 ≤ d := by
  intro d hd
  obtain ⟨x, _, rfl⟩ := List.mem_map.1 hd
  exact le_max_right _ _

theorem rsiValue_exact {n : Nat} (hn : 1 ≤ n) (xs : List V) :
    rsiValue (wilder n (gains xs)) (wilder n (losses xs)) = rsiOf n xs := by
  unfold rsiValue rsiOf
  simp only [Exact.lt_iff, Exact.ofNat_eq, Nat.cast_zero, Exact.sub_eq, Exact.div_eq, Exact.add_eq, Nat.cast_one, Nat.cast_ofNat]
  have := wilder_nonneg hn _ (losses_nonneg xs)
  by_cases h : wilder n (losses xs) = 0
  · rw [if_pos h, h, if_neg (lt_irrefl _)]
  · rw [if_neg h, if_pos (lt_of_le_of_ne this (Ne.symm h))]

theorem rsiOf_range {n : Nat} (hn : 1 ≤ n) (xs : List V) : 0 ≤ rsiOf n xs ∧ rsiOf n xs ≤ 100 := by
  unfold rsiOf
  have h1 := wilder_nonneg hn _ (losses_nonneg xs)
  have h2 := wilder_nonneg hn _ (gains_nonneg xs)
  split
  · constructor <;> norm_num
  · have h3 : 0 ≤ wilder n (gains xs) / wilder n (losses xs) := div_nonneg h2 h1
    have h4 : (100 : V) / (1 + wilder n (gains xs) / wilder n (losses xs)) ≤ 100 := by
      rw [div_le_iff₀ (by linarith)]
      nlinarith
    have h5 : (0 : V) ≤ 100 / (1 + wilder n (gains xs) / wilder n (losses xs)) := div_nonneg (by norm_num) (by linarith)
    constructor <;> linarith

/-- The averages after a history. -/
def rsiK (n : Nat) (h : List (Msg V)) : Kind V :=
  .rsi (if h.length ≤ n then none else some (wilder n (gains (values h)), wilder n (losses (values h))))

theorem subSize_eq {a b : Nat} (h : b ≤ a) (ha : a < 2 ^ 64) : subSize a b = a - b := by
  unfold subSize
  rw [Nat.mod_eq_of_lt (show b < 2 ^ 64 by omega)]
  omega

theorem rsi_process {c : Core V} {n : Nat} (hn : 1 ≤ n) (hlen : n + 1 < 2 ^ 64) (h : List (Msg V)) (m : Msg V) (s : V)
    (hl : n + 1 ≤ h.length + 1) :
    Op.process ⟨runCore c (n + 1) s (lastN n h ++ [m]), rsiK n h⟩ =
      .ok ([(o1, [⟨m.time, rsiOf n (values (h ++ [m]))⟩])], rsiK n (h ++ [m])) := by
  have hwl : (lastN n h ++ [m]).length = n + 1 := by rw [List.length_append, length_lastN]; simp; omega
  have hK : rsiK n (h ++ [m]) = .rsi (some (wilder n (gains (values (h ++ [m]))), wilder n (losses (values (h ++ [m]))))) := by
    unfold rsiK; rw [if_neg (by simp; omega)]
  rw [hK]
  have s1 : subSize (lastN n h ++ [m]).length 1 = n := by rw [hwl, subSize_eq (by omega) hlen]; rfl
  have s2 : subSize (lastN n h ++ [m]).length 2 = n - 1 := by rw [hwl, subSize_eq (by omega) hlen]; omega
  have hn1 : ((n - 1 : ℕ) : V) = (n : V) - 1 := by rw [Nat.cast_sub hn]; simp
  by_cases he : h.length = n
  · have hK0 : rsiK n h = .rsi none := by unfold rsiK; rw [if_pos (by omega)]
    have hw : lastN n h = h := lastN_of_le (by omega)
    rw [hK0]
    simp only [Op.process, procRsi, solePort_run, dataPort_run, bind_ok, dataLast_run, s1]
    rw [hw, rsiSums_exact]
    have hg : ∀ ds : List V, ds.length = n → ds.sum / (n : V) = wilder n ds := by
      intro ds hds
      unfold wilder mean
      rw [List.take_of_length_le (by omega), List.drop_of_length_le (by omega)]
      simp [hds]
    simp only [Exact.div_eq, Exact.ofNat_eq, Nat.cast_zero, zero_add]
    rw [hg _ (by simp [gains, length_diffs, values, he]), hg _ (by simp [losses, length_diffs, values, he]), rsiValue_exact hn]
    rfl
  · have hK0 : rsiK n h = .rsi (some (wilder n (gains (values h)), wilder n (losses (values h)))) := by
      unfold rsiK; rw [if_neg (by omega)]
    rw [hK0]
    rcases List.eq_nil_or_concat h with rfl | ⟨l, a, rfl⟩
    · simp at hl; omega
    rw [List.concat_eq_append] at *
    have hwl' : (lastN n (l ++ [a])).length = n := by rw [length_lastN]; omega
    have hb : (lastN n (l ++ [a]) ++ [m])[n]? = some m := by
      rw [List.getElem?_append_right (by omega)]; simp [hwl']
    have ha : (lastN n (l ++ [a]) ++ [m])[n - 1]? = some a := by
      rw [List.getElem?_append_left (by omega)]
      have := getLast?_lastN (h := l ++ [a]) (n := n) (by omega)
      rw [List.getLast?_eq_getElem?, hwl'] at this
      rw [this]; simp
    simp only [Op.process, procRsi, solePort_run, dataPort_run, bind_ok, dataLast_run, s1, s2]
    rw [dataMsg_run _ _ _ _ _ m hb, bind_ok, dataMsg_run _ _ _ _ _ a ha]
    simp only [bind_ok, rsi_branch]
    have hvs : values (l ++ [a] ++ [m]) = values l ++ [a.value] ++ [m.value] := by simp [values]
    have hgn : wilder n (gains (values (l ++ [a] ++ [m]))) =
        (wilder n (gains (values (l ++ [a]))) * ((n : V) - 1) + max (m.value - a.value) 0) / n := by
      rw [hvs, gains_snoc, wilder_snoc]
      · simp [values]
      · simp [gains, length_diffs, values] at *; omega
    have hln : wilder n (losses (values (l ++ [a] ++ [m]))) =
        (wilder n (losses (values (l ++ [a]))) * ((n : V) - 1) + max (-(m.value - a.value)) 0) / n := by
      rw [hvs, losses_snoc, wilder_snoc]
      · simp [values]
      · simp [losses, length_diffs, values] at *; omega
    simp only [Exact.div_eq, Exact.add_eq, Exact.mul_eq, Exact.ofNat_eq, Exact.sub_eq, hn1]
    rw [← hgn, ← hln, rsiValue_exact hn]
    rfl

theorem rsi_computes (id : Str) {n : Nat} (hn : 1 ≤ n) (hlen : n + 1 < 2 ^ 64) :
    Computes (Op.newRsi id n : Op V) i1
      (fun h m => if h.length < n then [] else [(o1, [⟨m.time, rsiOf n (values (h ++ [m]))⟩])]) := by
  unfold Op.newRsi
  rw [Nat.mod_eq_of_lt hlen, simple_eq_winCore id (by omega)]
  apply computes_window' (K := rsiK n) (by omega)
  · intro h; rfl
  · intro h m hl
    refine ⟨if_pos (by omega), ?_⟩
    unfold rsiK
    rw [if_pos (by simp; omega), if_pos (by omega)]
  · intro h m s hl
    rw [runCore_eq, lastN_snoc (by omega), Nat.add_sub_cancel, rsi_process hn hlen h m s hl, if_neg (by omega)]

end rsi

end Rtbot
