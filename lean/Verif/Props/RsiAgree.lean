import Verif.Props.RsiProgram
import Verif.Props.Recursive

/-! # C95: the program of the relative strength index and the operator RelativeStrengthIndex -/

namespace Rtbot
open Spec Wave Selector Ripple

namespace RsiAgree

theorem diffs_eq (ms : List (Msg ℝ)) : diffs (values ms) = changes ms := by
  induction ms with
  | nil => rfl
  | cons x l ih =>
    cases l with
    | nil => rfl
    | cons y l =>
      show (y.value - x.value) :: diffs (values (y :: l)) = _
      rw [ih]
      rfl

theorem wilder_eq {part : ℝ → ℝ} {ds : List ℝ} (h : 14 ≤ ds.length) : wilder 14 (ds.map part) = wilderMean (13 / 14) (1 / 14) part ds := by
  unfold wilder wilderMean mean
  rw [← List.map_drop, ← List.map_take, List.foldl_map]
  have h1 : ((ds.take 14).map part).length = 14 := by rw [List.length_map, List.length_take]; omega
  rw [h1]
  congr 1
  · funext y d
    push_cast
    ring
  · push_cast
    ring

/-- The index where the average loss is not 0. -/
theorem index_eq {h : List (Msg ℝ)} {m : Msg ℝ} (hl : 15 ≤ h.length) (hm : h.getLast? = some m) :
    wilderIndex (13 / 14) (1 / 14) h = if rsiOf 14 (values h) = 100 then none else some ⟨m.time, rsiOf 14 (values h)⟩ := by
  have h14 : 14 ≤ (changes h).length := by rw [RsiProgram.changes_length]; omega
  have eg : wilder 14 (gains (values h)) = wilderMean (13 / 14) (1 / 14) (fun d => max d 0) (changes h) := by
    unfold gains
    rw [diffs_eq, wilder_eq h14]
  have el : wilder 14 (losses (values h)) = wilderMean (13 / 14) (1 / 14) (fun d => max (-d) 0) (changes h) := by
    unfold losses
    rw [diffs_eq, wilder_eq h14]
  unfold wilderIndex
  rw [hm]
  dsimp only
  rw [← eg, ← el]
  unfold rsiOf
  by_cases h0 : wilder 14 (losses (values h)) = 0
  · rw [if_pos h0, if_pos h0, if_pos rfl]
  · have hl0 : 0 ≤ wilder 14 (losses (values h)) := wilder_nonneg (by norm_num) _ (losses_nonneg _)
    have hg0 : 0 ≤ wilder 14 (gains (values h)) := wilder_nonneg (by norm_num) _ (gains_nonneg _)
    have h3 : 0 < 1 + wilder 14 (gains (values h)) / wilder 14 (losses (values h)) := by
      have := div_nonneg hg0 hl0
      linarith
    have h4 : 0 < 100 / (1 + wilder 14 (gains (values h)) / wilder 14 (losses (values h))) := div_pos (by norm_num) h3
    rw [if_neg h0, if_neg h0, if_neg (by linarith)]

/-- What the operator emits, apart from 100. -/
theorem emitted_eq (ms : List (Msg ℝ)) : ∀ h : List (Msg ℝ),
    (emittedOn o1 (answers (fun h m => if h.length < 14 then [] else [(o1, [⟨m.time, rsiOf 14 (values (h ++ [m]))⟩])]) h ms)).filter (fun m => decide (m.value ≠ 100)) =
      (ms.inits.drop (15 - h.length)).filterMap fun i => if h.length + i.length < 15 ∨ i = [] then none else wilderIndex (13 / 14) (1 / 14) (h ++ i) := by
  induction ms with
  | nil =>
    intro h
    rcases Nat.eq_zero_or_pos (15 - h.length) with h0 | h0
    · rw [h0]; simp [answers, emittedOn]
    · rw [List.drop_of_length_le (by simp; omega)]; simp [answers, emittedOn]
  | cons x ms ih =>
    intro h
    rw [answers, emittedOn_cons, List.filter_append, ih (h ++ [x]), List.inits_cons]
    have hf : ∀ l : List (List (Msg ℝ)), (l.map fun t => x :: t).filterMap (fun i => if h.length + i.length < 15 ∨ i = [] then none else wilderIndex (13 / 14) (1 / 14) (h ++ i)) =
        l.filterMap fun i => if h.length + (i.length + 1) < 15 then none else wilderIndex (13 / 14) (1 / 14) (h ++ x :: i) := by
      intro l
      rw [List.filterMap_map]
      refine List.filterMap_congr fun i _ => ?_
      simp
    by_cases hl : h.length < 14
    · rw [if_pos hl]
      have e1 : 15 - h.length = (15 - (h ++ [x]).length) + 1 := by simp; omega
      rw [e1, List.drop_succ_cons, ← List.map_drop, hf]
      show [] ++ _ = _
      rw [List.nil_append]
      have e2 : 15 - (h ++ [x]).length = (14 - (h ++ [x]).length) + 1 := by simp; omega
      refine List.filterMap_congr fun i hi => ?_
      by_cases hi0 : i = []
      · -- the empty one is dropped
        exfalso
        rw [e2] at hi
        cases ms with
        | nil => simp at hi
        | cons y ms =>
          rw [List.inits_cons, List.drop_succ_cons, ← List.map_drop, List.mem_map] at hi
          obtain ⟨_, _, hh⟩ := hi
          rw [hi0] at hh
          cases hh
      · have e3 : (h ++ [x]).length + i.length = h.length + (i.length + 1) := by simp; omega
        simp only [hi0, or_false, e3, List.append_assoc, List.singleton_append]
    · rw [if_neg hl]
      have hi : wilderIndex (13 / 14) (1 / 14) (h ++ [x]) = if rsiOf 14 (values (h ++ [x])) = 100 then none else some ⟨x.time, rsiOf 14 (values (h ++ [x]))⟩ := index_eq (by simp; omega) (by simp)
      have e1 : msgsOn o1 [(o1, [(⟨x.time, rsiOf 14 (values (h ++ [x]))⟩ : Msg ℝ)])] = [⟨x.time, rsiOf 14 (values (h ++ [x]))⟩] := by simp [msgsOn, Map.find?_cons]
      have e2 : (List.filter (fun m : Msg ℝ => decide (m.value ≠ 100)) [⟨x.time, rsiOf 14 (values (h ++ [x]))⟩]) = (wilderIndex (13 / 14) (1 / 14) (h ++ [x])).toList := by
        rw [hi]
        by_cases hr : rsiOf 14 (values (h ++ [x])) = 100
        · simp [hr]
        · simp [hr]
      have e3 : 15 - (h ++ [x]).length = 0 := by simp; omega
      have hd : (List.drop (15 - h.length) ([] :: ms.inits.map fun t => x :: t)).filterMap (fun i => if h.length + i.length < 15 ∨ i = [] then none else wilderIndex (13 / 14) (1 / 14) (h ++ i)) =
          (ms.inits.map fun t => x :: t).filterMap (fun i => if h.length + i.length < 15 ∨ i = [] then none else wilderIndex (13 / 14) (1 / 14) (h ++ i)) := by
        rcases Nat.eq_zero_or_pos (15 - h.length) with h0 | h0
        · rw [h0]; simp
        · rw [show 15 - h.length = 1 by omega]; rfl
      rw [e1, e2, e3, hd, hf]
      simp only [List.drop_zero]
      have hpt : ∀ i : List (Msg ℝ), ¬ h.length + (i.length + 1) < 15 := fun i => by omega
      have hpt' : ∀ i : List (Msg ℝ), ¬ (h ++ [x]).length + i.length < 15 := fun i => by simp; omega
      simp only [hpt, hpt', if_false, false_or]
      clear hi e2 ih hf hd
      generalize wilderIndex (13 / 14) (1 / 14) = W
      cases ms with
      | nil => cases hw : W (h ++ [x]) <;> simp [hw]
      | cons y ms =>
        rw [List.inits_cons]
        cases hw : W (h ++ [x]) <;> simp [hw, List.filterMap_map, Function.comp_def]

theorem emitted_all (ms : List (Msg ℝ)) :
    (emittedOn o1 (answers (fun h m => if h.length < 14 then [] else [(o1, [⟨m.time, rsiOf 14 (values (h ++ [m]))⟩])]) [] ms)).filter (fun m => decide (m.value ≠ 100)) =
      (ms.inits.drop 15).filterMap (wilderIndex (13 / 14) (1 / 14)) := by
  rw [emitted_eq ms []]
  refine List.filterMap_congr fun i hi => ?_
  have h15 : 15 ≤ i.length := by
    obtain ⟨k, hk, rfl⟩ := List.mem_iff_getElem.1 hi
    rw [List.getElem_drop, List.getElem_inits]
    simp at hk ⊢
    omega
  rw [if_neg]
  · rfl
  · rintro (h | h)
    · simp at h; omega
    · rw [h] at h15; simp at h15

/-! ### Other coefficients -/

/-- The same without the factor `b`. -/
noncomputable def total (a : ℝ) (part : ℝ → ℝ) (ds : List ℝ) : ℝ := (ds.drop 14).foldl (fun y d => y * a + part d) ((ds.take 14).map part).sum

theorem mean_total (a b : ℝ) (part : ℝ → ℝ) (ds : List ℝ) : wilderMean a b part ds = total a part ds * b := by
  unfold wilderMean total
  generalize ((ds.take 14).map part).sum = x
  induction ds.drop 14 generalizing x with
  | nil => rfl
  | cons d l ih =>
    rw [List.foldl_cons, List.foldl_cons, ← ih]
    congr 1
    ring

theorem index_total {a b : ℝ} (hb : b ≠ 0) (h : List (Msg ℝ)) : wilderIndex a b h = match h.getLast? with
    | none => none
    | some m => if total a (fun d => max (-d) 0) (changes h) = 0 then none else some ⟨m.time, 100 - 100 / (1 + total a (fun d => max d 0) (changes h) / total a (fun d => max (-d) 0) (changes h))⟩ := by
  unfold wilderIndex
  cases h.getLast? with
  | none => rfl
  | some m =>
    dsimp only
    rw [mean_total, mean_total]
    by_cases h0 : total a (fun d => max (-d) 0) (changes h) = 0
    · rw [if_pos h0, if_pos (by rw [h0, zero_mul])]
    · rw [if_neg h0, if_neg (mul_ne_zero h0 hb), mul_div_mul_right _ _ hb]

/-- A smaller coefficient makes the total smaller, by its ratio for each change. -/
theorem total_between {a a' : ℝ} (h0 : 0 < a') (h1 : a' ≤ a) {part : ℝ → ℝ} (hp : ∀ d, 0 ≤ part d) (ds : List ℝ) :
    (a' / a) ^ (ds.length - 14) * total a part ds ≤ total a' part ds ∧ total a' part ds ≤ total a part ds := by
  have ha : 0 < a := lt_of_lt_of_le h0 h1
  have hq0 : 0 ≤ a' / a := div_nonneg h0.le ha.le
  have hq1 : a' / a ≤ 1 := (div_le_one ha).2 h1
  have hs : 0 ≤ ((ds.take 14).map part).sum := List.sum_nonneg (by
    intro x hx
    obtain ⟨d, _, rfl⟩ := List.mem_map.1 hx
    exact hp d)
  have aux : ∀ (l : List ℝ) (k : Nat) (y y' : ℝ), 0 ≤ y → (a' / a) ^ k * y ≤ y' → y' ≤ y →
      (a' / a) ^ (k + l.length) * l.foldl (fun y d => y * a + part d) y ≤ l.foldl (fun y d => y * a' + part d) y' ∧ l.foldl (fun y d => y * a' + part d) y' ≤ l.foldl (fun y d => y * a + part d) y := by
    intro l
    induction l with
    | nil => intro k y y' _ h2 h3; exact ⟨h2, h3⟩
    | cons d l ih =>
      intro k y y' hy h2 h3
      have hy' : 0 ≤ y' := le_trans (mul_nonneg (pow_nonneg hq0 k) hy) h2
      have := ih (k + 1) (y * a + part d) (y' * a' + part d) (add_nonneg (mul_nonneg hy ha.le) (hp d)) ?_ ?_
      · rw [List.length_cons, show k + (l.length + 1) = k + 1 + l.length by omega]
        exact this
      · have e : (a' / a) ^ (k + 1) * (y * a) = (a' / a) ^ k * y * a' := by
          rw [pow_succ]
          field_simp
        have hd : (a' / a) ^ (k + 1) * part d ≤ part d := mul_le_of_le_one_left (hp d) (pow_le_one₀ hq0 hq1)
        have := mul_le_mul_of_nonneg_right h2 h0.le
        rw [mul_add, e]
        linarith
      · have := mul_le_mul h3 h1 h0.le hy
        linarith
  have := aux (ds.drop 14) 0 _ _ hs (by rw [pow_zero, one_mul]) le_rfl
  rw [zero_add, List.length_drop] at this
  exact this

theorem total_nonneg {a : ℝ} (h0 : 0 ≤ a) {part : ℝ → ℝ} (hp : ∀ d, 0 ≤ part d) (ds : List ℝ) : 0 ≤ total a part ds := by
  have aux : ∀ (l : List ℝ) (y : ℝ), 0 ≤ y → 0 ≤ l.foldl (fun y d => y * a + part d) y := by
    intro l
    induction l with
    | nil => intro y h; exact h
    | cons d l ih => intro y h; exact ih _ (add_nonneg (mul_nonneg h h0) (hp d))
  exact aux _ _ (List.sum_nonneg (by
    intro x hx
    obtain ⟨d, _, rfl⟩ := List.mem_map.1 hx
    exact hp d))

/-- Ratios that agree up to a factor give nearly the same index. -/
theorem index_close {g l g' l' q : ℝ} (hl : 0 < l) (hq : 0 < q) (hg : 0 ≤ g) (h1 : q * g ≤ g') (h2 : g' ≤ g) (h3 : q * l ≤ l') (h4 : l' ≤ l) :
    |(100 - 100 / (1 + g' / l')) - (100 - 100 / (1 + g / l))| ≤ 100 * (1 - q) := by
  have hl' : 0 < l' := lt_of_lt_of_le (mul_pos hq hl) h3
  have hg' : 0 ≤ g' := le_trans (mul_nonneg hq.le hg) h1
  have hq1 : q ≤ 1 := by
    by_contra h
    have : l < q * l := by nlinarith
    linarith
  have e : ∀ {x y : ℝ}, 0 < y → 0 ≤ x → 100 - 100 / (1 + x / y) = 100 * (x / (x + y)) := by
    intro x y hy hx
    have hxy : x + y ≠ 0 := by positivity
    have h1 : 1 + x / y ≠ 0 := by positivity
    field_simp
    ring
  rw [e hl' hg', e hl hg, ← mul_sub, abs_mul, abs_of_pos (by norm_num : (0 : ℝ) < 100)]
  refine mul_le_mul_of_nonneg_left ?_ (by norm_num)
  have hs : 0 < g + l := by positivity
  have hs' : 0 < g' + l' := by positivity
  rw [div_sub_div _ _ hs'.ne' hs.ne', abs_div, abs_of_pos (mul_pos hs' hs), div_le_iff₀ (mul_pos hs' hs), abs_le]
  constructor
  · nlinarith [mul_nonneg hg hl'.le, mul_nonneg hg' hl.le, mul_nonneg hg hg', mul_pos hl hl', mul_le_mul_of_nonneg_right h1 hl'.le, mul_le_mul_of_nonneg_left h4 hg, mul_le_mul_of_nonneg_right h2 hl.le, mul_le_mul_of_nonneg_left h3 hg, mul_le_mul_of_nonneg_right h1 hl.le, mul_nonneg (sub_nonneg.2 hq1) (mul_nonneg hg hg'), mul_nonneg (sub_nonneg.2 hq1) (mul_pos hl hl').le, mul_nonneg (sub_nonneg.2 hq1) (mul_nonneg hg' hl.le), mul_nonneg (sub_nonneg.2 hq1) (mul_nonneg hg hl'.le)]
  · nlinarith [mul_nonneg hg hl'.le, mul_nonneg hg' hl.le, mul_nonneg hg hg', mul_pos hl hl', mul_le_mul_of_nonneg_left h3 hg', mul_le_mul_of_nonneg_left h3 hg, mul_le_mul_of_nonneg_right h2 hl.le, mul_nonneg (sub_nonneg.2 hq1) (mul_nonneg hg hg'), mul_nonneg (sub_nonneg.2 hq1) (mul_pos hl hl').le, mul_nonneg (sub_nonneg.2 hq1) (mul_nonneg hg' hl.le), mul_nonneg (sub_nonneg.2 hq1) (mul_nonneg hg hl'.le)]

theorem related {α β : Type} {R : β → β → Prop} {f g : α → Option β} {l : List α} (h : ∀ i ∈ l, Option.Rel R (f i) (g i)) : List.Forall₂ R (l.filterMap f) (l.filterMap g) := by
  induction l with
  | nil => exact .nil
  | cons i l ih =>
    have hr := h i List.mem_cons_self
    have := ih fun j hj => h j (List.mem_cons_of_mem _ hj)
    cases hf : f i with
    | none =>
      rw [hf] at hr
      cases hg : g i with
      | none => rw [List.filterMap_cons_none hf, List.filterMap_cons_none hg]; exact this
      | some y => rw [hg] at hr; cases hr
    | some x =>
      rw [hf] at hr
      cases hg : g i with
      | none => rw [hg] at hr; cases hr
      | some y =>
        rw [hg] at hr
        cases hr with
        | some hxy => rw [List.filterMap_cons_some hf, List.filterMap_cons_some hg]; exact .cons hxy this

/-- The same times, and values no more than `ε` apart. -/
def Close (ε : ℝ) (m m' : Msg ℝ) : Prop := m.time = m'.time ∧ |m.value - m'.value| ≤ ε

theorem wilder_close {a a' b b' : ℝ} (hb : b ≠ 0) (hb' : b' ≠ 0) (h0 : 0 < a') (h1 : a' ≤ a) {n : Nat} {h : List (Msg ℝ)} (hn : h.length ≤ n + 15) :
    Option.Rel (Close (100 * (n * (1 - a' / a)))) (wilderIndex a' b' h) (wilderIndex a b h) := by
  have ha : 0 < a := lt_of_lt_of_le h0 h1
  have hq0 : 0 < a' / a := div_pos h0 ha
  have hq1 : a' / a ≤ 1 := (div_le_one ha).2 h1
  rw [index_total hb, index_total hb']
  cases h.getLast? with
  | none => exact .none
  | some m =>
    dsimp only
    obtain ⟨g1, g2⟩ := total_between h0 h1 (part := fun d => max d 0) (fun d => le_max_right _ _) (changes h)
    obtain ⟨l1, l2⟩ := total_between h0 h1 (part := fun d => max (-d) 0) (fun d => le_max_right _ _) (changes h)
    have hg := total_nonneg ha.le (part := fun d => max d 0) (fun d => le_max_right _ _) (changes h)
    have hl := total_nonneg ha.le (part := fun d => max (-d) 0) (fun d => le_max_right _ _) (changes h)
    have hp : 0 < (a' / a) ^ ((changes h).length - 14) := pow_pos hq0 _
    by_cases hz : total a (fun d => max (-d) 0) (changes h) = 0
    · have hz' : total a' (fun d => max (-d) 0) (changes h) = 0 := le_antisymm (l2.trans hz.le) (by rw [hz, mul_zero] at l1; exact l1)
      rw [if_pos hz, if_pos hz']
      exact .none
    · have hl0 : 0 < total a (fun d => max (-d) 0) (changes h) := lt_of_le_of_ne hl (Ne.symm hz)
      have hz' : total a' (fun d => max (-d) 0) (changes h) ≠ 0 := (lt_of_lt_of_le (mul_pos hp hl0) l1).ne'
      rw [if_neg hz, if_neg hz']
      refine .some ⟨rfl, le_trans (index_close hl0 hp hg g1 g2 l1 l2) ?_⟩
      refine mul_le_mul_of_nonneg_left ?_ (by norm_num)
      have hk : (changes h).length - 14 ≤ n := by rw [RsiProgram.changes_length]; omega
      have hbern := one_add_mul_le_pow (a := a' / a - 1) (by linarith) ((changes h).length - 14)
      rw [add_sub_cancel] at hbern
      have hk' : (((changes h).length - 14 : ℕ) : ℝ) * (1 - a' / a) ≤ n * (1 - a' / a) := mul_le_mul_of_nonneg_right (by exact_mod_cast hk) (by linarith)
      nlinarith

theorem inits_le {α : Type} {l i : List α} (h : i ∈ l.inits) : i.length ≤ l.length := (List.mem_inits i l |>.1 h).length_le

end RsiAgree

/-- C95: with the coefficients 13/14 and 1/14 the program reports, for messages one unit of time apart, exactly what an operator RelativeStrengthIndex with period 14 emits for them, except that it leaves out the values 100.
Partial: where these are to be reported, and where the times have gaps, see C94. -/
theorem C95_agree_partial {junk : Junk ℝ} {json : Str} {P : Prog ℝ} (hP : Prog.initWith junk json (rsiJson (13 / 14 : ℝ) (1 / 14)) = .ok P) {fuel : Nat} (hf : 20 ≤ fuel) (mss : List (List (Msg ℝ)))
    (hinc : Increasing mss.flatten) (hlen : mss.flatten.length < 2 ^ 64) (h15 : mss.flatten.length ≠ 15) (hc : Consecutive mss.flatten) (id : Str) :
    ∃ rs P' outs o', debugRun fuel (mss.map fun ms => [(i1, ms)]) P = .ok rs P' ∧ feedOp (Op.newRsi id 14 : Op ℝ) i1 mss.flatten = .ok outs o' ∧
      (rs.flatMap fun r => listed r b!"467" b!"o1") = (emittedOn o1 outs).filter fun m => decide (m.value ≠ 100) := by
  obtain ⟨rs, P', h1, h2⟩ := C94_textbook_partial hP hf mss hinc hlen h15 hc
  obtain ⟨o', h3⟩ := C17_rsi (V := ℝ) id 14 (by norm_num) (by norm_num) mss.flatten
  exact ⟨rs, P', _, o', h1, h3, by rw [h2, RsiAgree.emitted_all]⟩

/-- The second coefficient does not matter (unless it is 0), so that its rounding in the example has no effect; the rounding of the first one has little: if it is reduced from 13/14 to `a'`, the values differ by no more
than 100 (1 - a' / (13/14)) for each message after the 15th. -/
theorem C95_close_partial {a' b' : ℝ} (h0 : 0 < a') (h1 : a' ≤ 13 / 14) (hb : b' ≠ 0) {junk : Junk ℝ} {json : Str} {P : Prog ℝ} (hP : Prog.initWith junk json (rsiJson a' b') = .ok P) {fuel : Nat} (hf : 20 ≤ fuel)
    (mss : List (List (Msg ℝ))) (hinc : Increasing mss.flatten) (hlen : mss.flatten.length < 2 ^ 64) (h15 : mss.flatten.length ≠ 15) (hc : Consecutive mss.flatten) (id : Str) :
    ∃ rs P' outs o', debugRun fuel (mss.map fun ms => [(i1, ms)]) P = .ok rs P' ∧ feedOp (Op.newRsi id 14 : Op ℝ) i1 mss.flatten = .ok outs o' ∧
      List.Forall₂ (fun m m' => m.time = m'.time ∧ |m.value - m'.value| ≤ 100 * ((mss.flatten.length - 15 : ℕ) * (1 - a' / (13 / 14)))) (rs.flatMap fun r => listed r b!"467" b!"o1")
        ((emittedOn o1 outs).filter fun m => decide (m.value ≠ 100)) := by
  obtain ⟨rs, P', e1, e2⟩ := C94_textbook_partial hP hf mss hinc hlen h15 hc
  obtain ⟨o', e3⟩ := C17_rsi (V := ℝ) id 14 (by norm_num) (by norm_num) mss.flatten
  refine ⟨rs, P', _, o', e1, e3, ?_⟩
  rw [e2, RsiAgree.emitted_all]
  refine RsiAgree.related fun i hi => RsiAgree.wilder_close (by norm_num) hb h0 h1 ?_
  have := RsiAgree.inits_le (List.mem_of_mem_drop hi)
  omega

/-- With the coefficients of the file: within 1.6e-10 for each message after the 15th, that is within the 1e-5 of the test for the first 62 500 of them. -/
theorem C95_file_partial {junk : Junk ℝ} {json : Str} {P : Prog ℝ} (hP : Prog.initWith junk json (rsiJson (0.92857142857 : ℝ) 0.07142857142) = .ok P) {fuel : Nat} (hf : 20 ≤ fuel)
    (mss : List (List (Msg ℝ))) (hinc : Increasing mss.flatten) (hlen : mss.flatten.length ≤ 62515) (h15 : mss.flatten.length ≠ 15) (hc : Consecutive mss.flatten) (id : Str) :
    ∃ rs P' outs o', debugRun fuel (mss.map fun ms => [(i1, ms)]) P = .ok rs P' ∧ feedOp (Op.newRsi id 14 : Op ℝ) i1 mss.flatten = .ok outs o' ∧
      List.Forall₂ (fun m m' => m.time = m'.time ∧ |m.value - m'.value| < 0.00001) (rs.flatMap fun r => listed r b!"467" b!"o1") ((emittedOn o1 outs).filter fun m => decide (m.value ≠ 100)) := by
  obtain ⟨rs, P', outs, o', h1, h2, h3⟩ := C95_close_partial (a' := 0.92857142857) (b' := 0.07142857142) (by norm_num) (by norm_num) (by norm_num) hP hf mss hinc (lt_of_le_of_lt hlen (by norm_num)) h15 hc id
  refine ⟨rs, P', outs, o', h1, h2, h3.imp fun m m' h => ⟨h.1, lt_of_le_of_lt h.2 ?_⟩⟩
  have : ((mss.flatten.length - 15 : ℕ) : ℝ) ≤ 62500 := by exact_mod_cast (by omega)
  have hq : (0 : ℝ) ≤ 1 - 0.92857142857 / (13 / 14) := by norm_num
  calc 100 * (((mss.flatten.length - 15 : ℕ) : ℝ) * (1 - 0.92857142857 / (13 / 14))) ≤ 100 * (62500 * (1 - 0.92857142857 / (13 / 14))) := by gcongr
    _ < 0.00001 := by norm_num

/-- The two part where values never fall: the operator emits 100, the program nothing. -/
theorem C95_rising_violated {a b : ℝ} {junk : Junk ℝ} {json : Str} {P : Prog ℝ} (hP : Prog.initWith junk json (rsiJson a b) = .ok P) {fuel : Nat} (hf : 20 ≤ fuel) (id : Str) :
    ∃ rs P' outs o', debugRun fuel [[(i1, (List.range 20).map fun n => (⟨UInt64.ofNat (n + 1), 7⟩ : Msg ℝ))]] P = .ok rs P' ∧
      feedOp (Op.newRsi id 14 : Op ℝ) i1 ((List.range 20).map fun n => ⟨UInt64.ofNat (n + 1), 7⟩) = .ok outs o' ∧
      (rs.flatMap fun r => listed r b!"467" b!"o1") = [] ∧ emittedOn o1 outs ≠ [] := by
  have hi : Increasing ([(List.range 20).map fun n => (⟨UInt64.ofNat (n + 1), 7⟩ : Msg ℝ)].flatten) := by simp [List.range, List.range.loop, Increasing]
  have hu : ∀ d ∈ changes ([(List.range 20).map fun n => (⟨UInt64.ofNat (n + 1), 7⟩ : Msg ℝ)].flatten), 0 ≤ d := by simp [List.range, List.range.loop, changes, Num.sub]
  obtain ⟨rs, P', h1, h2⟩ := C94_rising_violated hP hf _ hi (by simp) hu
  obtain ⟨o', h3⟩ := C17_rsi (V := ℝ) id 14 (by norm_num) (by norm_num) ((List.range 20).map fun n => (⟨UInt64.ofNat (n + 1), 7⟩ : Msg ℝ))
  refine ⟨rs, P', _, o', h1, h3, h2, ?_⟩
  simp [List.range, List.range.loop, answers, emittedOn, msgsOn, Map.find?_cons]

/-- A case: the messages of C94 have consecutive times, and there are more than 15 of them. -/
example : Consecutive (RsiProgram.sample 0).flatten ∧ (RsiProgram.sample 0).flatten.length ≠ 15 ∧ Increasing (RsiProgram.sample 0).flatten := by
  unfold Consecutive Increasing; decide

end Rtbot
