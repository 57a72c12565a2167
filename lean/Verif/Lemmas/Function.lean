import Verif.Spec.Piecewise
import Verif.Lemmas.Numeric
import Mathlib.Data.List.Sort
import Mathlib.Data.Prod.Lex
import Mathlib.Tactic.FieldSimp

/-! # Function -/

set_option linter.unusedSectionVars false

namespace Rtbot
open Spec
variable {V : Type} [Num V] [Field V] [LinearOrder V] [Exact V] [IsStrictOrderedRing V]

namespace Fn

theorem pairLt_iff (a b : V × V) : pairLt a b = true ↔ toLex a < toLex b := by
  unfold pairLt
  rw [Prod.Lex.toLex_lt_toLex]
  simp only [Bool.or_eq_true, Bool.and_eq_true, Bool.not_eq_true', Bool.eq_false_iff, ne_eq, Exact.lt_iff]
  constructor
  · rintro (h | ⟨h1, h2⟩)
    · exact Or.inl h
    · rcases lt_or_eq_of_le (not_lt.1 h1) with h | h
      · exact Or.inl h
      · exact Or.inr ⟨h, h2⟩
  · rintro (h | ⟨h1, h2⟩)
    · exact Or.inl h
    · exact Or.inr ⟨by rw [h1]; exact lt_irrefl _, h2⟩

theorem insertPoint_perm (a : V × V) (l : List (V × V)) : (insertPoint a l).Perm (a :: l) := by
  induction l with
  | nil => exact List.Perm.refl _
  | cons b l ih =>
    unfold insertPoint
    split
    · exact (List.Perm.cons b ih).trans (List.Perm.swap a b l)
    · exact List.Perm.refl _

theorem sortPoints_perm (l : List (V × V)) : (sortPoints l).Perm l := by
  induction l with
  | nil => exact List.Perm.refl _
  | cons a l ih => exact (insertPoint_perm a (sortPoints l)).trans (List.Perm.cons a ih)

/-- Lexicographic order. -/
def lexLe (a b : V × V) : Prop := toLex a ≤ toLex b

theorem insertPoint_sorted (a : V × V) (l : List (V × V)) (h : l.Pairwise lexLe) : (insertPoint a l).Pairwise lexLe := by
  induction l with
  | nil => simp [insertPoint]
  | cons b l ih =>
    unfold insertPoint
    rw [List.pairwise_cons] at h
    split
    · rename_i hlt
      rw [List.pairwise_cons]
      refine ⟨?_, ih h.2⟩
      intro x hx
      rcases List.mem_cons.1 ((insertPoint_perm a l).mem_iff.1 hx) with rfl | hx
      · exact le_of_lt ((pairLt_iff _ _).1 hlt)
      · exact h.1 x hx
    · rename_i hlt
      have hab : lexLe a b := by
        rw [pairLt_iff] at hlt
        exact not_lt.1 hlt
      rw [List.pairwise_cons, List.pairwise_cons]
      refine ⟨?_, h.1, h.2⟩
      intro x hx
      rcases List.mem_cons.1 hx with rfl | hx
      · exact hab
      · exact le_trans hab (h.1 x hx)

theorem sortPoints_sorted (l : List (V × V)) : (sortPoints l).Pairwise lexLe := by
  induction l with
  | nil => exact List.Pairwise.nil
  | cons a l ih => exact insertPoint_sorted a _ ih

theorem sortPoints_eq {qs points : List (V × V)} (hp : qs.Perm points) (hq : IncreasingX qs) : sortPoints points = qs := by
  have h1 : qs.Pairwise lexLe := hq.imp (fun {a b} h => le_of_lt (Prod.Lex.toLex_lt_toLex.2 (Or.inl h)))
  refine List.Perm.eq_of_pairwise (le := lexLe) ?_ (sortPoints_sorted points) h1 ((sortPoints_perm points).trans hp.symm)
  intro a b _ _ hab hba
  exact toLex.injective (le_antisymm hab hba)

theorem segIndex_shift (x : V) (l : List (V × V)) (k : Nat) : segIndex x l k = k + segIndex x l 0 := by
  induction l generalizing k with
  | nil => simp [segIndex]
  | cons a l ih =>
    cases l with
    | nil => simp [segIndex]
    | cons b l =>
      rw [segIndex, segIndex]
      split
      · rw [ih (k + 1), ih (0 + 1)]; omega
      · omega

theorem segIndex_lt (x : V) (l : List (V × V)) (h : l ≠ []) : segIndex x l 0 < l.length := by
  induction l with
  | nil => exact absurd rfl h
  | cons a l ih =>
    cases l with
    | nil => simp [segIndex]
    | cons b l =>
      rw [segIndex]
      split
      · rw [segIndex_shift]; have := ih (by simp); simp only [List.length_cons] at *; omega
      · simp

/-- The segment used: the first of its two points. -/
def seg (x : V) (qs : List (V × V)) : Nat := min (segIndex x qs 0) (qs.length - 2)

theorem piecewise_seg (x : V) (qs : List (V × V)) (hl : 2 ≤ qs.length) :
    ∃ a b, qs[seg x qs]? = some a ∧ qs[seg x qs + 1]? = some b ∧ piecewise qs x = some (line a b x) := by
  induction qs with
  | nil => simp at hl
  | cons a l ih =>
    match l, ih, hl with
    | [b], _, _ => exact ⟨a, b, by simp [seg], by simp [seg], rfl⟩
    | b :: c :: rest, ih, _ =>
      by_cases h : b.1 ≤ x
      · obtain ⟨p, q, h1, h2, h3⟩ := ih (by simp)
        have hseg : seg x (a :: b :: c :: rest) = seg x (b :: c :: rest) + 1 := by
          unfold seg
          rw [segIndex, if_pos ((Exact.le_iff _ _).2 h), segIndex_shift]
          simp only [List.length_cons]
          omega
        refine ⟨p, q, ?_, ?_, ?_⟩
        · rw [hseg, List.getElem?_cons_succ]; exact h1
        · rw [hseg, List.getElem?_cons_succ]; exact h2
        · rw [piecewise, if_neg (not_lt.2 h)]; exact h3
      · have hseg : seg x (a :: b :: c :: rest) = 0 := by
          unfold seg
          rw [segIndex, if_neg (by rw [Exact.le_iff]; exact h)]
          simp
        refine ⟨a, b, by rw [hseg]; rfl, by rw [hseg]; rfl, ?_⟩
        rw [piecewise, if_pos (not_le.1 h)]

theorem segIndex_at (qs : List (V × V)) (hq : IncreasingX qs) (j : Nat) (p : V × V) (hj : qs[j]? = some p) : segIndex p.1 qs 0 = j := by
  induction qs generalizing j with
  | nil => simp at hj
  | cons a l ih =>
    cases j with
    | zero =>
      simp only [List.getElem?_cons_zero, Option.some.injEq] at hj
      subst hj
      cases l with
      | nil => rfl
      | cons b l =>
        have h1 := (List.pairwise_cons.1 hq).1 b (by simp)
        rw [segIndex, if_neg (by rw [Exact.le_iff]; exact not_le.2 h1)]
    | succ j =>
      rw [List.getElem?_cons_succ] at hj
      cases l with
      | nil => simp at hj
      | cons b l =>
        have hq' := (List.pairwise_cons.1 hq).2
        have hle : b.1 ≤ p.1 := by
          rcases List.mem_cons.1 (List.mem_of_getElem? hj) with h | h
          · rw [h]
          · exact le_of_lt ((List.pairwise_cons.1 hq').1 p h)
        rw [segIndex, if_pos ((Exact.le_iff _ _).2 hle), segIndex_shift, ih hq' j hj]
        omega

theorem pointAt_eq {qs : List (V × V)} {i : Nat} {a : V × V} (h : qs[i]? = some a) : pointAt qs i = .ok a := by
  simp [pointAt, h]

/-- `functionValue` in terms of the segment. -/
theorem functionValue_linear {qs : List (V × V)} (hl : 2 ≤ qs.length) (x : V) {a b : V × V}
    (ha : qs[seg x qs]? = some a) (hb : qs[seg x qs + 1]? = some b) : functionValue qs .linear x = .ok (line a b x) := by
  unfold functionValue
  rw [if_neg (by omega)]
  have h0 : ∃ p, qs[0]? = some p := ⟨_, List.getElem?_eq_getElem (by omega)⟩
  obtain ⟨p, hp⟩ := h0
  have hlt := segIndex_lt x qs (by rintro rfl; simp at hl)
  have hs : (if (decide (segIndex x qs 0 = 0) && Num.lt x p.1) = true then 0
      else if segIndex x qs 0 = qs.length - 1 then segIndex x qs 0 - 1 else segIndex x qs 0) = seg x qs := by
    unfold seg
    split
    · rename_i h
      simp only [Bool.and_eq_true, decide_eq_true_eq] at h
      omega
    · split <;> omega
  simp only [pointAt_eq hp, bind_ok, hs, pointAt_eq ha, pointAt_eq hb]
  simp only [linInterp, line, Exact.add_eq, Exact.sub_eq, Exact.mul_eq, Exact.div_eq]

theorem tangent_ok {qs : List (V × V)} (hl : 2 ≤ qs.length) {i : Nat} (hi : i < qs.length) : ∃ t, tangent qs i = .ok t := by
  unfold tangent
  have get : ∀ k, k < qs.length → ∃ p, pointAt qs k = .ok p := fun k hk => ⟨_, pointAt_eq (List.getElem?_eq_getElem hk)⟩
  split
  · rename_i lo hi' heq
    have : lo < qs.length ∧ hi' < qs.length := by
      split at heq
      · simp only [Prod.mk.injEq] at heq; omega
      · split at heq <;> simp only [Prod.mk.injEq] at heq <;> omega
    obtain ⟨p, hp⟩ := get _ this.1
    obtain ⟨q, hq⟩ := get _ this.2
    rw [hp, hq]
    exact ⟨_, rfl⟩

theorem functionValue_hermite {qs : List (V × V)} (hl : 2 ≤ qs.length) (x : V) {a b : V × V}
    (ha : qs[seg x qs]? = some a) (hb : qs[seg x qs + 1]? = some b) :
    ∃ ta tb, tangent qs (seg x qs) = .ok ta ∧ tangent qs (seg x qs + 1) = .ok tb ∧
      functionValue qs .hermite x = .ok (hermInterp a.2 b.2 ta tb ((x - a.1) / (b.1 - a.1))) := by
  unfold functionValue
  rw [if_neg (by omega)]
  have h0 : ∃ p, qs[0]? = some p := ⟨_, List.getElem?_eq_getElem (by omega)⟩
  obtain ⟨p, hp⟩ := h0
  have hlt := segIndex_lt x qs (by rintro rfl; simp at hl)
  have hs : (if (decide (segIndex x qs 0 = 0) && Num.lt x p.1) = true then 0
      else if segIndex x qs 0 ≥ qs.length - 2 then qs.length - 2 else segIndex x qs 0) = seg x qs := by
    unfold seg
    split
    · rename_i h
      simp only [Bool.and_eq_true, decide_eq_true_eq] at h
      omega
    · split <;> omega
  obtain ⟨ta, hta⟩ := tangent_ok hl (List.getElem?_eq_some_iff.1 ha).1
  obtain ⟨tb, htb⟩ := tangent_ok hl (List.getElem?_eq_some_iff.1 hb).1
  refine ⟨ta, tb, hta, htb, ?_⟩
  simp only [pointAt_eq hp, bind_ok, hs, pointAt_eq ha, pointAt_eq hb, hta, htb]
  simp only [Exact.sub_eq, Exact.div_eq]

theorem hermInterp_zero (y0 y1 m0 m1 : V) : hermInterp y0 y1 m0 m1 0 = y0 := by
  simp only [hermInterp, Exact.add_eq, Exact.sub_eq, Exact.mul_eq, Exact.ofNat_eq, Exact.neg_eq]
  push_cast; ring

theorem hermInterp_one (y0 y1 m0 m1 : V) : hermInterp y0 y1 m0 m1 1 = y1 := by
  simp only [hermInterp, Exact.add_eq, Exact.sub_eq, Exact.mul_eq, Exact.ofNat_eq, Exact.neg_eq]
  push_cast; ring

theorem hermInterp_cubic (y0 y1 m0 m1 u : V) : hermInterp y0 y1 m0 m1 u = cubic y0 m0 y1 m1 u := by
  simp only [hermInterp, cubic, Exact.add_eq, Exact.sub_eq, Exact.mul_eq, Exact.ofNat_eq, Exact.neg_eq]
  push_cast; ring

/-- The tangents in terms of the neighbours. -/
theorem tangent_at (l : List (V × V)) (a : V × V) (r : List (V × V)) (t : V) (h : tangentAt l.getLast? a r.head? = some t) :
    tangent (l ++ a :: r) l.length = .ok t := by
  have ga : (l ++ a :: r)[l.length]? = some a := by simp
  unfold tangent
  rcases List.eq_nil_or_concat l with rfl | ⟨l', p, rfl⟩
  · cases r with
    | nil => simp [tangentAt] at h
    | cons n r =>
      simp only [List.length_nil, if_true]
      rw [pointAt_eq (a := a) rfl, pointAt_eq (a := n) rfl]
      simp only [bind_ok, Exact.sub_eq, Exact.div_eq]
      exact congrArg _ (Option.some.inj h)
  · rw [List.concat_eq_append] at *
    have gp : (l' ++ [p] ++ a :: r)[l'.length]? = some p := by simp
    have hlen : (l' ++ [p]).length = l'.length + 1 := by simp
    rw [hlen] at ga ⊢
    rw [if_neg (by omega)]
    cases r with
    | nil =>
      rw [if_pos (by simp)]
      simp only [Nat.add_sub_cancel]
      rw [pointAt_eq gp, pointAt_eq ga]
      simp only [bind_ok, Exact.sub_eq, Exact.div_eq]
      simp only [List.getLast?_append, List.getLast?_singleton, Option.some_or, List.head?_nil, tangentAt] at h
      exact congrArg _ (Option.some.inj h)
    | cons n r =>
      have gn : (l' ++ [p] ++ a :: n :: r)[l'.length + 1 + 1]? = some n := by
        rw [List.getElem?_append_right (by simp)]
        simp
      rw [if_neg (by simp)]
      simp only [Nat.add_sub_cancel]
      rw [pointAt_eq gp, pointAt_eq gn]
      simp only [bind_ok, Exact.sub_eq, Exact.div_eq]
      simp only [List.getLast?_append, List.getLast?_singleton, Option.some_or, List.head?_cons, tangentAt] at h
      exact congrArg _ (Option.some.inj h)

/-- The cubics in terms of the segment. -/
theorem cubics_seg (x : V) (qs : List (V × V)) : ∀ l : List (V × V), 2 ≤ qs.length →
    ∃ a b ta tb, qs[seg x qs]? = some a ∧ qs[seg x qs + 1]? = some b ∧ tangent (l ++ qs) (l.length + seg x qs) = .ok ta ∧
      tangent (l ++ qs) (l.length + seg x qs + 1) = .ok tb ∧
      cubicsFrom l.getLast? qs x = some (cubic a.2 ta b.2 tb ((x - a.1) / (b.1 - a.1))) := by
  induction qs with
  | nil => intro l hl; simp at hl
  | cons a r ih =>
    intro l hl
    have first : ∀ b r', r = b :: r' → ∃ ta tb, tangentAt l.getLast? a (some b) = some ta ∧ tangentAt (some a) b r'.head? = some tb ∧
        tangent (l ++ a :: r) (l.length + 0) = .ok ta ∧ tangent (l ++ a :: r) (l.length + 0 + 1) = .ok tb := by
      rintro b r' rfl
      obtain ⟨ta, h1⟩ : ∃ ta, tangentAt l.getLast? a (some b) = some ta := by cases l.getLast? <;> exact ⟨_, rfl⟩
      obtain ⟨tb, h2⟩ : ∃ tb, tangentAt (some a) b r'.head? = some tb := by cases r'.head? <;> exact ⟨_, rfl⟩
      refine ⟨ta, tb, h1, h2, tangent_at l a (b :: r') ta h1, ?_⟩
      have := tangent_at (l ++ [a]) b r' tb (by simpa using h2)
      simpa using this
    match r, ih, hl, first with
    | [b], _, _, first =>
      obtain ⟨ta, tb, h1, h2, h3, h4⟩ := first b [] rfl
      have hs : seg x [a, b] = 0 := by simp [seg]
      rw [hs]
      refine ⟨a, b, ta, tb, rfl, rfl, h3, h4, ?_⟩
      simp only [List.head?_nil] at h2
      simp only [cubicsFrom, h1, h2, Option.bind_eq_bind, Option.bind_some]
    | b :: c :: rest, ih, _, first =>
      by_cases h : b.1 ≤ x
      · obtain ⟨p, q, ta, tb, h1, h2, h3, h4, h5⟩ := ih (l ++ [a]) (by simp)
        have hseg : seg x (a :: b :: c :: rest) = seg x (b :: c :: rest) + 1 := by
          unfold seg
          rw [segIndex, if_pos ((Exact.le_iff _ _).2 h), segIndex_shift]
          simp only [List.length_cons]
          omega
        have e1 : (l ++ [a]).length + seg x (b :: c :: rest) = l.length + (seg x (b :: c :: rest) + 1) := by simp; omega
        rw [e1] at h3 h4
        rw [List.append_assoc] at h3 h4
        rw [hseg]
        refine ⟨p, q, ta, tb, by rw [List.getElem?_cons_succ]; exact h1, by rw [List.getElem?_cons_succ]; exact h2, h3, h4, ?_⟩
        rw [cubicsFrom, if_neg (not_lt.2 h)]
        simpa using h5
      · have hseg : seg x (a :: b :: c :: rest) = 0 := by
          unfold seg
          rw [segIndex, if_neg (by rw [Exact.le_iff]; exact h)]
          simp
        obtain ⟨ta, tb, h1, h2, h3, h4⟩ := first b (c :: rest) rfl
        rw [hseg]
        refine ⟨a, b, ta, tb, rfl, rfl, h3, h4, ?_⟩
        simp only [List.head?_cons] at h2
        rw [cubicsFrom, if_pos (not_le.1 h)]
        simp only [h1, h2, Option.bind_eq_bind, Option.bind_some]

theorem functionValue_cubics {qs : List (V × V)} (hl : 2 ≤ qs.length) (x : V) :
    ∃ v, cubicsFrom none qs x = some v ∧ functionValue qs .hermite x = .ok v := by
  obtain ⟨a, b, ta, tb, h1, h2, h3, h4, h5⟩ := cubics_seg x qs [] hl
  obtain ⟨ta', tb', g3, g4, g5⟩ := functionValue_hermite hl x h1 h2
  simp only [List.nil_append, List.length_nil, Nat.zero_add] at h3 h4
  rw [h3] at g3
  rw [h4] at g4
  cases g3
  cases g4
  exact ⟨_, h5, by rw [g5, hermInterp_cubic]⟩

theorem slope_onLine {c d : V} {a b : V × V} (ha : a.2 = c + d * a.1) (hb : b.2 = c + d * b.1) (h : a.1 < b.1) : slope a b = d := by
  unfold slope
  have : b.1 - a.1 ≠ 0 := sub_ne_zero.2 (ne_of_gt h)
  rw [ha, hb]
  field_simp
  ring

theorem tangentAt_onLine {c d : V} {prev next : Option (V × V)} {a : V × V} {t : V} (h : tangentAt prev a next = some t)
    (ha : a.2 = c + d * a.1) (hp : ∀ p ∈ prev, p.2 = c + d * p.1 ∧ p.1 < a.1) (hn : ∀ p ∈ next, p.2 = c + d * p.1 ∧ a.1 < p.1) : t = d := by
  rcases prev with - | p <;> rcases next with - | n <;> simp only [tangentAt, Option.some.injEq] at h
  · cases h
  · rw [← h, slope_onLine ha (hn n rfl).1 (hn n rfl).2]
  · rw [← h, slope_onLine (hp p rfl).1 ha (hp p rfl).2]
  · rw [← h, slope_onLine (hp p rfl).1 (hn n rfl).1 ((hp p rfl).2.trans (hn n rfl).2)]

theorem cubic_straight {c d x : V} {a b : V × V} (ha : a.2 = c + d * a.1) (hb : b.2 = c + d * b.1) (h : b.1 = a.1 + 1) :
    cubic a.2 d b.2 d ((x - a.1) / (b.1 - a.1)) = c + d * x := by
  rw [ha, hb, h]
  unfold cubic
  rw [add_sub_cancel_left, div_one]
  ring

theorem cubics_straight {c d : V} (x : V) (qs : List (V × V)) : ∀ (prev : Option (V × V)) (v : V), OnLine c d qs → IncreasingX qs → UnitSteps qs →
    (∀ p ∈ prev, p.2 = c + d * p.1 ∧ ∀ a ∈ qs.head?, p.1 < a.1) → cubicsFrom prev qs x = some v → v = c + d * x := by
  induction qs with
  | nil => intro prev v _ _ _ _ h; simp [cubicsFrom] at h
  | cons a r ih =>
    intro prev v hon hinc hu hp h
    have ha := hon a (by simp)
    have hp' : ∀ p ∈ prev, p.2 = c + d * p.1 ∧ p.1 < a.1 := fun p m => ⟨(hp p m).1, (hp p m).2 a rfl⟩
    match r, ih, hon, hinc, hu, h with
    | [], _, _, _, _, h => simp [cubicsFrom] at h
    | [b], _, hon, hinc, hu, h =>
      have hb := hon b (by simp)
      have hab : a.1 < b.1 := (List.pairwise_cons.1 hinc).1 b (by simp)
      simp only [cubicsFrom, Option.bind_eq_bind, Option.bind_eq_some_iff, Option.some.injEq] at h
      obtain ⟨ta, h1, tb, h2, rfl⟩ := h
      rw [tangentAt_onLine h1 ha hp' (by rintro p ⟨⟩; exact ⟨hb, hab⟩), tangentAt_onLine h2 hb (by rintro p ⟨⟩; exact ⟨ha, hab⟩) (by rintro p ⟨⟩)]
      exact cubic_straight ha hb (hu 0 a b rfl rfl)
    | b :: e :: rest, ih, hon, hinc, hu, h =>
      have hb := hon b (by simp)
      have he := hon e (by simp)
      have hab : a.1 < b.1 := (List.pairwise_cons.1 hinc).1 b (by simp)
      have hbe : b.1 < e.1 := (List.pairwise_cons.1 (List.pairwise_cons.1 hinc).2).1 e (by simp)
      rw [cubicsFrom] at h
      split at h
      · simp only [Option.bind_eq_bind, Option.bind_eq_some_iff, Option.some.injEq] at h
        obtain ⟨ta, h1, tb, h2, rfl⟩ := h
        rw [tangentAt_onLine h1 ha hp' (by rintro p ⟨⟩; exact ⟨hb, hab⟩),
          tangentAt_onLine h2 hb (by rintro p ⟨⟩; exact ⟨ha, hab⟩) (by rintro p ⟨⟩; exact ⟨he, hbe⟩)]
        exact cubic_straight ha hb (hu 0 a b rfl rfl)
      · exact ih (some a) v (fun p m => hon p (List.mem_cons_of_mem _ m)) (List.pairwise_cons.1 hinc).2
          (fun i p q h1 h2 => hu (i + 1) p q h1 h2) (by rintro p ⟨⟩; exact ⟨ha, by rintro q ⟨⟩; exact hab⟩) h

theorem line_straight {c d x : V} {a b : V × V} (ha : a.2 = c + d * a.1) (hb : b.2 = c + d * b.1) (h : a.1 < b.1) : line a b x = c + d * x := by
  unfold line
  have : b.1 - a.1 ≠ 0 := sub_ne_zero.2 (ne_of_gt h)
  rw [ha, hb]
  field_simp
  ring

theorem piecewise_straight {c d : V} (x : V) (qs : List (V × V)) (v : V) (hon : OnLine c d qs) (hinc : IncreasingX qs)
    (h : piecewise qs x = some v) : v = c + d * x := by
  induction qs with
  | nil => simp [piecewise] at h
  | cons a r ih =>
    match r, ih, hon, hinc, h with
    | [], _, _, _, h => simp [piecewise] at h
    | [b], _, hon, hinc, h =>
      simp only [piecewise, Option.some.injEq] at h
      rw [← h, line_straight (hon a (by simp)) (hon b (by simp)) ((List.pairwise_cons.1 hinc).1 b (by simp))]
    | b :: e :: rest, ih, hon, hinc, h =>
      rw [piecewise] at h
      split at h
      · cases h
        rw [line_straight (hon a (by simp)) (hon b (by simp)) ((List.pairwise_cons.1 hinc).1 b (by simp))]
      · exact ih (fun p m => hon p (List.mem_cons_of_mem _ m)) (List.pairwise_cons.1 hinc).2 h

/-- In both modes the value is defined, and at an abscissa of a point it is the ordinate. -/
theorem functionValue_at {qs : List (V × V)} (hl : 2 ≤ qs.length) (hq : IncreasingX qs) (t : Interp) (p : V × V) (hp : p ∈ qs) :
    functionValue qs t p.1 = .ok p.2 := by
  obtain ⟨j, hj⟩ := List.getElem?_of_mem hp
  obtain ⟨a, b, ha, hb, -⟩ := piecewise_seg p.1 qs hl
  have hidx := segIndex_at qs hq j p hj
  have hjl := (List.getElem?_eq_some_iff.1 hj).1
  have hlt : a.1 < b.1 := by
    obtain ⟨h1, rfl⟩ := List.getElem?_eq_some_iff.1 ha
    obtain ⟨h2, rfl⟩ := List.getElem?_eq_some_iff.1 hb
    exact List.pairwise_iff_getElem.1 hq _ _ _ _ (by omega)
  have hne : b.1 - a.1 ≠ 0 := by have := sub_pos.2 hlt; exact ne_of_gt this
  have hcase : a = p ∨ b = p := by
    by_cases h : j ≤ qs.length - 2
    · have : seg p.1 qs = j := by unfold seg; omega
      rw [this, hj] at ha
      exact Or.inl (Option.some.inj ha).symm
    · have : seg p.1 qs + 1 = j := by unfold seg; omega
      rw [this, hj] at hb
      exact Or.inr (Option.some.inj hb).symm
  cases t with
  | linear =>
    rw [functionValue_linear hl _ ha hb]
    rcases hcase with rfl | rfl
    · simp [line]
    · simp only [line]; rw [mul_div_assoc, div_self hne]; congr 1; ring
  | hermite =>
    obtain ⟨ta, tb, _, _, h⟩ := functionValue_hermite hl _ ha hb
    rw [h]
    rcases hcase with rfl | rfl
    · rw [sub_self, zero_div, hermInterp_zero]
    · rw [div_self hne, hermInterp_one]

theorem functionValue_ok {qs : List (V × V)} (hl : 2 ≤ qs.length) (t : Interp) (x : V) : ∃ v, functionValue qs t x = .ok v := by
  obtain ⟨a, b, ha, hb, -⟩ := piecewise_seg x qs hl
  cases t with
  | linear => exact ⟨_, functionValue_linear hl _ ha hb⟩
  | hermite =>
    obtain ⟨ta, tb, _, _, h⟩ := functionValue_hermite hl _ ha hb
    exact ⟨_, h⟩

end Fn
end Rtbot
