import Verif.Lemmas.Simple
import Verif.Spec.Numeric

/-! # Running sums in exact arithmetic -/

set_option linter.unusedSectionVars false

namespace Rtbot
open Spec
variable {V : Type} [Num V] [Field V] [LinearOrder V] [Exact V]

theorem foldl_add_exact (l : List V) (a : V) : l.foldl Num.add a = a + l.sum := by
  induction l generalizing a with
  | nil => simp
  | cons x l ih => simp [ih, Exact.add_eq, add_assoc]

theorem foldl_exact {α : Type} (g : α → V) (l : List α) (a : V) :
    l.foldl (fun s x => s +. g x) a = a + (l.map g).sum := by
  induction l generalizing a with
  | nil => simp
  | cons x l ih => rw [List.foldl_cons, ih, Exact.add_eq, List.map_cons, List.sum_cons, add_assoc]

/-- The incrementally maintained sum is the sum of the window. -/
theorem nextSum_exact {n : Nat} (hn : 0 < n) (h : List (Msg V)) (m : Msg V) :
    (values (lastN n (h ++ [m]))).sum = nextSum n (values (lastN n h)).sum h m := by
  unfold nextSum
  rw [Exact.add_eq]
  by_cases hl : n ≤ h.length
  · rw [if_pos hl, lastN_snoc_of_ge m hn hl]
    cases hw : lastN n h with
    | nil => have := congrArg List.length hw; rw [length_lastN, List.length_nil] at this; omega
    | cons a w => simp [values, Exact.sub_eq]
  · rw [if_neg hl, lastN_snoc_of_lt m (by omega)]
    simp [values]

/-- Windowed operators in exact arithmetic: `processData` sees the window and its sum. -/
theorem computes_exact {c : Core V} {n : Nat} (hn : 0 < n) (k : Kind V) (f : List (Msg V) → Msg V → OpMsg V)
    (hK : k.isBase = true)
    (hlt : ∀ h m, h.length + 1 < n → f h m = [])
    (hproc : ∀ h m, n ≤ h.length + 1 →
      Op.process ⟨runCore c n (values (lastN n (h ++ [m]))).sum (lastN (n - 1) h ++ [m]), k⟩ = .ok (f h m, k)) :
    Computes ⟨winCore c n (Num.ofNat 0) [], k⟩ i1 f := by
  have h0 : (Num.ofNat 0 : V) = (values (lastN n ([] : List (Msg V)))).sum := by
    simp [values, lastN, Exact.ofNat_eq]
  rw [h0]
  apply computes_window hn (fun h => (values (lastN n h)).sum) (fun _ => k)
  · exact fun _ => hK
  · exact fun h m => nextSum_exact hn h m
  · exact fun h m hl => ⟨hlt h m hl, rfl⟩
  · intro h m hl
    rw [runCore_eq, lastN_snoc hn]
    have := hproc h m hl
    rw [lastN_snoc hn] at this
    exact this

end Rtbot
