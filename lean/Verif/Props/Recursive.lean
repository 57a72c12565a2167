import Verif.Lemmas.Recursive

/-! # Properties of the recursive operators: C12 (AutoRegressive), C17 (RelativeStrengthIndex) -/

namespace Rtbot
open Spec
variable {V : Type} [Num V] [Field V] [LinearOrder V] [Exact V]

/-- C12 with the coefficients in reverse order (exact arithmetic): AutoRegressive with coefficients `cs` answers each message with one
message with its time, and the values are those of the autoregressive filter with the coefficients `cs` **reversed**.
Missing: the property says `cs`; it holds for palindromes (`C12_palindrome_partial`), and fails in general (`C12_violated`). -/
theorem C12_autoRegressive_partial (id : Str) (cs : List V) (hcs : cs ≠ []) (hlen : cs.length < 2 ^ 64 - 1) (ms : List (Msg V)) :
    ∃ o', feedOp (Op.newAutoReg id cs) i1 ms =
      .ok (List.zipWith (fun m y => [(o1, [⟨m.time, y⟩])]) ms (arOutputs cs.reverse [] (values ms))) o' :=
  ar_feed hcs hlen ms [] _ (ar_init id hcs)

/-- C12 for coefficient lists that read the same in both directions, in particular a single coefficient. -/
theorem C12_palindrome_partial (id : Str) (cs : List V) (hcs : cs ≠ []) (hlen : cs.length < 2 ^ 64 - 1) (hpal : cs.reverse = cs)
    (ms : List (Msg V)) :
    ∃ o', feedOp (Op.newAutoReg id cs) i1 ms =
      .ok (List.zipWith (fun m y => [(o1, [⟨m.time, y⟩])]) ms (arOutputs cs [] (values ms))) o' := by
  have := C12_autoRegressive_partial id cs hcs hlen ms
  rwa [hpal] at this

/-- The values emitted on "o1" by a run, if the run succeeds. -/
def emittedValues {V : Type} [Num V] (r : Res (Op V) (List (OpMsg V))) : Option (List V) :=
  match r with
  | .ok outs _ => some ((emittedOn o1 outs).map (·.value))
  | .err _ _ => none

/-- A concrete case: three coefficients. -/
example : emittedValues (feedOp (Op.newAutoReg [] [1, 0, 2] : Op ℚ) i1 [⟨1, 1⟩, ⟨2, 1⟩, ⟨3, 5⟩, ⟨4, 0⟩]) = some [1, 3, 11, 23] ∧
    arOutputs ([1, 0, 2] : List ℚ).reverse [] [1, 1, 5, 0] = [1, 3, 11, 23] := by
  constructor <;> decide +kernel

/-- C12 fails: with coefficients (2, 0) and inputs 1, 1 the second output should be 1 + 2*1 = 3, but is 1. -/
theorem C12_violated :
    emittedValues (feedOp (Op.newAutoReg [] [2, 0] : Op ℚ) i1 [⟨1, 1⟩, ⟨2, 1⟩]) = some [1, 1] ∧
    arOutputs ([2, 0] : List ℚ) [] [1, 1] = [1, 3] := by
  constructor <;> decide +kernel

variable [IsStrictOrderedRing V]

/-- C17 (exact arithmetic): RelativeStrengthIndex with period `n ≥ 1` emits nothing for the first `n` messages and then for each
message one message with its time and the relative strength index (Wilder's smoothing) of all values received so far. -/
theorem C17_rsi (id : Str) (n : Nat) (hn : 1 ≤ n) (hlen : n + 1 < 2 ^ 64) :
    Computes (Op.newRsi id n : Op V) i1
      (fun h m => if h.length < n then [] else [(o1, [⟨m.time, rsiOf n (values (h ++ [m]))⟩])]) :=
  rsi_computes id hn hlen

/-- C17, range: every emitted value lies in [0, 100]. -/
theorem C17_range (id : Str) (n : Nat) (hn : 1 ≤ n) (hlen : n + 1 < 2 ^ 64) (ms : List (Msg V)) :
    ∃ outs o', feedOp (Op.newRsi id n : Op V) i1 ms = .ok outs o' ∧
      ∀ m ∈ emittedOn o1 outs, 0 ≤ m.value ∧ m.value ≤ 100 := by
  obtain ⟨o', h⟩ := C17_rsi (V := V) id n hn hlen ms
  refine ⟨_, o', h, ?_⟩
  have gen : ∀ (ms h : List (Msg V)), ∀ m ∈ emittedOn o1 (answers (fun h m =>
      if h.length < n then [] else [(o1, [⟨m.time, rsiOf n (values (h ++ [m]))⟩])]) h ms), 0 ≤ m.value ∧ m.value ≤ 100 := by
    intro ms
    induction ms with
    | nil => intro h m hm; simp [answers, emittedOn] at hm
    | cons x ms ih =>
      intro h m hm
      rw [answers, emittedOn_cons, List.mem_append] at hm
      rcases hm with hm | hm
      · split at hm
        · simp [msgsOn] at hm
        · simp only [msgsOn, Map.find?_cons, if_true, List.mem_singleton] at hm
          subst hm
          exact rsiOf_range hn _
      · exact ih _ m hm
  exact gen ms []

/-- A concrete case: period 2, values 10, 12, 11, 15. -/
example : emittedValues (feedOp (Op.newRsi [] 2 : Op ℚ) i1 [⟨1, 10⟩, ⟨2, 12⟩, ⟨3, 11⟩, ⟨4, 15⟩]) = some [200 / 3, 1000 / 11] ∧
    rsiOf 2 ([10, 12, 11, 15] : List ℚ) = 1000 / 11 := by
  constructor <;> decide +kernel

end Rtbot
