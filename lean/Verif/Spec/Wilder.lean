import Verif.Spec.RsiIndex
import Verif.Spec.Exact

/-! # Spec: the relative strength index of the textbooks, over the reals -/

namespace Rtbot.Spec

/-- The average of the parts of the changes: the total of the first 14 times `b`, from then on `a` times the average before and `b` times the part of the next change. -/
noncomputable def wilderMean (a b : ℝ) (part : ℝ → ℝ) (ds : List ℝ) : ℝ := (ds.drop 14).foldl (fun y d => y * a + part d * b) (((ds.take 14).map part).sum * b)

/-- The index of the messages up to one of them, where it is a number: 100 - 100 / (1 + G / L) for the average gain G and the average loss L. -/
noncomputable def wilderIndex (a b : ℝ) (ms : List (Msg ℝ)) : Option (Msg ℝ) :=
  match ms.getLast? with
  | none => none
  | some m => if wilderMean a b (fun d => max (-d) 0) (changes ms) = 0 then none
    else some ⟨m.time, 100 - 100 / (1 + wilderMean a b (fun d => max d 0) (changes ms) / wilderMean a b (fun d => max (-d) 0) (changes ms))⟩

/-- Every message comes one unit of time after the one before. -/
def Consecutive {V : Type} (ms : List (Msg V)) : Prop := ms.IsChain fun m m' => m'.time = m.time + 1

end Rtbot.Spec
