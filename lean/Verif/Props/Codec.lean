import Verif.Lemmas.Codec
import Verif.Spec.Toy

set_option linter.unusedSectionVars false

/-! # C35: the encoding of operator states -/

namespace Rtbot
variable {V : Type} [Num V] [Spec.LosslessBits V]
open Spec

/-- C35: reading back the bytes of an operator into a newly built one with the same parameters gives the operator, and stops right
behind the bytes, whatever follows and whatever has happened to the operator since it was built. -/
theorem C35_lossless {o0 o0' : Op V} (h0 : Connected o0) (h0' : Connected o0') (hp : SameParams o0 o0') (as : List (Act V))
    (hf : Fits (after o0 as)) (hc : Covered o0) : Reads o0'.restore (after o0 as).collect (after o0 as) := by
  have h1 := after_fresh h0.start.wf as
  refine reads_op h0'.start (h1.trans (SameParams.fresh hp)) (h0.start.tidy.after as) hf ?_
  have h2 : (after o0 as).kind.fresh = o0.kind.fresh := congrArg Op.kind h1
  unfold Covered at hc
  cases h3 : (after o0 as).kind <;> rw [h3] at h2 <;> try rfl
  · cases h4 : o0.kind <;> rw [h4] at h2 hc <;> first | (cases h2; done) | exact hc.elim
  · cases h4 : o0.kind <;> rw [h4] at h2 hc <;> first | (cases h2; done) | exact hc.elim

/-- C35: the encoding of the other two operators is self-delimiting as well. Of a CumulativeSum the accumulated value is restored,
of a RelativeStrengthIndex the buffer. -/
theorem C35_rest {o0 o0' : Op V} (h0 : Connected o0) (h0' : Connected o0') (hp : SameParams o0 o0') (as : List (Act V))
    (hf : Fits (after o0 as)) :
    (∀ a, (after o0 as).kind = .cumSum a → Reads o0'.restore (after o0 as).collect ⟨o0'.core, .cumSum a⟩) ∧
    (∀ x, (after o0 as).kind = .rsi x → ∃ x0, Reads o0'.restore (after o0 as).collect ⟨(after o0 as).core, .rsi x0⟩) := by
  have h1 := (after_fresh h0.start.wf as).trans (SameParams.fresh hp)
  have h2 : (after o0 as).kind.fresh = o0'.kind.fresh := congrArg Op.kind h1
  constructor
  · intro a ha
    rw [ha] at h2
    cases h4 : o0'.kind <;> rw [h4] at h2 <;> first | (cases h2; done) | exact reads_cumSum h4 ha
  · intro x hx
    rw [hx] at h2
    cases h4 : o0'.kind <;> rw [h4] at h2 <;> first | (cases h2; done) | exact ⟨_, reads_rsi h0'.start h1 (h0.start.tidy.after as) hf h4 hx⟩

/-- A hermite resampler that has received five messages and processed the last of them. -/
def someHerm : Op Int64 := after (Op.newHermRes [104] 2) ((List.range 5).flatMap fun i => [.recvData i1 ⟨UInt64.ofNat (3 * i), Int64.ofNat i⟩, .execData])

/-- Not the initial state, and restored from its bytes in the middle of others. -/
example : someHerm.collect.length = 157 ∧
    (Op.newHermRes [104] 2 : Op Int64).restore (someHerm.collect ++ [1, 2, 3]) = .ok (someHerm, [1, 2, 3]) := by
  refine ⟨by decide +kernel, ?_⟩
  refine C35_lossless (V := Int64) (o0 := Op.newHermRes [104] 2) (o0' := Op.newHermRes [104] 2) ⟨_, _, .hermRes _ _, rfl⟩ ⟨_, _, .hermRes _ _, rfl⟩
    ⟨rfl, .inl rfl⟩ _ ?_ trivial _
  decide +kernel

end Rtbot
