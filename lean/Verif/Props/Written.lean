import Verif.Props.Getters
import Verif.Props.Snapshot
import Verif.Lemmas.Write

/-! # C48: what a program writes of its operators does not change -/

namespace Rtbot
open Spec
variable {V : Type} [Num V]

theorem writeOps_shape {h h' : Nat → Option (Op V)} (hs : SameShape h h') (m : Map Nat) : writeOps h' m = writeOps h m := by
  induction m with
  | nil => rfl
  | cons e m ih =>
    obtain ⟨k, a⟩ := e
    unfold writeOps
    rw [ih]
    have := hs a
    cases h1 : h a <;> cases h2 : h' a <;> rw [h1, h2] at this <;> first | rfl | cases this | skip
    rename_i o o'
    dsimp only
    rw [← write_fresh o', Option.some.inj (by simpa using this : some o'.fresh = some o.fresh), write_fresh]

/-- C48: what a program writes of its operators does not depend on what it was fed: after any calls, failed ones included, `getProgram` gives what it gave before. -/
theorem C48_stays {junk : Junk V} {json : Str} {j : Json V} {P : Prog V} (h : Prog.initWith junk json j = .ok P) (fuel : Nat) (cs : List (Feed V)) :
    (afterCalls fuel P cs).getProgram = P.getProgram := by
  unfold Prog.getProgram
  rw [(afterCalls_frame fuel cs P).2.1, writeOps_shape (afterCalls_steps fuel cs P (created_wf h)).shape]

/-- A concrete case: a program is written after calls as it is written at first. -/
example : ∃ P d, sumProgram = .ok P ∧ P.getProgram = .ok d ∧ (afterCalls 9 P somePast).getProgram = .ok d ∧
    d = .arr [.obj [(b!"id", .str b!"in"), (b!"numPorts", .uint 1), (b!"type", .str b!"Input")], .obj [(b!"id", .str b!"ma"), (b!"n", .uint 2), (b!"type", .str b!"MovingAverage")],
      .obj [(b!"id", .str b!"sum"), (b!"type", .str b!"CumulativeSum")]] := by
  obtain ⟨P, hP⟩ : ∃ P, sumProgram = .ok P := ⟨_, rfl⟩
  refine ⟨P, _, hP, ?_, ?_, rfl⟩
  · cases hP; rfl
  · rw [C48_stays (j := sumDescription) hP]
    cases hP; rfl

end Rtbot
