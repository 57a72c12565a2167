import Verif.Lemmas.Variable
import Verif.Spec.Exact

/-! # Property of Variable: C18 -/

namespace Rtbot
open Spec
variable {V : Type} [Num V]

/-- C18: for every interleaving of data messages, queries and executions with strictly increasing data and strictly increasing
queries, every call succeeds and the outputs are exactly those of the specification `varRun`: each execution answers the pending query
`t` with one message `(t, v)`, where `v` is the value of the latest data message with time ≤ t (the default value when the first data
message is newer), or leaves it pending while all data are older. A query that waits is replaced by a newer one (see
`C18_violated_query_lost`). -/
theorem C18_variable_partial (id : Str) (dflt : V) (as : List (Act V)) (hports : ∀ a ∈ as, ValidPort i1 c1 a)
    (hdata : Increasing (dataOf as)) (hctrl : Increasing (ctrlOf as)) (hlen : as.length < 2 ^ 64 - 1) :
    results (Op.newVariable id dflt) as = (varRun dflt ⟨[], none⟩ as).map .ok := by
  apply Var.run (id := id) as [] [] none _ _ hports (by simpa using hdata) (by simpa using hctrl) (by simpa using hlen)
  refine ⟨⟨Num.ofNat 0, Num.ofNat 0, [], false, [], [], rfl, rfl, fun _ => rfl, fun h => by cases h⟩, fun q h => by cases h⟩

/-- A concrete case: default 7; query at 1 before the data at 2, query at 5 that waits for the message at 6. -/
example : varRun (7 : ℚ) ⟨[], none⟩ [.recvCtrl c1 ⟨1, 0⟩, .execCtrl, .recvData i1 ⟨2, 20⟩, .execData, .recvCtrl c1 ⟨5, 0⟩, .execCtrl,
      .recvData i1 ⟨4, 40⟩, .execData, .recvData i1 ⟨6, 60⟩, .execData] =
    [[], [], [], [(o1, [⟨1, 7⟩])], [], [], [], [], [], [(o1, [⟨5, 40⟩])]] ∧
    (∀ a ∈ ([.recvCtrl c1 ⟨1, 0⟩, .execCtrl, .recvData i1 ⟨2, 20⟩, .execData, .recvCtrl c1 ⟨5, 0⟩, .execCtrl,
      .recvData i1 ⟨4, 40⟩, .execData, .recvData i1 ⟨6, 60⟩, .execData] : List (Act ℚ)), ValidPort i1 c1 a) := by
  refine ⟨by decide +kernel, ?_⟩
  simp [ValidPort]

/-- What a waiting query means for the user: a query newer than all data is never answered when another query arrives first. Here
query 3 is sent, then query 5, then data at 1 and 6: only query 5 is answered although the value at time 3 is known. -/
theorem C18_violated_query_lost :
    results (Op.newVariable [] 7 : Op ℚ) [.recvCtrl c1 ⟨3, 0⟩, .execCtrl, .recvCtrl c1 ⟨5, 0⟩, .execCtrl,
      .recvData i1 ⟨1, 10⟩, .execData, .recvData i1 ⟨6, 60⟩, .execData] =
    [.ok [], .ok [], .ok [], .ok [], .ok [], .ok [], .ok [], .ok [(o1, [⟨5, 10⟩])]] := by
  rw [C18_variable_partial]
  · decide +kernel
  · simp [ValidPort]
  · simp [dataOf, Increasing]
  · simp [ctrlOf, Increasing]
  · simp

end Rtbot
