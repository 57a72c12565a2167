import Verif.Lemmas.Gate

/-! # Property of Input: C01 -/

namespace Rtbot
open Spec
variable {V : Type} [Num V]

/-- C01, for every sequence of calls: every call succeeds, nothing is emitted on other ports, and port oK emits what the
specification `gate` of port iK alone says (`gate` looks only at the messages of its own port). -/
theorem C01_input (id : Str) (n : Nat) (as : List (Act V)) (hv : ∀ a ∈ as, Gate.Valid n a) :
    ∃ o outs, Op.newInput id n = .ok o ∧ results o as = outs.map .ok ∧ (∀ out ∈ outs, ∀ q ∈ out.keys, IsPort oPort n q) ∧
      ∀ k, 1 ≤ k → k ≤ n → emittedOn (oPort k) outs = gate (n == 1) (iPort k) none none as := by
  obtain ⟨c, pm, h1, _⟩ := addPorts_spec (V := V) id 1 n
  have hnew : (Op.newInput id n : Except Err (Op V)) = .ok ⟨c, .input pm []⟩ := by unfold Op.newInput; rw [h1]; rfl
  obtain ⟨outs, h⟩ := Gate.run as _ _ _ (Gate.init id n _ hnew) hv
  exact ⟨_, outs, hnew, h⟩

/-- C01, messages executed one at a time (as a program feeds its entry): port oK emits exactly the messages of port iK newer than
every message forwarded before on it, unmodified; their times strictly increase. -/
theorem C01_records (id : Str) (n : Nat) (xs : List (Str × Msg V)) (hv : ∀ x ∈ xs, IsPort iPort n x.1) :
    ∃ o outs, Op.newInput id n = .ok o ∧ results o (oneByOne xs) = outs.map .ok ∧
      ∀ k, 1 ≤ k → k ≤ n →
        emittedOn (oPort k) outs = records none ((xs.filter fun x => decide (x.1 = iPort k)).map (·.2)) ∧
        Increasing (emittedOn (oPort k) outs) := by
  obtain ⟨o, outs, h1, h2, _, h4⟩ := C01_input id n (oneByOne xs) (by
    intro a ha
    simp only [oneByOne, List.mem_flatMap] at ha
    obtain ⟨x, hx, ha⟩ := ha
    simp only [List.mem_cons, List.not_mem_nil, or_false] at ha
    rcases ha with rfl | rfl
    · exact Or.inl (hv x hx)
    · exact True.intro)
  refine ⟨o, outs, h1, h2, ?_⟩
  intro k hk1 hk2
  have he : emittedOn (oPort k) outs = records none ((xs.filter fun x => decide (x.1 = iPort k)).map (·.2)) := by
    rw [h4 k hk1 hk2, Gate.gate_oneByOne]
    congr 2
    apply List.filter_congr
    intro x hx
    have hne : x.1 ≠ [] := by
      obtain ⟨j, _, _, hj⟩ := hv x hx
      rw [hj]; exact iPort_ne_nil j
    simp [hne]
  exact ⟨he, by rw [he]; exact (Gate.records_increasing _ none).1⟩

/-- A case with two ports and out-of-order messages. -/
example : (records none ([⟨3, 1⟩, ⟨2, 2⟩, ⟨3, 3⟩, ⟨5, 4⟩, ⟨4, 5⟩, ⟨9, 6⟩] : List (Msg Nat))).map (·.value) = [1, 4, 6] ∧
    IsPort iPort 2 (iPort 1) ∧ IsPort iPort 2 (iPort 2) := by
  exact ⟨by decide, ⟨1, by decide, by decide, rfl⟩, ⟨2, by decide, by decide, rfl⟩⟩

end Rtbot
