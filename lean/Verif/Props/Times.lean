import Verif.Lemmas.OrderBase
import Verif.Spec.Examples

/-! # Properties of the times of emitted messages: C53 (causality) -/

namespace Rtbot
open Spec
variable {V : Type} [Num V]

/-- C53, operators with no clock of their own: whatever is called on a newly built operator (any messages, any ports, in any order), every message it
emits carries exactly the time of some message it was handed before. TimeShift, Difference and the resamplers are not covered here. -/
theorem C53_times {o : Op V} (h : Built o) (hk : ¬ OwnTimes o.kind) (as : List (Act V)) (q : Str) :
    ∀ m ∈ sent q (results o as), Given as m.time := by
  by_cases har : Times.NotAR o.kind
  · exact Times.run_times as (Times.held_new h _) har (fun c k r hf hh hfi hr => Times.process_times hh hfi (Times.ownTimes_fresh hf hk) hr)
      (Times.takes_given as) q
  · have : ∃ coeff, o.kind = .autoReg coeff := by
      cases hkd : o.kind with
      | autoReg coeff => exact ⟨coeff, rfl⟩
      | _ => exact (har (by rw [hkd]; trivial)).elim
    obtain ⟨coeff, hc⟩ := this
    exact Times.run_ar as (Times.heldLast_new h _) hc (Times.takes_given as) q

/-- C53 for ConstantResampler, with any messages in any order: no message is later than one it was handed. -/
theorem C53_constant {o : Op V} {id : Str} {dt t : UInt64} {v : V} (h : Op.newConstRes id dt t v = .ok o) (as : List (Act V)) (q : Str) :
    ∀ m ∈ sent q (results o as), ∃ t, Given as t ∧ m.time ≤ t := by
  have hb : Built o := .constRes h
  have hkind : o.kind = .constRes dt t false v := by
    unfold Op.newConstRes at h
    split at h
    · cases h
    · cases h; rfl
  refine Times.run_times (T := fun x => ∃ t, Given as t ∧ x ≤ t) as (Times.held_new hb _) (by rw [hkind]; trivial) ?_
    (fun m p hm => ⟨m.time, ⟨m, p, rfl, hm⟩, UInt64.le_refl _⟩) q
  intro c k r hf hh hfi hr
  rw [hkind] at hf
  cases k <;> first
    | exact Times.constRes_times (fun s t ⟨x, hx, hle⟩ hs => ⟨x, hx, UInt64.le_trans hs hle⟩) hh hfi hr
    | cases hf

/-- C53 for Difference with `useOldestTime`, which passes the time of the newer message through a `double`: no message is later than one it was handed,
provided this conversion makes none of the times handed to it larger. -/
theorem C53_difference (id : Str) (as : List (Act V)) (hconv : ∀ t, Given as t → ∀ t', toTimeE (V := V) (ofTime t) = .ok t' → t' ≤ t) (q : Str) :
    ∀ m ∈ sent q (results (Op.newDifference id true : Op V) as), ∃ t, Given as t ∧ m.time ≤ t := by
  have hb : Built (Op.newDifference id true : Op V) := .difference id true
  have h2 : ∀ m ∈ sent q (results (Op.newDifference id true : Op V) as), Given as m.time ∨ ∃ t, Given as t ∧ toTimeE (V := V) (ofTime t) = .ok m.time := by
    refine Order.base_run hb rfl (K := fun k E => k = .difference true ∧ ∀ q, ∀ m ∈ E q, Given as m.time ∨ ∃ t, Given as t ∧ toTimeE (V := V) (ofTime t) = .ok m.time)
      as ⟨rfl, fun q m hm => by cases hm⟩ ?_ |>.2 q
    intro c k E r hc hK hinf hne hfull hr
    obtain ⟨rfl, hE⟩ := hK
    obtain ⟨i, hd, hfind, hlen, hmem, hsole⟩ := Order.sole_window (o := (Op.newDifference id true : Op V)) (p := i1) (n := 2) rfl hc hne hfull
    have hne' : i.data ≠ [] := by intro h; rw [h] at hlen; cases hlen
    obtain ⟨p, hp, hr⟩ := bind_eq_ok.1 hr
    rw [hsole] at hp
    cases hp
    obtain ⟨m1, h1, hr⟩ := bind_eq_ok.1 hr
    obtain ⟨m0, _, hr⟩ := bind_eq_ok.1 hr
    obtain ⟨t, ht, hr⟩ := bind_eq_ok.1 hr
    cases hr
    refine ⟨rfl, fun q m hm => ?_⟩
    dsimp only at hm
    rcases List.mem_append.1 hm with hm | hm
    · exact hE q m hm
    · rw [Order.msgsOn_single] at hm
      split at hm
      · rw [List.mem_singleton.1 hm]
        refine Or.inr ⟨m1.time, ?_, ht⟩
        have := (hinf i1 i hfind).subset (List.mem_of_getElem? (Times.dataMsg_eq hfind hne' h1))
        simp only [addressed, List.mem_filterMap] at this
        obtain ⟨a, ha, hx⟩ := this
        cases a with
        | recvData p m =>
          dsimp only at hx
          split at hx
          · cases hx; exact ⟨_, p, rfl, Or.inl ha⟩
          · cases hx
        | _ => cases hx
      · cases hm
  intro m hm
  rcases h2 m hm with h | ⟨t, ht, hx⟩
  · exact ⟨_, h, UInt64.le_refl _⟩
  · exact ⟨t, ht, hconv t ht _ hx⟩

/-- The messages addressed to a port were handed to the operator. -/
theorem given_of_addressed {V : Type} {s : Bool} {p : Str} {as : List (Act V)} {x : Msg V} (h : x ∈ addressed s p as) : Given as x.time := by
  simp only [addressed, List.mem_filterMap] at h
  obtain ⟨a, ha, hx⟩ := h
  cases a with
  | recvData p m =>
    dsimp only at hx
    split at hx
    · cases hx; exact ⟨_, p, rfl, Or.inl ha⟩
    · cases hx
  | _ => cases hx

/-- C53 for CosineResampler, when its messages arrive in the order of time: no message is later than one it was handed. Nothing is assumed about the
interval, about overflow of times or about when the messages are processed. Missing: messages that go back in time (`C53_violated_cosine`). -/
theorem C53_cosine_partial (id : Str) (dt : UInt64) (as : List (Act V)) (hinc : Increasing (addressed true i1 as)) (q : Str) :
    ∀ m ∈ sent q (results (Op.newCosRes id dt : Op V) as), ∃ t, Given as t ∧ m.time ≤ t := by
  intro m hm
  obtain ⟨x, hx, hle⟩ := Order.cosRes_before (.cosRes id dt) rfl rfl as hinc q m hm
  exact ⟨x.time, given_of_addressed hx, hle⟩

/-- C53 for HermiteResampler, when its messages arrive in the order of time. Missing: messages that go back in time. -/
theorem C53_hermite_partial (id : Str) (dt : UInt64) (as : List (Act V)) (hinc : Increasing (addressed true i1 as)) (q : Str) :
    ∀ m ∈ sent q (results (Op.newHermRes id dt : Op V) as), ∃ t, Given as t ∧ m.time ≤ t := by
  intro m hm
  obtain ⟨x, hx, hle⟩ := Order.hermRes_before (.hermRes id dt) rfl rfl as hinc q m hm
  exact ⟨x.time, given_of_addressed hx, hle⟩

/-- C53 for all operators but TimeShift and Difference without `useOldestTime`: no message is later than one handed to the operator, provided CosineResampler
and HermiteResampler receive their messages in the order of time and Difference converts times exactly. -/
theorem C53_causality_partial {o : Op V} (h : Built o) (as : List (Act V)) (hshift : ∀ dt n, o.kind ≠ .timeShift dt n) (hdiff : o.kind ≠ .difference false)
    (hconv : o.kind = .difference true → ∀ t, Given as t → Num.toTime (ofTime t : V) = some t)
    (hcos : ∀ dt carry, o.kind = .cosRes dt carry → Increasing (addressed true i1 as))
    (hherm : ∀ dt carry b, o.kind = .hermRes dt carry b → Increasing (addressed true i1 as)) (q : Str) :
    ∀ m ∈ sent q (results o as), ∃ t, Given as t ∧ m.time ≤ t := by
  by_cases hk : OwnTimes o.kind
  · cases h with
    | timeShift id dt n => exact (hshift dt n rfl).elim
    | difference id b =>
      cases b with
      | false => exact (hdiff rfl).elim
      | true =>
        refine C53_difference id as (fun t ht t' h' => ?_) q
        unfold toTimeE at h'
        rw [hconv rfl t ht] at h'
        cases h'
        exact UInt64.le_refl _
    | constRes h => exact C53_constant h as q
    | cosRes id dt => exact C53_cosine_partial id dt as (hcos dt 0 rfl) q
    | hermRes id dt => exact C53_hermite_partial id dt as (hherm dt 0 none rfl) q
    | input h => unfold Op.newInput at h; obtain ⟨⟨c, pm⟩, _, h⟩ := bind_eq_ok.1 h; cases h; exact hk.elim
    | output h => unfold Op.newOutput at h; obtain ⟨⟨c, pm⟩, _, h⟩ := bind_eq_ok.1 h; cases h; exact hk.elim
    | join h =>
      unfold Op.newJoin at h
      split at h
      · cases h
      · obtain ⟨⟨c, pm⟩, _, h⟩ := bind_eq_ok.1 h; cases h; exact hk.elim
    | linear h =>
      unfold Op.newLinear at h
      split at h
      · cases h
      · obtain ⟨⟨c, pm⟩, _, h⟩ := bind_eq_ok.1 h; cases h; exact hk.elim
    | demux h =>
      unfold Op.newDemux at h
      split at h
      · cases h
      · obtain ⟨⟨c, pm⟩, _, h⟩ := bind_eq_ok.1 h
        obtain ⟨c', _, h⟩ := bind_eq_ok.1 h
        cases h; exact hk.elim
    | function h =>
      unfold Op.newFunction at h
      split at h
      · cases h
      · split at h
        · cases h
        · cases h; exact hk.elim
    | _ => exact hk.elim
  · intro m hm
    exact ⟨m.time, C53_times h hk as q m hm, UInt64.le_refl _⟩

/-- With exact arithmetic every time survives the conversion used by Difference. -/
theorem toTime_ofTime [Field V] [LinearOrder V] [IsStrictOrderedRing V] [Exact V] (t : UInt64) : Num.toTime (ofTime t : V) = some t := by
  refine Exact.toTime_eq t _ ?_ ?_ <;> unfold ofTime <;> rw [Exact.ofNat_eq]
  linarith

/-- The times of the messages emitted on "o1". -/
def sentTimes (o : Op ℚ) (as : List (Act ℚ)) : List UInt64 := (sent o1 (results o as)).map Msg.time

/-- A concrete case: three messages of a moving average over two, processed one by one, and a message that names no existing port. -/
example : sentTimes (Op.newMovAvg [] 2) [.recvData i1 ⟨5, 1⟩, .execData, .recvData [] ⟨7, 2⟩, .execData, .recvData i2 ⟨9, 1⟩, .execData] = [7] := by
  decide +kernel

/-- Concrete cases for the resamplers and Difference. -/
example : sentTimes (Op.newCosRes [] 3) [.recvData i1 ⟨5, 1⟩, .recvData i1 ⟨13, 2⟩, .execData] = [8, 11] ∧
    sentTimes (Op.newHermRes [] 2) [.recvData i1 ⟨1, 1⟩, .recvData i1 ⟨4, 2⟩, .recvData i1 ⟨6, 2⟩, .recvData i1 ⟨7, 2⟩, .execData] = [3, 5] ∧
    sentTimes (Op.newDifference [] true) [.recvData i1 ⟨5, 1⟩, .recvData i1 ⟨13, 2⟩, .execData] = [13] ∧
    (Op.newConstRes [] 3 0 (0 : ℚ)).toOption.map (sentTimes · [.recvData i1 ⟨5, 1⟩, .execData, .recvData i1 ⟨13, 2⟩, .execData]) = some [8, 11] := by
  decide +kernel

/-- C53 fails for Difference without `useOldestTime`: it takes the *value* of the older message as the time. Messages (1, 100) and (2, 103) make it emit a
message with time 100. -/
theorem C53_violated_difference :
    sentTimes (Op.newDifference [] false) [.recvData i1 ⟨1, 100⟩, .recvData i1 ⟨2, 103⟩, .execData] = [100] := by
  decide +kernel

/-- C53 fails for CosineResampler when messages go back in time: the distance wraps around, and with times 2^63 + 10, 5 and interval 2^62 it emits a message with time
2^63 + 2^62 + 10. -/
theorem C53_violated_cosine :
    sentTimes (Op.newCosRes [] (2 ^ 62)) [.recvData i1 ⟨2 ^ 63 + 10, 1⟩, .recvData i1 ⟨5, 1⟩, .execData] = [2 ^ 63 + 2 ^ 62 + 10] := by
  decide +kernel

/-- The property leaves TimeShift out; it does emit messages with later times. -/
theorem C53_timeShift : sentTimes (Op.newTimeShift [] 5 2) [.recvData i1 ⟨1, 100⟩, .execData] = [11] := by
  decide +kernel

end Rtbot
