import Verif.Lemmas.OrderResample
import Verif.Spec.Order
import Verif.Lemmas.SyncOps
import Verif.Lemmas.DemuxRun
import Verif.Props.Times

/-! # Properties of the order of emitted messages: C52 -/

namespace Rtbot
open Spec
variable {V : Type} [Num V]

namespace Order

theorem has_simple {ident : Str} {n : Nat} : (Core.simple ident n : Core V).dataIn = [(i1, Inp.new i1 n)] := rfl

theorem has_i1 {o : Op V} {n : Nat} (ho : o.core.dataIn = [(i1, Inp.new i1 n)]) {as : List (Act V)} (h : InOrder o as) : Increasing (addressed true i1 as) := by
  have := h.1 i1 (by rw [ho]; rfl)
  rw [ho] at this
  exact this

/-- Operators with one port "i1" that emit at the time of the last message of the window. -/
theorem last_order {o : Op V} (hb : Built o) (hk : o.kind.isBase = true) (hl : IsLast o.kind) {n : Nat} (ho : o.core.dataIn = [(i1, Inp.new i1 n)])
    (hid : o.kind = .identity → n = 1) (hdiff : ∀ b, o.kind = .difference b → n = 2) (as : List (Act V)) (h : InOrder o as)
    (hs : ∀ x ∈ addressed true i1 as, ∀ t, Stamp o.kind x.time t → t = x.time) (q : Str) : Increasing (sent q (results o as)) :=
  last_run hb hk hl ho hid hdiff (f := fun t => t) as (has_i1 ho h) (fun _ _ _ _ h => h) hs q

end Order
open Order

/-- C52, with what some operators need for it: whatever is called on a newly built operator (messages for any ports, processed at any time), if the messages
for each of its ports have strictly increasing times, the messages it emits on each output port have strictly increasing times. `OrderCond` is `True` for
all operators but Difference, TimeShift, the resamplers and AutoRegressive; what fails without it is shown by the theorems `C52_violated_*`. -/
theorem C52_order_partial {o : Op V} (hb : Built o) (as : List (Act V)) (hin : InOrder o as) (hc : OrderCond o.kind as) (q : Str) :
    Increasing (sent q (results o as)) := by
  have hports : ∀ p i, o.core.dataIn.find? p = some i → Increasing (addressed (o.core.dataIn.length == 1) p as) :=
    fun p i h => hin.1 p (by rw [Map.has, h]; rfl)
  have hjoin : o.kind.isJoin = true → (∃ p, o.core.dataIn.has p = true) → Increasing (sent q (results o as)) :=
    fun hk ⟨p, hp⟩ => join_run hb hk hp as (hin.1 p hp) q
  cases hb with
  | input h =>
    have hb := Built.input h
    unfold Op.newInput at h
    obtain ⟨⟨c, pm⟩, h1, h⟩ := bind_eq_ok.1 h
    cases h
    exact ports_run hb h1 rfl (Or.inl rfl) as hports q
  | output h =>
    have hb := Built.output h
    unfold Op.newOutput at h
    obtain ⟨⟨c, pm⟩, h1, h⟩ := bind_eq_ok.1 h
    cases h
    exact ports_run hb h1 rfl (Or.inr rfl) as hports q
  | @join id n o h =>
    obtain ⟨c, pm, h1, h2, _⟩ := addPorts_spec (V := V) id 0 n
    unfold Op.newJoin at h
    split at h
    · cases h
    · rw [h1] at h
      cases h
      refine hjoin rfl ⟨iPort 1, (Map.has_iff _ _).2 ((h2.keys _).2 ⟨1, ?_⟩)⟩
      exact ⟨Nat.le_refl _, by omega, rfl⟩
  | binary id op => exact hjoin rfl ⟨i1, rfl⟩
  | @linear id coeff o h =>
    obtain ⟨c, h1, h2, _⟩ := Sync.addInputs_spec (V := V) id coeff.length
    unfold Op.newLinear at h
    split at h
    · cases h
    · rw [h1] at h
      cases h
      refine hjoin rfl ⟨iPort 1, (Map.has_iff _ _).2 ((h2.keys _).2 ⟨1, ?_⟩)⟩
      exact ⟨Nat.le_refl _, by omega, rfl⟩
  | @demux id n o h =>
    have hb := Built.demux h
    obtain ⟨c, pm, h1, _, _, _, h2, _⟩ := Demux.addControls_spec (V := V) id n
    unfold Op.newDemux at h
    split at h
    · cases h
    · obtain ⟨⟨c', pm'⟩, h3, h⟩ := bind_eq_ok.1 h
      rw [h1] at h3
      cases h3
      obtain ⟨c'', h4, h⟩ := bind_eq_ok.1 h
      cases h
      have hd : c''.dataIn = [(i1, Inp.new i1 0)] := by
        unfold Core.addDataInput at h4
        repeat' split at h4
        all_goals first
          | (cases h4; done)
          | (cases h4; dsimp only; rw [h2]; rfl)
      exact demux_run hb rfl (p := i1) (by rw [hd]; rfl) as (hin.1 i1 (by rw [hd]; rfl)) q
  | «variable» id value => exact variable_run (.variable id value) rfl rfl as (hin.2 c1 rfl) q
  | peak id n => exact peak_run (.peak id n) rfl rfl as (has_i1 rfl hin) q
  | autoReg id coeff => exact ar_run (.autoReg id coeff) rfl rfl as (has_i1 rfl hin) hc q
  | timeShift id dt n =>
    exact last_run (.timeShift id dt n) rfl trivial (p := i1) rfl (fun h => by cases h) (fun b h => by cases h) (f := timeShiftTime dt n) as (has_i1 rfl hin)
      (timeShift_mono hc.1 hc.2) (fun _ _ _ h => h) q
  | constRes h =>
    have hb := Built.constRes h
    unfold Op.newConstRes at h
    split at h
    · cases h
    · next hdt =>
      cases h
      exact constRes_run hb rfl (UInt64.not_le.1 hdt) rfl as hc q
  | cosRes id dt => exact cosRes_run (.cosRes id dt) rfl rfl as (has_i1 rfl hin) hc q
  | hermRes id dt => exact hermRes_run (.hermRes id dt) rfl rfl as (has_i1 rfl hin) hc.1 hc.2 q
  | difference id b =>
    cases b with
    | false => exact hc.elim
    | true =>
      refine last_order (.difference id true) rfl trivial (n := 2) rfl (fun h => by cases h) (fun _ _ => rfl) as hin (fun x hx t ht => ?_) q
      unfold Stamp toTimeE at ht
      have := hc x hx
      dsimp only [Op.newDifference] at ht
      rw [this] at ht
      cases ht
      rfl
  | function h =>
    have hb := Built.function h
    unfold Op.newFunction at h
    split at h
    · cases h
    · split at h
      · cases h
      · cases h
        exact last_order hb rfl trivial (n := 1) rfl (fun h => by cases h) (fun b h => by cases h) as hin (fun _ _ _ h => h) q
  | identity id => exact last_order (.identity id) rfl trivial (n := 1) rfl (fun _ => rfl) (fun b h => by cases h) as hin (fun _ _ _ h => h) q
  | collector id n => exact last_order (.collector id n) rfl trivial (n := n) rfl (fun h => by cases h) (fun b h => by cases h) as hin (fun _ _ _ h => h) q
  | filter id f v => exact last_order (.filter id f v) rfl trivial (n := 1) rfl (fun h => by cases h) (fun b h => by cases h) as hin (fun _ _ _ h => h) q
  | add id v => exact last_order (.add id v) rfl trivial (n := 1) rfl (fun h => by cases h) (fun b h => by cases h) as hin (fun _ _ _ h => h) q
  | scale id v => exact last_order (.scale id v) rfl trivial (n := 1) rfl (fun h => by cases h) (fun b h => by cases h) as hin (fun _ _ _ h => h) q
  | power id v => exact last_order (.power id v) rfl trivial (n := 1) rfl (fun h => by cases h) (fun b h => by cases h) as hin (fun _ _ _ h => h) q
  | constant id v => exact last_order (.constant id v) rfl trivial (n := 1) rfl (fun h => by cases h) (fun b h => by cases h) as hin (fun _ _ _ h => h) q
  | count id => exact last_order (.count id) rfl trivial (n := 1) rfl (fun h => by cases h) (fun b h => by cases h) as hin (fun _ _ _ h => h) q
  | cumSum id => exact last_order (.cumSum id) rfl trivial (n := 1) rfl (fun h => by cases h) (fun b h => by cases h) as hin (fun _ _ _ h => h) q
  | movAvg id n => exact last_order (.movAvg id n) rfl trivial (n := n) rfl (fun h => by cases h) (fun b h => by cases h) as hin (fun _ _ _ h => h) q
  | stdDev id n => exact last_order (.stdDev id n) rfl trivial (n := n) rfl (fun h => by cases h) (fun b h => by cases h) as hin (fun _ _ _ h => h) q
  | fir id coeff => exact last_order (.fir id coeff) rfl trivial (n := coeff.length) rfl (fun h => by cases h) (fun b h => by cases h) as hin (fun _ _ _ h => h) q
  | rsi id n => exact last_order (.rsi id n) rfl trivial rfl (fun h => by cases h) (fun b h => by cases h) as hin (fun _ _ _ h => h) q

/-- C52 for the other operators, where nothing else has to hold: Input, Output, Join, the binary joins, Linear, Demultiplexer, Variable, the filters, Add, Scale,
Power, Constant, Identity, Count, CumulativeSum, MovingAverage, StandardDeviation, PeakDetector, FiniteImpulseResponse, RelativeStrengthIndex, Function. -/
theorem C52_order {o : Op V} (hb : Built o) (as : List (Act V)) (hin : InOrder o as) (hk : ¬ OwnTimes o.kind) (har : ∀ coeff, o.kind ≠ .autoReg coeff) (q : Str) :
    Increasing (sent q (results o as)) := by
  refine C52_order_partial hb as hin ?_ q
  cases h : o.kind with
  | autoReg coeff => exact (har _ h).elim
  | _ => first | trivial | (rw [h] at hk; exact (hk trivial).elim)

/-- A concrete case: messages for both ports of a Join arriving unevenly, with one exec call per message. -/
def orderRun : List (Act ℚ) :=
  [.recvData i1 ⟨1, 1⟩, .execData, .recvData i1 ⟨3, 1⟩, .execData, .recvData i2 ⟨2, 1⟩, .execData, .recvData i2 ⟨3, 1⟩, .execData, .recvData i2 ⟨4, 1⟩, .execData,
   .recvData i1 ⟨4, 1⟩, .execData]

example : InOrder (Op.newBinary [] .plus : Op ℚ) orderRun ∧ sentTimes (Op.newBinary [] .plus) orderRun = [3, 4] := by
  refine ⟨⟨fun p hp => ?_, fun p hp => by cases hp⟩, by decide +kernel⟩
  have : p = i1 ∨ p = i2 := by
    rcases (Map.has_iff _ _).1 hp with _ | ⟨_, h⟩
    · exact Or.inl rfl
    · exact Or.inr (List.mem_singleton.1 h)
  unfold Increasing
  rcases this with rfl | rfl <;> decide +kernel

/-- Concrete cases meeting the further conditions: a TimeShift back by 3, a HermiteResampler, an AutoRegressive. -/
example : Shiftable (1 * UInt64.ofInt (-3)) [(⟨5, 1⟩ : Msg ℚ), ⟨7, 1⟩] ∧
    sentTimes (Op.newTimeShift [] 1 (-3)) [.recvData i1 ⟨5, 1⟩, .execData, .recvData i1 ⟨7, 1⟩, .execData] = [2, 4] ∧
    sentTimes (Op.newHermRes [] 2) [.recvData i1 ⟨1, 1⟩, .recvData i1 ⟨4, 2⟩, .recvData i1 ⟨6, 2⟩, .recvData i1 ⟨9, 2⟩, .execData, .recvData i1 ⟨11, 2⟩, .execData] =
      [3, 5, 7, 9] ∧
    sentTimes (Op.newAutoReg [] [1]) [.recvData i1 ⟨5, 1⟩, .execData, .recvData i1 ⟨7, 2⟩, .execData] = [5, 7] := by
  refine ⟨⟨by decide +kernel, Or.inr fun x hx => ?_⟩, by decide +kernel⟩
  rcases hx with _ | ⟨_, _ | ⟨_, hx⟩⟩
  · decide +kernel
  · decide +kernel
  · cases hx

/-- C52 fails for Difference without `useOldestTime`, which takes the value of the older message as the time. -/
theorem C52_violated_difference :
    sentTimes (Op.newDifference [] false) [.recvData i1 ⟨1, 100⟩, .recvData i1 ⟨2, 50⟩, .execData, .recvData i1 ⟨3, 50⟩, .execData] = [100, 50] := by
  decide +kernel

/-- C52 fails for TimeShift with shift 0, which gives every message the time 0, and when shifted times overflow. -/
theorem C52_violated_timeShift :
    sentTimes (Op.newTimeShift [] 0 1) [.recvData i1 ⟨1, 1⟩, .execData, .recvData i1 ⟨2, 1⟩, .execData] = [0, 0] ∧
    sentTimes (Op.newTimeShift [] 1 1) [.recvData i1 ⟨2 ^ 64 - 2, 1⟩, .execData, .recvData i1 ⟨2 ^ 64 - 1, 1⟩, .execData] = [2 ^ 64 - 1, 0] ∧
    sentTimes (Op.newTimeShift [] 1 (-3)) [.recvData i1 ⟨2, 1⟩, .execData, .recvData i1 ⟨4, 1⟩, .execData] = [2 ^ 64 - 1, 1] := by
  decide +kernel

/-- C52 fails for HermiteResampler when the first interval is shorter than the distance `dt`: having emitted nothing before the second message, it starts again with the next
window and emits the same time twice. -/
theorem C52_violated_hermite :
    sentTimes (Op.newHermRes [] 10) [.recvData i1 ⟨0, 1⟩, .recvData i1 ⟨5, 1⟩, .recvData i1 ⟨15, 1⟩, .recvData i1 ⟨20, 1⟩, .execData, .recvData i1 ⟨30, 1⟩, .execData] =
      [10, 10, 20] := by
  decide +kernel

/-- C52 fails for CosineResampler and ConstantResampler when times near 2^64 overflow. -/
theorem C52_violated_overflow :
    sentTimes (Op.newCosRes [] (2 ^ 63 + 2 ^ 61)) [.recvData i1 ⟨0, 1⟩, .recvData i1 ⟨2 ^ 63 + 2 ^ 62, 1⟩, .execData] = [2 ^ 63 + 2 ^ 61, 2 ^ 62] ∧
    (Op.newConstRes [] (2 ^ 63 + 2 ^ 62) 0 (0 : ℚ)).toOption.map (sentTimes · [.recvData i1 ⟨2 ^ 63, 1⟩, .execData, .recvData i1 ⟨2 ^ 63 + 1, 1⟩, .execData]) =
      some [2 ^ 62, 0] := by
  decide +kernel

/-- C52 fails for AutoRegressive when it is executed twice for one message: it emits twice at the same time. -/
theorem C52_violated_autoRegressive :
    sentTimes (Op.newAutoReg [] [1, 1]) [.recvData i1 ⟨5, 1⟩, .execData, .execData] = [5, 5] := by
  decide +kernel

end Rtbot
