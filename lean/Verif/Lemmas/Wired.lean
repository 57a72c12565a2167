import Verif.Spec.Examples
import Verif.Spec.Stream

/-! # What an operator computes does not depend on its connections -/

set_option linter.unusedSectionVars false

namespace Rtbot
variable {V : Type} [Num V]
open Spec

/-- Change the state in a result. -/
def Res.mapState {σ τ α : Type} (f : σ → τ) : Res σ α → Res τ α
  | .ok a s => .ok a (f s)
  | .err e s => .err e (f s)

theorem process_wired (o : Op V) (w : Map (List Conn)) : (wired o w).process = o.process := by
  obtain ⟨c, k⟩ := o
  cases k <;> rfl

theorem ready_wired (c : Core V) (w : Map (List Conn)) : ({ c with outputs := w } : Core V).readyPorts = c.readyPorts := rfl

theorem execBase_wired (o : Op V) (w : Map (List Conn)) : (wired o w).execBase = o.execBase.mapState (fun o => wired o w) := by
  unfold Op.execBase
  have h1 : (wired o w).core.readyPorts = o.core.readyPorts := rfl
  rw [h1]
  cases o.core.readyPorts with
  | error e => rfl
  | ok ready =>
    dsimp only
    split
    · rfl
    · have h2 := process_wired { o with core := { o.core with toProcess := ready } } w
      have h3 : ({ wired o w with core := { (wired o w).core with toProcess := ready } } : Op V) =
        wired { o with core := { o.core with toProcess := ready } } w := rfl
      rw [h3, h2]
      cases ({ o with core := { o.core with toProcess := ready } } : Op V).process with
      | error e => rfl
      | ok r => rfl

theorem joinProcess_wired (o : Op V) (w : Map (List Conn)) : joinProcess (wired o w) = joinProcess o := by
  obtain ⟨c, k⟩ := o
  cases k <;> rfl

theorem execJoin_wired (o : Op V) (w : Map (List Conn)) : (wired o w).execJoin = o.execJoin.mapState (fun o => wired o w) := by
  unfold Op.execJoin
  have h1 : (wired o w).core.dataIn = o.core.dataIn := rfl
  rw [h1]
  cases o.core.dataIn with
  | nil => rfl
  | cons e rest =>
    obtain ⟨p0, i0⟩ := e
    dsimp only
    cases i0.data with
    | nil => rfl
    | cons m0 ms =>
      dsimp only
      cases joinLatest ((p0, i0) :: rest) (p0, m0.time) with
      | none => rfl
      | some b =>
        dsimp only
        generalize (((p0, i0) :: rest).map fun x => _) = dropped
        split
        · have h2 := joinProcess_wired { o with core := { o.core with dataIn := dropped } } w
          have h3 : ({ wired o w with core := { (wired o w).core with dataIn := dropped } } : Op V) =
            wired { o with core := { o.core with dataIn := dropped } } w := rfl
          rw [h3, h2]
          cases joinProcess ({ o with core := { o.core with dataIn := dropped } } : Op V) with
          | error e => rfl
          | ok r =>
            dsimp only
            cases popAll dropped <;> rfl
        · rfl

theorem execDemux_wired (o : Op V) (cm : Map Str) (w : Map (List Conn)) : (wired o w).execDemux cm = (o.execDemux cm).mapState (fun o => wired o w) := by
  unfold Op.execDemux
  have h1 : (wired o w).core.dataIn = o.core.dataIn := rfl
  have h2 : (wired o w).core.ctrlIn = o.core.ctrlIn := rfl
  rw [h1, h2]
  split
  · split
    · rfl
    · dsimp only
      split
      · rfl
      · split
        · split
          · rfl
          · split <;> rfl
        · rfl
  · rfl

theorem execAR_wired (o : Op V) (as : List V) (w : Map (List Conn)) : (wired o w).execAR as = (o.execAR as).mapState (fun o => wired o w) := by
  unfold Op.execAR
  have h1 : (wired o w).core.dataIn = o.core.dataIn := rfl
  rw [h1]
  split
  · split
    · rfl
    · split
      · rfl
      · split <;> rfl
  · rfl

theorem execVariable_wired (o : Op V) (v : V) (ini : Bool) (w : Map (List Conn)) :
    (wired o w).execVariable v ini = (o.execVariable v ini).mapState (fun o => wired o w) := by
  unfold Op.execVariable
  have h1 : (wired o w).core.dataIn = o.core.dataIn := rfl
  have h2 : (wired o w).core.ctrlIn = o.core.ctrlIn := rfl
  rw [h1, h2]
  split
  · split
    · rfl
    · rfl
    · dsimp only
      split
      · split <;> rfl
      · split
        · rfl
        · split <;> rfl
  · rfl

theorem execData_wired (o : Op V) (w : Map (List Conn)) : (wired o w).execData = o.execData.mapState (fun o => wired o w) := by
  unfold Op.execData
  have h : (wired o w).kind = o.kind := rfl
  rw [h]
  split
  · exact execJoin_wired o w
  · exact execJoin_wired o w
  · exact execJoin_wired o w
  · exact execDemux_wired o _ w
  · exact execAR_wired o _ w
  · exact execVariable_wired o _ _ w
  · exact execBase_wired o w

theorem execCtrl_wired (o : Op V) (w : Map (List Conn)) : (wired o w).execCtrl = o.execCtrl.mapState (fun o => wired o w) := by
  unfold Op.execCtrl
  have h : (wired o w).kind = o.kind := rfl
  rw [h]
  split
  · exact execDemux_wired o _ w
  · exact execVariable_wired o _ _ w
  · rfl

theorem recvData_wired (o : Op V) (w : Map (List Conn)) (m : Msg V) (p : Str) :
    (wired o w).recvData m p = (o.recvData m p).map (fun o => wired o w) := by
  obtain ⟨c, k⟩ := o
  have hb : (wired ⟨c, k⟩ w).core.receiveDataBase m p = (c.receiveDataBase m p).map fun c => { c with outputs := w } := by
    unfold Core.receiveDataBase
    change (match c.dataIn.find? (c.resolveData p) with | none => _ | some i => _) = _
    dsimp only
    cases c.dataIn.find? (c.resolveData p) with
    | none => rfl
    | some i => simp only [bind, Except.bind]; cases i.receive m <;> rfl
  have hj : (wired ⟨c, k⟩ w).core.receiveDataJoin m p = (c.receiveDataJoin m p).map fun c => { c with outputs := w } := by
    unfold Core.receiveDataJoin
    split
    · rfl
    · change (match c.dataIn.find? p with | none => _ | some i => _) = _
      cases c.dataIn.find? p <;> rfl
  have hd : (wired ⟨c, k⟩ w).core.receiveDataDemux m p = (c.receiveDataDemux m p).map fun c => { c with outputs := w } := by
    unfold Core.receiveDataDemux
    change (match c.dataIn.find? (c.resolveData p) with | none => _ | some i => _) = _
    dsimp only
    cases c.dataIn.find? (c.resolveData p) <;> rfl
  have ha : (wired ⟨c, k⟩ w).core.receiveDataAR m p = (c.receiveDataAR m p).map fun c => { c with outputs := w } := by
    unfold Core.receiveDataAR
    change (match c.dataIn.find? (c.resolveData p) with | none => _ | some i => _) = _
    dsimp only
    cases c.dataIn.find? (c.resolveData p) with
    | none => rfl
    | some i => dsimp only; split <;> rfl
  unfold Op.recvData
  have hk : (wired ⟨c, k⟩ w).kind = k := rfl
  rw [hk]
  cases k with
  | join => simp only [bind, Except.bind]; rw [hj]; cases c.receiveDataJoin m p <;> rfl
  | binary => simp only [bind, Except.bind]; rw [hj]; cases c.receiveDataJoin m p <;> rfl
  | linear => simp only [bind, Except.bind]; rw [hj]; cases c.receiveDataJoin m p <;> rfl
  | demux => simp only [bind, Except.bind]; rw [hd]; cases c.receiveDataDemux m p <;> rfl
  | autoReg => simp only [bind, Except.bind]; rw [ha]; cases c.receiveDataAR m p <;> rfl
  | _ => simp only [bind, Except.bind]; rw [hb]; cases c.receiveDataBase m p <;> rfl

theorem recvCtrl_wired (o : Op V) (w : Map (List Conn)) (m : Msg V) (p : Str) :
    (wired o w).recvCtrl m p = (o.recvCtrl m p).map (fun o => wired o w) := by
  obtain ⟨c, k⟩ := o
  have hb : (wired ⟨c, k⟩ w).core.receiveCtrlBase m p = (c.receiveCtrlBase m p).map fun c => { c with outputs := w } := by
    unfold Core.receiveCtrlBase
    change (match c.ctrlIn.find? (c.resolveCtrl p) with | none => _ | some i => _) = _
    dsimp only
    cases c.ctrlIn.find? (c.resolveCtrl p) with
    | none => rfl
    | some i => simp only [bind, Except.bind]; cases i.receive m <;> rfl
  have hd : (wired ⟨c, k⟩ w).core.receiveCtrlDemux m p = (c.receiveCtrlDemux m p).map fun c => { c with outputs := w } := by
    unfold Core.receiveCtrlDemux
    change (match c.ctrlIn.find? (c.resolveCtrl p) with | none => _ | some i => _) = _
    dsimp only
    cases c.ctrlIn.find? (c.resolveCtrl p) <;> rfl
  unfold Op.recvCtrl
  have hk : (wired ⟨c, k⟩ w).kind = k := rfl
  rw [hk]
  cases k with
  | demux => simp only [bind, Except.bind]; rw [hd]; cases c.receiveCtrlDemux m p <;> rfl
  | _ => simp only [bind, Except.bind]; rw [hb]; cases c.receiveCtrlBase m p <;> rfl

theorem step_wired (o : Op V) (w : Map (List Conn)) (p : Str) (m : Msg V) : step (wired o w) p m = (step o p m).mapState (fun o => wired o w) := by
  unfold step
  rw [recvData_wired]
  cases o.recvData m p with
  | error e => rfl
  | ok o' => exact execData_wired o' w

theorem feedOp_wired (w : Map (List Conn)) (p : Str) (ms : List (Msg V)) : ∀ o : Op V, feedOp (wired o w) p ms = (feedOp o p ms).mapState (fun o => wired o w) := by
  induction ms with
  | nil => intro o; rfl
  | cons m ms ih =>
    intro o
    unfold feedOp
    rw [step_wired]
    cases step o p m with
    | err e o' => rfl
    | ok out o' =>
      dsimp only [Res.mapState]
      rw [ih]
      cases feedOp o' p ms <;> rfl

/-- Stream functions are independent of the connections. -/
theorem Spec.Computes.wired {o : Op V} {p : Str} {f : List (Msg V) → Msg V → OpMsg V} (h : Computes o p f) (w : Map (List Conn)) :
    Computes (wired o w) p f := by
  intro ms
  obtain ⟨o', h'⟩ := h ms
  exact ⟨Spec.wired o' w, by rw [feedOp_wired, h']; rfl⟩

end Rtbot
