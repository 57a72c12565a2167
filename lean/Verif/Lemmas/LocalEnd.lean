import Verif.Lemmas.Terminate

set_option linter.unusedSectionVars false

/-! # Local steps end

Only ConstantResampler and an AutoRegressive without coefficients can loop for ever in one step. -/

namespace Rtbot
variable {V : Type} [Num V]
open Spec

/-- Not `diverge`. -/
def EN {α : Type} (x : Except Err α) : Prop := x ≠ .error .diverge

theorem en_ok {α : Type} (a : α) : EN (.ok a : Except Err α) := fun h => by cases h
theorem en_exc {α : Type} (e : Exc) : EN (throwExc e : Except Err α) := fun h => by cases h
theorem en_ub {α : Type} (u : UB) : EN (undefined u : Except Err α) := fun h => by cases h

theorem en_bind {α β : Type} {x : Except Err α} {f : α → Except Err β} (h : EN x) (hf : ∀ a, EN (f a)) : EN (x >>= f) := by
  cases x with
  | ok a => exact hf a
  | error e => intro h'; exact h (by cases h'; rfl)

theorem en_foldlM {α β : Type} {f : β → α → Except Err β} (hf : ∀ b a, EN (f b a)) (l : List α) : ∀ b, EN (l.foldlM f b) := by
  induction l with
  | nil => intro b; exact en_ok b
  | cons x l ih => intro b; rw [List.foldlM_cons]; exact en_bind (hf b x) ih

/-- Walk through a computation. -/
macro "en" : tactic => `(tactic|
  repeat (first
    | assumption
    | exact en_ok _ | exact en_exc _ | exact en_ub _
    | (refine en_bind ?_ (fun _ => ?_))
    | split))

theorem en_solePort (c : Core V) : EN c.solePort := by unfold Core.solePort; en
theorem en_dataMsg (c : Core V) (p : Str) (i : Nat) : EN (c.dataMsg p i) := by unfold Core.dataMsg; en
theorem en_dataLast (c : Core V) (p : Str) : EN (c.dataLast p) := by unfold Core.dataLast; en
theorem en_dataFirst (c : Core V) (p : Str) : EN (c.dataFirst p) := by unfold Core.dataFirst; en
theorem en_dataPort (c : Core V) (p : Str) : EN (c.dataPort p) := by unfold Core.dataPort; en
theorem en_toTime (x : V) : EN (toTimeE x) := by unfold toTimeE; en

theorem en_procLast (c : Core V) (f : Msg V → Except Err (OpMsg V × Kind V)) (hf : ∀ m, EN (f m)) : EN (procLast c f) :=
  en_bind (en_solePort c) fun _ => en_bind (en_dataLast c _) hf

theorem en_inputStep (c : Core V) (pm : Map Str) (acc : OpMsg V × Map (Msg V)) (p : Str) : EN (inputStep c pm acc p) := by
  unfold inputStep
  refine en_bind (en_dataMsg c p 0) fun m => ?_
  try dsimp only
  en

theorem en_firLoop (ms : List (Msg V)) : ∀ (acc : V) (as : List V), EN (firLoop acc ms as) := by
  induction ms with
  | nil => intro acc as; cases as <;> exact en_ok _
  | cons m ms ih => intro acc as; cases as with
    | nil => exact en_exc _
    | cons a as => exact ih _ _

theorem en_gridLoop (d dt carry : UInt64) (fuel : Nat) : ∀ j, EN (gridLoop d dt carry fuel j) := by
  induction fuel with
  | zero => intro j; unfold gridLoop; dsimp only; en
  | succ fuel ih =>
    intro j
    unfold gridLoop
    try dsimp only
    split
    · exact en_bind (ih _) fun _ => en_ok _
    · exact en_ok _

theorem en_lsSums (s : UInt64 × V × V × UInt64) (m : Msg V) : EN (lsSums s m) := by
  unfold lsSums
  exact en_bind (en_toTime _) fun _ => en_ok _

theorem en_leastSquares (ms : List (Msg V)) : EN (leastSquares ms) := by
  unfold leastSquares
  refine en_bind (en_foldlM en_lsSums ms _) fun _ => ?_
  try dsimp only
  refine en_bind (en_toTime _) fun _ => ?_
  en

theorem en_makeBefore (c : Core V) (p : Str) : EN (makeBefore c p) := by
  unfold makeBefore
  refine en_bind (en_dataPort c p) fun i => ?_
  try dsimp only
  refine en_bind (en_leastSquares _) fun _ => ?_
  try dsimp only
  exact en_bind (en_dataMsg c p 0) fun _ => en_bind (en_toTime _) fun _ => en_ok _

theorem en_lookAt (c : Core V) (p : Str) (frm : Nat) (dt carry : UInt64) (before : Option (Msg V)) : EN (lookAt c p frm dt carry before) := by
  unfold lookAt
  refine en_bind (en_dataMsg c p _) fun b => en_bind (en_dataMsg c p _) fun a => ?_
  try dsimp only
  refine en_bind (en_gridLoop _ _ _ _ _) fun _ => ?_
  try dsimp only
  split
  · exact en_ok _
  · cases frm with
    | zero => cases before with
      | none => exact en_bind (en_bind (en_makeBefore c p) fun _ => en_ok _) fun _ => en_bind (en_dataMsg c p _) fun _ => en_ok _
      | some z => exact en_bind (en_ok _) fun _ => en_bind (en_dataMsg c p _) fun _ => en_ok _
    | succ f => exact en_bind (en_dataMsg c p _) fun _ => en_bind (en_ok _) fun _ => en_bind (en_dataMsg c p _) fun _ => en_ok _

theorem en_pointAt (ps : List (V × V)) (i : Nat) : EN (pointAt ps i) := by unfold pointAt; en

theorem en_tangent (ps : List (V × V)) (i : Nat) : EN (tangent ps i) := by
  unfold tangent
  exact en_bind (en_pointAt _ _) fun _ => en_bind (en_pointAt _ _) fun _ => en_ok _

theorem en_functionValue (ps : List (V × V)) (t : Interp) (x : V) : EN (functionValue ps t x) := by
  unfold functionValue
  split
  · exact en_ub _
  · dsimp only
    refine en_bind (en_pointAt _ _) fun _ => ?_
    try dsimp only
    cases t with
    | linear => exact en_bind (en_pointAt _ _) fun _ => en_bind (en_pointAt _ _) fun _ => en_ok _
    | hermite =>
      exact en_bind (en_pointAt _ _) fun _ => en_bind (en_pointAt _ _) fun _ => en_bind (en_tangent _ _) fun _ =>
        en_bind (en_tangent _ _) fun _ => en_ok _

/-- The kinds whose steps may loop for ever. -/
def Looping (o : Op V) : Prop :=
  match o.kind with
  | .constRes _ _ _ _ => True
  | .autoReg _ => ∃ e ∈ o.core.dataIn, e.2.max = sizeMax
  | _ => False

theorem en_process (o : Op V) (h : ¬ Looping o) : EN o.process := by
  unfold Op.process
  unfold Looping at h
  try dsimp only
  cases hk : o.kind with
  | constRes => simp [hk] at h
  | input pm last =>
    exact en_bind (en_foldlM (en_inputStep _ _) _ _) fun _ => en_ok _
  | output pm =>
    refine en_bind (en_foldlM (fun out p => en_bind (en_dataLast _ _) fun m => ?_) _ _) fun _ => en_ok _
    en
  | collector => exact en_ok _
  | filter f v => exact en_procLast _ _ fun m => en_ok _
  | add v => exact en_procLast _ _ fun m => en_ok _
  | scale v => exact en_procLast _ _ fun m => en_ok _
  | power v => exact en_procLast _ _ fun m => en_ok _
  | constant v => exact en_procLast _ _ fun m => en_ok _
  | identity => exact en_bind (en_solePort _) fun _ => en_bind (en_dataFirst _ _) fun _ => en_ok _
  | count n => exact en_procLast _ _ fun m => en_ok _
  | cumSum a => exact en_procLast _ _ fun m => en_ok _
  | difference b =>
    exact en_bind (en_solePort _) fun _ => en_bind (en_dataMsg _ _ _) fun _ => en_bind (en_dataMsg _ _ _) fun _ =>
      en_bind (en_toTime _) fun _ => en_ok _
  | movAvg =>
    exact en_bind (en_solePort _) fun _ => en_bind (en_dataPort _ _) fun _ => en_bind (en_dataLast _ _) fun _ => en_ok _
  | stdDev =>
    exact en_bind (en_solePort _) fun _ => en_bind (en_dataPort _ _) fun _ => en_bind (en_dataLast _ _) fun _ => en_ok _
  | peak =>
    exact en_bind (en_solePort _) fun _ => en_bind (en_dataPort _ _) fun _ => en_bind (en_dataMsg _ _ _) fun _ => en_ok _
  | fir a =>
    exact en_bind (en_solePort _) fun _ => en_bind (en_dataPort _ _) fun _ => en_bind (en_dataLast _ _) fun _ =>
      en_bind (en_firLoop _ _ _) fun _ => en_ok _
  | timeShift dt n => exact en_procLast _ _ fun m => en_ok _
  | cosRes dt carry =>
    exact en_bind (en_solePort _) fun _ => en_bind (en_dataMsg _ _ _) fun _ => en_bind (en_dataMsg _ _ _) fun _ =>
      en_bind (en_gridLoop _ _ _ _ _) fun _ => en_ok _
  | hermRes dt carry before =>
    refine en_bind (en_solePort _) fun _ => ?_
    try dsimp only
    cases before with
    | none =>
      exact en_bind (en_lookAt _ _ _ _ _ _) fun _ => en_bind (en_lookAt _ _ _ _ _ _) fun _ => en_bind (en_ok _) fun _ => en_ok _
    | some z => exact en_bind (en_lookAt _ _ _ _ _ _) fun _ => en_ok _
  | function pts t => exact en_procLast _ _ fun m => en_bind (en_functionValue _ _ _) fun _ => en_ok _
  | rsi prev =>
    refine en_bind (en_solePort _) fun _ => en_bind (en_dataPort _ _) fun _ => ?_
    try dsimp only
    cases prev with
    | none => exact en_bind (en_ok _) fun _ => en_bind (en_dataLast _ _) fun _ => en_ok _
    | some q =>
      exact en_bind (en_dataMsg _ _ _) fun _ => en_bind (en_dataMsg _ _ _) fun _ => en_bind (en_ok _) fun _ =>
        en_bind (en_dataLast _ _) fun _ => en_ok _
  | _ => exact en_ok _

theorem en_readyPorts (c : Core V) : EN c.readyPorts := by unfold Core.readyPorts; en

theorem nd_of_en {σ α β : Type} {x : Except Err α} {s : σ} {e : Err} (h : EN x) (he : x = .error e) : ND (.err e s : Res σ β) :=
  nd_err _ fun hh => h (by rw [he, hh])

theorem nd_execBase (o : Op V) (h : ¬ Looping o) : ND o.execBase := by
  unfold Op.execBase
  split
  · rename_i e he; exact nd_of_en (en_readyPorts _) he
  · dsimp only
    split
    · exact nd_ok _ _
    · split
      · rename_i e he; exact nd_of_en (en_process _ (by simpa [Looping] using h)) he
      · exact nd_ok _ _

theorem en_joinMessages (cm : Map Str) (l : Map (Inp V)) : ∀ out, EN (joinMessages cm l out) := by
  induction l with
  | nil => intro out; exact en_ok _
  | cons e l ih =>
    obtain ⟨p, i⟩ := e
    intro out
    rw [joinMessages]
    split
    · exact en_ub _
    · exact en_ub _
    · exact ih _

theorem en_linearLoop (l : Map (Inp V)) : ∀ (as : List V) out, EN (linearLoop l as out) := by
  induction l with
  | nil => intro as out; exact en_ok _
  | cons e l ih =>
    obtain ⟨p, i⟩ := e
    intro as out
    rw [linearLoop.eq_def]
    try dsimp only
    split
    · exact en_ub _
    · exact en_exc _
    · exact ih _ _

theorem en_popAll (l : Map (Inp V)) : EN (popAll l) := by
  induction l with
  | nil => exact en_ok _
  | cons e l ih =>
    obtain ⟨p, i⟩ := e
    rw [popAll]
    split
    · exact en_bind (en_ub _) fun _ => en_bind ih fun _ => en_ok _
    · exact en_bind (en_ok _) fun _ => en_bind ih fun _ => en_ok _

theorem en_joinProcess (o : Op V) : EN (joinProcess o) := by
  unfold joinProcess
  split
  · exact en_joinMessages _ _ _
  · unfold binaryMessages
    refine en_bind (en_dataMsg _ _ _) fun _ => en_bind (en_dataMsg _ _ _) fun _ => ?_
    en
  · exact en_bind (en_linearLoop _ _ _) fun _ => en_ok _
  · exact en_ok _

theorem nd_execJoin (o : Op V) : ND o.execJoin := by
  unfold Op.execJoin
  split
  · exact nd_err _ (by simp)
  · split
    · exact nd_ok _ _
    · split
      · exact nd_ok _ _
      · dsimp only
        split
        · split
          · rename_i he; exact nd_of_en (en_joinProcess _) he
          · split
            · rename_i he; exact nd_of_en (en_popAll _) he
            · exact nd_ok _ _
        · exact nd_ok _ _

theorem en_demuxScan (t : UInt64) (l : Map (Inp V)) : EN (demuxScan t l).2 := by
  induction l with
  | nil => exact en_ok _
  | cons e l ih =>
    obtain ⟨p, i⟩ := e
    rw [demuxScan]
    try dsimp only
    split
    · exact ih
    · split
      · dsimp only
        cases h : (demuxScan t l).2 with
        | ok n => exact en_ok _
        | error e => rw [h] at ih; intro hh; exact ih (by simpa [Except.map] using hh)
      · exact en_exc _

theorem en_demuxMessages (cm : Map Str) (m : Msg V) (l : Map (Inp V)) : ∀ out, EN (demuxMessages cm m l out) := by
  induction l with
  | nil => intro out; exact en_ok _
  | cons e l ih =>
    obtain ⟨p, i⟩ := e
    intro out
    rw [demuxMessages]
    split
    · exact en_ub _
    · split
      · split
        · exact en_ub _
        · exact ih _
      · exact ih _

theorem nd_execDemux (o : Op V) (cm : Map Str) : ND (o.execDemux cm) := by
  unfold Op.execDemux
  split
  · split
    · exact nd_ok _ _
    · rename_i m ms _
      have := en_demuxScan m.time o.core.ctrlIn
      dsimp only
      split
      · rename_i he; exact nd_of_en this he
      · split
        · split
          · rename_i he; exact nd_of_en (en_demuxMessages _ _ _ _) he
          · split
            · rename_i he; exact nd_of_en (en_popAll _) he
            · exact nd_ok _ _
        · exact nd_ok _ _
  · exact nd_err _ (by simp)

theorem nd_execVariable (o : Op V) (v : V) (ini : Bool) : ND (o.execVariable v ini) := by
  unfold Op.execVariable
  split
  · split
    · exact nd_ok _ _
    · exact nd_ok _ _
    · dsimp only
      split
      · split
        · exact nd_err _ (by simp)
        · exact nd_ok _ _
      · split
        · exact nd_ok _ _
        · split
          · exact nd_ok _ _
          · exact nd_ok _ _
  · exact nd_err _ (by simp)

theorem en_arLoop (n : Nat) : ∀ (acc : V) (ms : List (Msg V)) (as : List V), EN (arLoop n acc ms as) := by
  induction n with
  | zero => intro acc ms as; exact en_ok _
  | succ n ih =>
    intro acc ms as
    rw [arLoop.eq_def]
    dsimp only
    split
    · exact en_ub _
    · split
      · exact en_exc _
      · exact ih _ _ _

theorem nd_execAR (o : Op V) (as : List V) : ND (o.execAR as) := by
  unfold Op.execAR
  split
  · split
    · exact nd_err _ (by simp)
    · split
      · rename_i he; exact nd_of_en (en_arLoop _ _ _ _) he
      · split
        · exact nd_err _ (by simp)
        · exact nd_ok _ _
  · exact nd_err _ (by simp)

theorem nd_execData (o : Op V) (h : ¬ Looping o) : ND o.execData := by
  unfold Op.execData
  cases hk : o.kind with
  | autoReg as => exact nd_execAR o as
  | join => exact nd_execJoin o
  | binary => exact nd_execJoin o
  | linear => exact nd_execJoin o
  | demux cm => exact nd_execDemux o cm
  | «variable» v ini => exact nd_execVariable o v ini
  | _ => exact nd_execBase o h

theorem nd_execCtrl (o : Op V) : ND o.execCtrl := by
  unfold Op.execCtrl
  split
  · exact nd_execDemux o _
  · exact nd_execVariable o _ _
  · exact nd_ok _ _

theorem en_inpReceive (i : Inp V) (m : Msg V) : EN (i.receive m) := by
  unfold Inp.receive; en

theorem en_recvData (o : Op V) (h : ¬ Looping o) (m : Msg V) (p : Str) : EN (o.recvData m p) := by
  unfold Op.recvData
  have hj : EN (o.core.receiveDataJoin m p) := by unfold Core.receiveDataJoin; en
  have hd : EN (o.core.receiveDataDemux m p) := by unfold Core.receiveDataDemux; dsimp only; en
  have hb : EN (o.core.receiveDataBase m p) := by
    unfold Core.receiveDataBase
    try dsimp only
    split
    · exact en_exc _
    · exact en_bind (en_inpReceive _ _) fun _ => en_ok _
  cases hk : o.kind with
  | autoReg =>
    refine en_bind ?_ fun _ => en_ok _
    unfold Core.receiveDataAR
    dsimp only
    split
    · exact en_exc _
    · rename_i i hi
      split
      · rename_i hx
        exact absurd (by simp only [Looping, hk]; exact ⟨_, find?_mem hi, hx.1⟩) h
      · exact en_ok _
  | _ => first | exact en_bind hj fun _ => en_ok _ | exact en_bind hd fun _ => en_ok _ | exact en_bind hb fun _ => en_ok _

theorem act_end (o : Op V) (h : ¬ Looping o) (a : Act V) : (act o a).2 ≠ .error .diverge := by
  cases a with
  | recvData p m =>
    have := en_recvData o h m p
    simp only [act]
    cases hx : o.recvData m p with
    | ok o' => exact fun h => by cases h
    | error e => rw [hx] at this; intro hh; exact this (by cases hh; rfl)
  | recvCtrl p m =>
    have := recvCtrl_nd_local o m p
    simp only [act]
    cases hx : o.recvCtrl m p with
    | ok o' => exact fun h => by cases h
    | error e => rw [hx] at this; intro hh; exact this (by cases hh; rfl)
  | execData =>
    have := nd_execData o h
    simp only [act]
    cases hx : o.execData with
    | ok out o' => exact fun h => by cases h
    | err e o' => rw [hx] at this; intro hh; exact this o' (by cases hh; rfl)
  | execCtrl =>
    have := nd_execCtrl o
    simp only [act]
    cases hx : o.execCtrl with
    | ok out o' => exact fun h => by cases h
    | err e o' => rw [hx] at this; intro hh; exact this o' (by cases hh; rfl)

theorem looping_fresh (o : Op V) : Looping o.fresh ↔ Looping o := by
  unfold Looping Op.fresh
  cases hk : o.kind <;> simp [Kind.fresh, Core.fresh, freshMap, Inp.fresh]

theorem looping_of_fresh {o o' : Op V} (h : o'.fresh = o.fresh) : Looping o' ↔ Looping o := by
  rw [← looping_fresh o', h, looping_fresh]

theorem act_fresh (o : Op V) (hw : o.core.WF) (a : Act V) : (act o a).1.fresh = o.fresh := by
  cases a with
  | recvData p m =>
    simp only [act]
    cases h : o.recvData m p with
    | ok o' => exact recvData_fresh hw h
    | error e => rfl
  | recvCtrl p m =>
    simp only [act]
    cases h : o.recvCtrl m p with
    | ok o' => exact recvCtrl_fresh hw h
    | error e => rfl
  | execData =>
    simp only [act]
    have := execData_fresh o
    cases h : o.execData <;> (rw [h] at this; exact this)
  | execCtrl =>
    simp only [act]
    have := execCtrl_fresh o
    cases h : o.execCtrl <;> (rw [h] at this; exact this)

/-- No step of an operator that is not `Looping` loops for ever, whatever was done to it before. -/
theorem results_end (as : List (Act V)) : ∀ (o : Op V), o.core.WF → ¬ Looping o → ∀ r ∈ results o as, r ≠ .error .diverge := by
  induction as with
  | nil => intro o _ _ r hr; simp [results] at hr
  | cons a as ih =>
    intro o hw h r hr
    simp only [results, List.mem_cons] at hr
    rcases hr with rfl | hr
    · exact act_end o h a
    · exact ih _ (Core.WF.of_fresh (congrArg Op.core (act_fresh o hw a)) hw) (by rwa [looping_of_fresh (act_fresh o hw a)]) r hr

theorem steps_end {h : Nat → Option (Op V)} (hw : HeapWF h) (hn : ∀ b o, h b = some o → Simple o → ¬ Looping o) : StepsEnd h :=
  fun b o ho hs as => results_end as o (hw b o ho) (hn b o ho hs)

end Rtbot
