import Verif.Lemmas.PortSafe

set_option linter.unusedSectionVars false

/-! # No "non existing port" error during a call -/

namespace Rtbot
variable {V : Type} [Num V]
open Spec

theorem has_fresh (c : Core V) (p : Str) : c.fresh.dataIn.has p = c.dataIn.has p := has_map _ _ _

theorem has_of_fresh {o o' : Op V} (h : o'.fresh = o.fresh) (p : Str) : o'.core.dataIn.has p = o.core.dataIn.has p := by
  have : o'.core.fresh = o.core.fresh := congrArg Op.core h
  rw [← has_fresh o'.core, this, has_fresh]

theorem outNames_fresh (k : Kind V) : outNames k.fresh = outNames k := by cases k <;> rfl

theorem outNames_of_fresh {o o' : Op V} (h : o'.fresh = o.fresh) : outNames o'.kind = outNames o.kind := by
  have : o'.kind.fresh = o.kind.fresh := congrArg Op.kind h
  rw [← outNames_fresh o'.kind, this, outNames_fresh]

theorem binary_of_fresh {o o' : Op V} (h : o'.fresh = o.fresh) (hb : BinaryPorts o) : BinaryPorts o' := by
  intro b hk
  have : o'.kind.fresh = o.kind.fresh := congrArg Op.kind h
  rw [hk] at this
  have hk' : o.kind = .binary b := by
    cases ho : o.kind <;> rw [ho] at this <;> simp [Kind.fresh] at this
    rw [this]
  rw [has_of_fresh h, has_of_fresh h]
  exact hb b hk'

theorem recvData_cases {o o' : Op V} {m : Msg V} {q : Str} (h : o.recvData m q = .ok o') :
    ∃ c, (o.core.receiveDataJoin m q = .ok c ∨ o.core.receiveDataDemux m q = .ok c ∨ o.core.receiveDataAR m q = .ok c ∨
      o.core.receiveDataBase m q = .ok c) ∧ o' = { o with core := c } := by
  unfold Op.recvData at h
  cases hk : o.kind with
  | _ =>
    simp only [hk] at h
    obtain ⟨c, h1, h2⟩ := bind_eq_ok.1 h
    cases h2
    refine ⟨c, ?_, by rw [← hk]⟩
    first | exact Or.inl h1 | exact Or.inr (Or.inl h1) | exact Or.inr (Or.inr (Or.inl h1)) | exact Or.inr (Or.inr (Or.inr h1))

theorem recvCtrl_cases {o o' : Op V} {m : Msg V} {q : Str} (h : o.recvCtrl m q = .ok o') :
    ∃ c, (o.core.receiveCtrlDemux m q = .ok c ∨ o.core.receiveCtrlBase m q = .ok c) ∧ o' = { o with core := c } := by
  unfold Op.recvCtrl at h
  cases hk : o.kind with
  | _ =>
    simp only [hk] at h
    obtain ⟨c, h1, h2⟩ := bind_eq_ok.1 h
    cases h2
    refine ⟨c, ?_, by rw [← hk]⟩
    first | exact Or.inl h1 | exact Or.inr h1

theorem execDemux_pending (o : Op V) (cm : Map Str) : (o.execDemux cm).state.core.toProcess = o.core.toProcess := by
  unfold Op.execDemux
  split
  · split
    · rfl
    · dsimp only
      split
      · rfl
      · split
        · split
          · rfl
          · split <;> rfl
        · rfl
  · rfl

theorem execVariable_pending (o : Op V) (v : V) (ini : Bool) : (o.execVariable v ini).state.core.toProcess = o.core.toProcess := by
  unfold Op.execVariable
  split
  · split
    · rfl
    · rfl
    · dsimp only
      split
      · split <;> rfl
      · split
        · rfl
        · split <;> rfl
  · rfl

theorem execAR_pending (o : Op V) (as : List V) : (o.execAR as).state.core.toProcess = o.core.toProcess := by
  unfold Op.execAR
  split
  · split
    · rfl
    · split
      · rfl
      · split <;> rfl
  · rfl

theorem execJoin_pending (o : Op V) : o.execJoin.state.core.toProcess = o.core.toProcess := by
  unfold Op.execJoin
  split
  · rfl
  · split
    · rfl
    · split
      · rfl
      · dsimp only
        split
        · split
          · rfl
          · split <;> rfl
        · rfl

theorem execBase_pending (o : Op V) : ∀ p ∈ o.execBase.state.core.toProcess, p ∈ o.core.toProcess := by
  unfold Op.execBase
  split
  · exact fun p h => h
  · rename_i ready hr
    have hsub : ∀ p ∈ ready, p ∈ o.core.toProcess := by
      unfold Core.readyPorts at hr
      split at hr
      · cases hr; exact fun p h => (List.mem_filter.1 h).1
      · cases hr
    dsimp only
    split
    · exact hsub
    · split
      · exact hsub
      · simp [Res.state]

/-- The pending ports after a step are old ones or ports that exist. -/
theorem act_pending (o : Op V) (a : Act V) : ∀ p ∈ (act o a).1.core.toProcess, p ∈ o.core.toProcess ∨ o.core.dataIn.has p = true := by
  intro p hp
  cases a with
  | recvData q m =>
    simp only [act] at hp
    cases h : o.recvData m q with
    | error e => rw [h] at hp; exact Or.inl hp
    | ok o' =>
      rw [h] at hp
      obtain ⟨c, h1, rfl⟩ := recvData_cases h
      have hb : o.core.receiveDataBase m q = .ok c → p ∈ o.core.toProcess ∨ o.core.dataIn.has p = true := by
        intro h
        unfold Core.receiveDataBase at h
        dsimp only at h
        split at h
        · cases h
        · rename_i i hi
          obtain ⟨i', _, h2⟩ := bind_eq_ok.1 h
          cases h2
          rcases (mem_setInsert _ _ _).1 hp with rfl | h
          · exact Or.inr (by unfold Map.has; rw [hi]; rfl)
          · exact Or.inl h
      have hj : o.core.receiveDataJoin m q = .ok c → p ∈ o.core.toProcess ∨ o.core.dataIn.has p = true := by
        intro h
        unfold Core.receiveDataJoin at h
        split at h
        · cases h
        · split at h
          · cases h
          · cases h; exact Or.inl hp
      have hd : o.core.receiveDataDemux m q = .ok c → p ∈ o.core.toProcess ∨ o.core.dataIn.has p = true := by
        intro h
        unfold Core.receiveDataDemux at h
        dsimp only at h
        split at h
        · cases h
        · cases h; exact Or.inl hp
      have ha : o.core.receiveDataAR m q = .ok c → p ∈ o.core.toProcess ∨ o.core.dataIn.has p = true := by
        intro h
        unfold Core.receiveDataAR at h
        dsimp only at h
        split at h
        · cases h
        · split at h
          · cases h
          · cases h; exact Or.inl hp
      rcases h1 with h1 | h1 | h1 | h1
      · exact hj h1
      · exact hd h1
      · exact ha h1
      · exact hb h1
  | recvCtrl q m =>
    simp only [act] at hp
    cases h : o.recvCtrl m q with
    | error e => rw [h] at hp; exact Or.inl hp
    | ok o' =>
      rw [h] at hp
      obtain ⟨c, h1, rfl⟩ := recvCtrl_cases h
      have hb : o.core.receiveCtrlBase m q = .ok c → c.toProcess = o.core.toProcess := by
        intro h
        unfold Core.receiveCtrlBase at h
        dsimp only at h
        split at h
        · cases h
        · obtain ⟨i', _, h2⟩ := bind_eq_ok.1 h
          cases h2; rfl
      have hd : o.core.receiveCtrlDemux m q = .ok c → c.toProcess = o.core.toProcess := by
        intro h
        unfold Core.receiveCtrlDemux at h
        dsimp only at h
        split at h
        · cases h
        · cases h; rfl
      have : c.toProcess = o.core.toProcess := by
        rcases h1 with h1 | h1
        · exact hd h1
        · exact hb h1
      exact Or.inl (this ▸ hp)
  | execData =>
    have : ∀ p ∈ o.execData.state.core.toProcess, p ∈ o.core.toProcess := by
      unfold Op.execData
      cases hk : o.kind with
      | autoReg as => dsimp only; rw [execAR_pending]; exact fun _ h => h
      | join => dsimp only; rw [execJoin_pending]; exact fun _ h => h
      | binary => dsimp only; rw [execJoin_pending]; exact fun _ h => h
      | linear => dsimp only; rw [execJoin_pending]; exact fun _ h => h
      | demux cm => dsimp only; rw [execDemux_pending]; exact fun _ h => h
      | «variable» v ini => dsimp only; rw [execVariable_pending]; exact fun _ h => h
      | _ => exact execBase_pending o
    simp only [act] at hp
    cases h : o.execData with
    | ok x o' => rw [h] at hp this; exact Or.inl (this p hp)
    | err e o' => rw [h] at hp this; exact Or.inl (this p hp)
  | execCtrl =>
    have : ∀ p ∈ o.execCtrl.state.core.toProcess, p ∈ o.core.toProcess := by
      unfold Op.execCtrl
      cases hk : o.kind with
      | demux cm => dsimp only; rw [execDemux_pending]; exact fun _ h => h
      | «variable» v ini => dsimp only; rw [execVariable_pending]; exact fun _ h => h
      | _ => exact fun _ h => h
    simp only [act] at hp
    cases h : o.execCtrl with
    | ok x o' => rw [h] at hp this; exact Or.inl (this p hp)
    | err e o' => rw [h] at hp this; exact Or.inl (this p hp)

theorem PortsOK.act {o : Op V} (h : PortsOK o) (hw : o.core.WF) (a : Act V) : PortsOK (act o a).1 := by
  have hf := act_fresh o hw a
  refine ⟨fun p hp => ?_, ?_, binary_of_fresh hf h.binary⟩
  · rw [has_of_fresh hf]
    rcases act_pending o a p hp with h' | h'
    · exact h.pending p h'
    · exact h'
  · rw [outNames_of_fresh hf, outIds_of_fresh hf]
    exact h.names

/-! ## Along a call -/

/-- All operators are simple, have consistent port tables and the shape they have in `h0`. -/
structure Fine (h0 : Nat → Option (Op V)) (s : St V) : Prop where
  shape : SameShape h0 s.heap
  simple : ∀ b o, s.heap b = some o → Simple o
  ports : ∀ b o, s.heap b = some o → PortsOK o
  wf : HeapWF s.heap

/-- The computation keeps the heap fine and does not fail with "non existing port". -/
def Keeps (h0 : Nat → Option (Op V)) {α : Type} (x : M (St V) α) : Prop :=
  ∀ s, Fine h0 s → Fine h0 (x s).state ∧ ∀ s', x s ≠ .err (.exc .badPort) s'

variable {h0 : Nat → Option (Op V)}

theorem kp_pure {α : Type} (a : α) : Keeps h0 (pure a : M (St V) α) := fun _ h => ⟨h, fun _ h => by cases h⟩
theorem kp_throw {α : Type} {e : Err} (h : e ≠ .exc .badPort) : Keeps h0 (M.throw e : M (St V) α) :=
  fun _ hs => ⟨hs, fun _ h' => by cases h'; exact h rfl⟩

theorem kp_bind {α β : Type} {x : M (St V) α} {f : α → M (St V) β} (h : Keeps h0 x) (hf : ∀ a, Keeps h0 (f a)) : Keeps h0 (x >>= f) := by
  intro s hs
  obtain ⟨h1, h2⟩ := h s hs
  cases hx : x s with
  | ok a s' =>
    rw [hx] at h1
    have := hf a s' h1
    simp only [bind, M.bind, hx]
    exact this
  | err e s' =>
    rw [hx] at h1 h2
    simp only [bind, M.bind, hx]
    exact ⟨h1, fun s'' h => h2 s' (by cases h; rfl)⟩

theorem kp_fold {α β : Type} {f : β → α → M (St V) β} (l : List α) (hf : ∀ b, ∀ a ∈ l, Keeps h0 (f b a)) : ∀ b, Keeps h0 (M.fold f l b) := by
  induction l with
  | nil => intro b; exact kp_pure b
  | cons x l ih => intro b; exact kp_bind (hf b x (by simp)) fun b' => ih (fun b a ha => hf b a (List.mem_cons_of_mem _ ha)) b'

theorem kp_log (e : Ev V) : Keeps h0 (logEv e) := fun _ h => ⟨⟨h.shape, h.simple, h.ports, h.wf⟩, fun _ h => by cases h⟩

/-- After reading an operator. -/
theorem kp_get {α : Type} (a : Nat) {f : Op V → M (St V) α}
    (hf : ∀ o s, Fine h0 s → s.heap a = some o → Fine h0 (f o s).state ∧ ∀ s', f o s ≠ .err (.exc .badPort) s') :
    Keeps h0 (getOp a >>= f) := by
  intro s hs
  simp only [bind, M.bind, getOp]
  cases h : s.heap a with
  | none => exact ⟨hs, fun _ h => by cases h⟩
  | some o => exact hf o s hs h

theorem Fine.set {s : St V} (h : Fine h0 s) {a : Nat} {o : Op V} (ho : s.heap a = some o) (x : Act V) {o' : Op V} (hx : (act o x).1 = o') :
    Fine h0 (s.setOp a o') := by
  subst hx
  have hf := act_fresh o (h.wf a o ho) x
  refine ⟨fun b => ?_, fun b p hb => ?_, fun b p hb => ?_, fun b p hb => ?_⟩
  · unfold St.setOp
    dsimp only
    split
    · rename_i hb
      subst hb
      rw [← h.shape b, ho]
      simp [hf]
    · exact h.shape b
  all_goals
    unfold St.setOp at hb
    dsimp only at hb
    split at hb
    · cases hb
      first
      | exact (simple_of_fresh hf).2 (h.simple a o ho)
      | exact (h.ports a o ho).act (h.wf a o ho) x
      | exact Core.WF.of_fresh (congrArg Op.core hf) (h.wf a o ho)
    · first | exact h.simple b p hb | exact h.ports b p hb | exact h.wf b p hb

theorem kp_exec (a : Nat) (ctrl : Bool) {f : OpMsg V → M (St V) (ProgMsg V)}
    (hf : ∀ out, (∀ o, h0 a = some o → ∀ q ∈ out.keys, q ∈ o.core.outIds) → Keeps h0 (f out)) :
    Keeps h0 (localRun a (if ctrl then Op.execCtrl else Op.execData) >>= f) := by
  intro s hs
  simp only [bind, M.bind, localRun]
  cases ho : s.heap a with
  | none => exact ⟨hs, fun _ h => by cases h⟩
  | some o =>
    dsimp only
    obtain ⟨x, h1, h2⟩ : ∃ x, (act o x).1 = ((if ctrl = true then Op.execCtrl else Op.execData) o).state ∧
        SafeR (Outs (outNames o.kind)) ((if ctrl = true then Op.execCtrl else Op.execData) o) := by
      cases ctrl with
      | true =>
        refine ⟨.execCtrl, ?_, sr_execCtrl o⟩
        simp only [act, if_true]
        cases o.execCtrl <;> rfl
      | false =>
        refine ⟨.execData, ?_, sr_execData o (hs.ports a o ho)⟩
        simp only [act, Bool.false_eq_true, if_false]
        cases o.execData <;> rfl
    cases hr : (if ctrl = true then Op.execCtrl else Op.execData) o with
    | err e o' =>
      rw [hr] at h1 h2
      exact ⟨hs.set ho x h1, fun s' h => h2 (by cases h; rfl)⟩
    | ok out o' =>
      rw [hr] at h1 h2
      refine hf out (fun p hp q hq => ?_) _ (hs.set ho x h1)
      obtain ⟨o'', h3, h4⟩ := hs.shape.get hp
      rw [ho] at h3
      cases h3
      rw [← outIds_of_fresh h4]
      exact (hs.ports a o ho).names q (h2.sub q hq)

theorem has_resolve {c : Core V} {p : Str} (h : c.dataIn.has p = true) : c.dataIn.has (c.resolveData p) = true := by
  unfold Core.resolveData
  split
  · split
    · rename_i h; rw [h]; simp [Map.has]
    · exact h
  · exact h

theorem has_resolveCtrl {c : Core V} {p : Str} (h : c.ctrlIn.has p = true) : c.ctrlIn.has (c.resolveCtrl p) = true := by
  unfold Core.resolveCtrl
  split
  · split
    · rename_i h; rw [h]; simp [Map.has]
    · exact h
  · exact h

theorem kp_upd {a : Nat} {s : St V} (hs : Fine h0 s) {o : Op V} (ho : s.heap a = some o) (g : Op V → Except Err (Op V)) (x : Act V)
    (hx : ∀ o', g o = .ok o' → (act o x).1 = o') (hg : Safe T (g o)) :
    Fine h0 (localRun a (updWith g) s).state ∧ ∀ s', localRun a (updWith g) s ≠ .err (.exc .badPort) s' := by
  unfold localRun updWith
  rw [ho]
  dsimp only
  cases h : g o with
  | ok o' => exact ⟨hs.set ho x (hx o' h), fun _ h => by cases h⟩
  | error e =>
    rw [h] at hg
    refine ⟨?_, fun s' h => hg (by cases h; rfl)⟩
    have : s.setOp a o = s := by
      unfold St.setOp
      have : (fun b => if b = a then some o else s.heap b) = s.heap := by
        funext b
        split
        · rename_i hb; rw [hb, ho]
        · rfl
      rw [this]
    dsimp only [Res.state]
    rw [this]
    exact hs

/-- `receiveData` on an existing port. -/
theorem kp_recvData (fuel : Nat) (frm : Option (Nat × Str)) (a : Nat) (m : Msg V) (p : Str) (s : St V) (hs : Fine h0 s) {o : Op V}
    (ho : s.heap a = some o) (hp : o.core.dataIn.has (o.core.resolveData p) = true) :
    Fine h0 (recvData fuel frm a m p s).state ∧ ∀ s', recvData fuel frm a m p s ≠ .err (.exc .badPort) s' := by
  cases fuel with
  | zero => exact ⟨hs, fun _ h => by cases h⟩
  | succ fuel =>
    have hs' : Fine h0 { s with log := s.log ++ [.recv frm a p false m] } := ⟨hs.shape, hs.simple, hs.ports, hs.wf⟩
    have := kp_upd hs' (a := a) ho (fun o => o.recvData m p) (.recvData p m)
      (fun o' h => by simp only [act, h]) (sf_recvData o m p hp)
    have hsim := hs.simple a o ho
    simp only [recvData, bind, M.bind, logEv, getOp, ho]
    unfold Simple at hsim
    cases hk : o.kind with
    | composite => simp [hk] at hsim
    | pipeline => simp [hk] at hsim
    | _ => exact this

theorem kp_recvCtrl (fuel : Nat) (frm : Option (Nat × Str)) (a : Nat) (m : Msg V) (p : Str) (s : St V) (hs : Fine h0 s) {o : Op V}
    (ho : s.heap a = some o) (hp : o.core.ctrlIn.has (o.core.resolveCtrl p) = true) :
    Fine h0 (recvCtrl fuel frm a m p s).state ∧ ∀ s', recvCtrl fuel frm a m p s ≠ .err (.exc .badPort) s' := by
  cases fuel with
  | zero => exact ⟨hs, fun _ h => by cases h⟩
  | succ fuel =>
    have hs' : Fine h0 { s with log := s.log ++ [.recv frm a p true m] } := ⟨hs.shape, hs.simple, hs.ports, hs.wf⟩
    have := kp_upd hs' (a := a) ho (fun o => o.recvCtrl m p) (.recvCtrl p m)
      (fun o' h => by simp only [act, h]) (sf_recvCtrl o m p hp)
    have hsim := hs.simple a o ho
    simp only [recvCtrl, bind, M.bind, logEv, getOp, ho]
    unfold Simple at hsim
    cases hk : o.kind with
    | composite => simp [hk] at hsim
    | _ => exact this

theorem kp_deliver (fuel : Nat) (src : Nat × Str) (m : Msg V) (u : Unit) (c : Conn) : Keeps h0 (deliver fuel src m u c) := by
  refine kp_get _ fun o s hs ho => ?_
  split
  · rename_i h; exact kp_recvData _ _ _ _ _ s hs ho (has_resolve h)
  · split
    · rename_i h; exact kp_recvCtrl _ _ _ _ _ s hs ho (has_resolveCtrl h)
    · exact kp_pure _ s hs

theorem kp_trigger {ex : Bool → Nat → M (St V) (ProgMsg V)} (hex : ∀ c a, Keeps h0 (ex c a)) (out : ProgMsg V) (c : Conn) :
    Keeps h0 (trigger ex out c) := by
  refine kp_get _ fun o s hs ho => ?_
  split
  · exact kp_bind (hex _ _) (fun _ => kp_pure _) s hs
  · split
    · exact kp_bind (hex _ _) (fun _ => kp_pure _) s hs
    · exact kp_pure _ s hs

theorem kp_emitMsg {ex : Bool → Nat → M (St V) (ProgMsg V)} (hex : ∀ c a, Keeps h0 (ex c a)) (fuel a : Nat) (port : Str) (m : Msg V) :
    Keeps h0 (emitMsg ex fuel a port m) := by
  refine kp_get _ fun o s hs ho => ?_
  refine kp_bind (x := M.get) (fun s h => ⟨h, fun _ h => by cases h⟩) (fun s' => kp_bind (kp_log _) fun _ => ?_) s hs
  split
  · exact kp_pure _
  · exact kp_bind (kp_fold _ (fun u c _ => kp_deliver _ _ _ u c) _) fun _ => kp_fold _ (fun out c _ => kp_trigger hex out c) _

theorem kp_emitOp {ex : Bool → Nat → M (St V) (ProgMsg V)} (hex : ∀ c a, Keeps h0 (ex c a)) (fuel a : Nat) (msgs : OpMsg V)
    (hm : ∀ o, h0 a = some o → ∀ q ∈ msgs.keys, q ∈ o.core.outIds) : Keeps h0 (emitOp ex fuel a msgs) := by
  refine kp_fold _ (fun out pm hpm => kp_get _ fun o s hs ho => ?_) _
  have : o.core.outIds.contains pm.1 = true := by
    obtain ⟨o', h1, h2⟩ := hs.shape.get' ho
    rw [List.contains_iff_mem, ← outIds_of_fresh h2]
    exact hm o' h1 _ (List.mem_map.2 ⟨pm, hpm, rfl⟩)
  rw [if_pos this]
  refine kp_bind (kp_fold _ (fun out m _ => kp_bind (kp_emitMsg hex _ _ _ _) fun _ => kp_pure _) _) (fun _ => kp_pure _) s hs

theorem kp_execute (fuel : Nat) : ∀ ctrl a, Keeps h0 (exec fuel ctrl a) := by
  induction fuel with
  | zero => intro ctrl a; exact kp_throw (by simp)
  | succ fuel ih =>
    intro ctrl a
    refine kp_bind (kp_log _) fun _ => kp_get _ fun o s hs ho => ?_
    have hsim := hs.simple a o ho
    unfold Simple at hsim
    have := kp_exec (h0 := h0) a ctrl (f := emitOp (exec fuel) fuel a) (fun out hm => kp_emitOp ih fuel a out hm) s hs
    cases hk : o.kind with
    | composite => simp [hk] at hsim
    | pipeline => simp [hk] at hsim
    | _ => exact this

theorem kp_feed (fuel a : Nat) (p : Str) (m : Msg V) (hp : ∀ o, h0 a = some o → o.core.dataIn.has p = true) : Keeps h0 (feed fuel a p m) := by
  refine kp_bind (fun s hs => ?_) fun _ => kp_execute _ _ _
  cases ho : s.heap a with
  | none =>
    cases fuel with
    | zero => exact ⟨hs, fun _ h => by cases h⟩
    | succ fuel =>
      simp only [recvData, bind, M.bind, logEv, getOp, ho]
      exact ⟨⟨hs.shape, hs.simple, hs.ports, hs.wf⟩, fun _ h => by cases h⟩
  | some o =>
    obtain ⟨o', h1, h2⟩ := hs.shape.get' ho
    exact kp_recvData _ _ _ _ _ s hs ho (has_resolve (by rw [← has_of_fresh h2]; exact hp o' h1))

theorem kp_feedAll (fuel a : Nat) (msgs : OpMsg V) (hp : ∀ q ∈ msgs.keys, ∀ o, h0 a = some o → o.core.dataIn.has q = true) :
    Keeps h0 (feedAll fuel a msgs) := by
  refine kp_fold _ (fun out pm hpm => kp_fold _ (fun out m _ => ?_) _) _
  exact kp_bind (kp_feed _ _ _ _ (hp _ (List.mem_map.2 ⟨pm, hpm, rfl⟩))) fun _ => kp_pure _

end Rtbot
