import Verif.Lemmas.Quiet
import Verif.Lemmas.PortPipes

set_option linter.unusedSectionVars false

/-! # Calls throw nothing -/

namespace Rtbot
variable {V : Type} [Num V]
open Spec

/-- What must hold of the operators of a program. -/
structure Firm (h0 : Nat → Option (Op V)) : Prop where
  grid : Grid h0
  ground : Ground h0
  tight : ∀ b o, h0 b = some o → Simple o → Tight o
  snug : ∀ b o, h0 b = some o → Snug o

/-- The computation throws nothing when there is stock `c`. -/
def Qk (h0 : Nat → Option (Op V)) (c : Nat → Nat) {α : Type} (x : M (St V) α) : Prop :=
  ∀ s, Live h0 c s → Placid h0 s → ∀ e s', x s ≠ .err (.exc e) s'

variable {h0 : Nat → Option (Op V)} {c c' : Nat → Nat}

theorem qk_pure {α : Type} (a : α) : Qk h0 c (pure a : M (St V) α) := fun _ _ _ _ _ h => by cases h

theorem qk_div {α : Type} : Qk h0 c (M.throw .diverge : M (St V) α) := fun _ _ _ _ _ h => by cases h

theorem qk_pre {α : Type} {x : M (St V) α} (h : Qk h0 c' x) (hc : ∀ s, Live h0 c s → Live h0 c' s) : Qk h0 c x :=
  fun s hs hp => h s (hc s hs) hp

theorem qk_bind {α β : Type} {x : M (St V) α} {f : α → M (St V) β} (hq : Qk h0 c x) (hd : Dk h0 c c' x) (hp : Kpp h0 False x) (hf : ∀ a, Qk h0 c' (f a)) :
    Qk h0 c (x >>= f) := by
  intro s h1 h2 e s' h
  have e1 := hq s h1 h2
  have e2 := hd s h1
  have e3 := (hp s h2).1
  simp only [bind, M.bind] at h
  cases hx : x s with
  | ok a t =>
    rw [hx] at h e2 e3
    exact hf a t e2 e3 e s' h
  | err e' t =>
    rw [hx] at h
    cases h
    exact e1 e s' hx

theorem qk_fold {α β : Type} {f : β → α → M (St V) β} (l : List α) (hf : ∀ b, ∀ a ∈ l, Qk h0 c (f b a) ∧ Dk h0 c c (f b a) ∧ Kpp h0 False (f b a)) :
    ∀ b, Qk h0 c (M.fold f l b) := by
  induction l with
  | nil => intro b; exact qk_pure b
  | cons x l ih =>
    intro b
    obtain ⟨h1, h2, h3⟩ := hf b x (by simp)
    exact qk_bind h1 h2 h3 fun b' => ih (fun b a ha => hf b a (List.mem_cons_of_mem _ ha)) b'

theorem qk_log {α : Type} (e : Ev V) {f : Unit → M (St V) α} (hf : Qk h0 c (f ())) : Qk h0 c (logEv e >>= f) :=
  qk_bind (fun _ _ _ _ _ h => by cases h) (dk_log e) (pp_log e) fun _ => hf

theorem qk_depth {α : Type} (d : Nat) {f : Unit → M (St V) α} (hf : Qk h0 c (f ())) : Qk h0 c (setDepth d >>= f) :=
  qk_bind (fun _ _ _ _ _ h => by cases h) (dk_depth d) (pp_depth d) fun _ => hf

theorem qk_state {α : Type} {f : St V → M (St V) α} (hf : ∀ s, Qk h0 c (f s)) : Qk h0 c ((M.get : M (St V) (St V)) >>= f) :=
  qk_bind (fun _ _ _ _ _ h => by cases h) dk_state pp_state hf

theorem qk_lift {α β : Type} {x : Except Err α} {f : α → M (St V) β} {a : α} (hx : x = .ok a) (hf : Qk h0 c (f a)) : Qk h0 c (M.lift x >>= f) := by
  subst hx; exact hf

/-- Reading an operator. -/
theorem qk_get {α : Type} (a : Nat) {f : Op V → M (St V) α} (hf : ∀ o o0, h0 a = some o0 → o.fresh = o0.fresh →
    (∀ ins outs pm, o.kind = .pipeline ins outs pm → ∀ k ∈ o.core.toProcess, ins.has k = true) → Qk h0 c (f o)) : Qk h0 c (getOp a >>= f) := by
  intro s hl hs
  simp only [bind, M.bind, getOp]
  cases h : s.heap a with
  | none => exact fun _ _ h => by cases h
  | some o =>
    obtain ⟨o0, h1, h2⟩ := hs.shape.get' h
    exact hf o o0 h1 h2.symm (hs.wait a o h) s hl hs

/-- Running a method of a simple operator. -/
theorem qk_act {α : Type} (hg : Firm h0) {a : Nat} {o0 : Op V} (h0a : h0 a = some o0) (hsim : Simple o0) {f : Op V → Res (Op V) α}
    (hf : ∀ o, o.fresh = o0.fresh → Tight o → Snug o → PortsOK o → Sound o → Stocked (c a) o → QtR (f o)) : Qk h0 c (localRun a f) := by
  intro s hl hs e s' h
  obtain ⟨o, ho, hfr⟩ := hs.shape.get h0a
  obtain ⟨o0', as, h1, h2⟩ := hs.reach a o ho ((simple_of_fresh hfr).2 hsim)
  rw [h0a] at h1
  cases h1
  have hpo : PortsOK o := by rw [h2]; exact after_ports (hg.grid.ports a o0 h0a hsim) (hg.grid.wf a o0 h0a) as
  have hsn : Snug o := by rw [h2]; exact snug_after (hg.grid.wf a o0 h0a) (hg.snug a o0 h0a) as
  have := hf o hfr ((hg.tight a o0 h0a hsim).of_fresh hfr) hsn hpo ((hg.ground.sound a o0 h0a).of_fresh hfr) (hl.stock a o ho)
  unfold localRun at h
  rw [ho] at h
  dsimp only at h
  cases hx : f o with
  | ok x o' => rw [hx] at h; cases h
  | err e' o' =>
    rw [hx] at h
    cases h
    exact this _ _ hx

theorem qk_recvData (hg : Firm h0) (fuel : Nat) : ∀ (c : Nat → Nat) (frm : Option (Nat × Str)) (a : Nat) (m : Msg V) (p : Str) (o0 : Op V), h0 a = some o0 →
    o0.core.dataIn.has p = true → Qk h0 c (recvData fuel frm a m p) := by
  induction fuel with
  | zero => intro c frm a m p _ _ _; exact qk_div
  | succ fuel ih =>
    intro c frm a m p o0 ha hp
    unfold recvData
    refine qk_log _ (qk_get a fun o o0' ho0 hfr hwait => ?_)
    rw [ha] at ho0
    cases ho0
    rcases simple_or_pipe hg.grid ha with hsim | ⟨ins, outs, pm, hk0⟩
    · have : Qk h0 c (localRun a (updWith fun o => o.recvData m p)) := by
        refine qk_act hg ha hsim fun o hfr ht hs _ _ _ e o' h => ?_
        exact qt_recvData ht hs m (by rw [has_of_fresh hfr]; exact hp) e (updWith_act h)
      have hso : Simple o := (simple_of_fresh hfr).2 hsim
      unfold Simple at hso
      cases hk : o.kind <;> first | exact this | (rw [hk] at hso; exact hso.elim)
    · have hk := kind_pipeline_of_fresh hfr.symm hk0
      simp only [hk]
      obtain ⟨hne, key, t, ot, h1, h2, h3, h4⟩ := hg.grid.into a o0 ha ins outs pm hk0 p hp
      refine qk_lift (a := key) ?_ ?_
      · unfold pipelinePort
        rw [if_neg (fun h => hne h.1), h1]
      · rw [h2]
        refine qk_bind (ih c none t m _ ot h3 h4) (dk_recvData hg.ground fuel c none t m _ ⟨ot, h3⟩) (pp_recvData hg.grid fuel none t m _ fun h => h.elim) fun _ => ?_
        intro s _ hs e s' h
        obtain ⟨o, ho, _⟩ := hs.shape.get ha
        unfold localRun at h
        rw [ho] at h
        cases h

/-! ## emit -/

theorem ctrl_none (hg : Firm h0) {a : Nat} {o0 : Op V} (h : h0 a = some o0) : o0.core.ctrlIn = [] := by
  rcases simple_or_pipe hg.grid h with hsim | ⟨ins, outs, pm, hk0⟩
  · exact (hg.tight a o0 h hsim).ctrl
  · exact hg.grid.ctrl a o0 h ins outs pm hk0

theorem qk_deliver (hg : Firm h0) (fuel : Nat) (src : Nat × Str) (m : Msg V) (u : Unit) (x : Conn) (c : Nat → Nat) : Qk h0 c (deliver fuel src m u x) := by
  unfold deliver
  refine qk_get _ fun o o0 ho0 hfr _ => ?_
  split
  · rename_i hd
    rw [isData_of_fresh hfr] at hd
    exact qk_recvData hg fuel c _ _ _ _ o0 ho0 hd
  · split
    · rename_i hc
      rw [isCtrl_of_fresh hfr] at hc
      unfold Core.isCtrl at hc
      rw [ctrl_none hg ho0] at hc
      cases hc
    · exact qk_pure _

theorem qk_deliverAll (hg : Firm h0) (fuel : Nat) (src : Nat × Str) (m : Msg V) (l : List Conn) (hl : ∀ x ∈ l, ∃ o, h0 x.target = some o) :
    ∀ (c : Nat → Nat) (u : Unit), Qk h0 c (M.fold (deliver fuel src m) l u) := by
  induction l with
  | nil => intro c u; exact qk_pure _
  | cons x l ih =>
    intro c u
    exact qk_bind (qk_deliver hg fuel src m u x c) (dk_deliver hg.ground fuel src m u x (hl x (by simp)) c) (pp_deliver hg.grid fuel src m u x) fun u' =>
      ih (fun y hy => hl y (List.mem_cons_of_mem _ hy)) _ u'

/-- What is known of the executions of operators. -/
structure Runs (h0 : Nat → Option (Op V)) (ex : Bool → Nat → M (St V) (ProgMsg V)) : Prop where
  works : Works h0 ex
  keeps : ∀ ctrl a, Kpp h0 False (ex ctrl a)
  quiet : ∀ a, (∃ o, h0 a = some o) → ∀ c, Qk h0 (fun b => c b + one a b) (ex false a) ∧ Qk h0 c (ex true a)

variable {ex : Bool → Nat → M (St V) (ProgMsg V)}

theorem qk_trigger (hex : Runs h0 ex) (out : ProgMsg V) (x : Conn) (hx : ∃ o, h0 x.target = some o)
    (c : Nat → Nat) : Qk h0 (fun b => c b + pay h0 x b) (trigger ex out x) := by
  unfold trigger
  refine qk_get _ fun o o0 ho0 hfr _ => ?_
  rw [isData_of_fresh hfr]
  by_cases hd : o0.core.isData x.port = true
  · rw [if_pos hd]
    have : (fun b => c b + pay h0 x b) = fun b => c b + one x.target b := by funext b; simp [pay, ho0, hd]
    rw [this]
    exact qk_bind (hex.quiet _ hx c).1 (hex.works _ hx c).1 (hex.keeps _ _) fun _ => qk_pure _
  · rw [if_neg hd]
    have : (fun b => c b + pay h0 x b) = c := by funext b; simp [pay, ho0, hd]
    rw [this]
    split
    · exact qk_bind (hex.quiet _ hx c).2 (hex.works _ hx c).2 (hex.keeps _ _) fun _ => qk_pure _
    · exact qk_pure _

theorem qk_triggerAll (hex : Runs h0 ex) (l : List Conn) (hl : ∀ x ∈ l, ∃ o, h0 x.target = some o)
    (c : Nat → Nat) : ∀ out, Qk h0 (fun b => c b + pays h0 l b) (M.fold (trigger ex) l out) := by
  induction l with
  | nil => intro out; exact qk_pure _
  | cons x l ih =>
    intro out
    have : (fun b => c b + pays h0 (x :: l) b) = fun b => (c b + pays h0 l b) + pay h0 x b := by
      funext b; simp only [pays, List.map_cons, List.sum_cons]; omega
    rw [this]
    exact qk_bind (qk_trigger hex out x (hl x (by simp)) _) (dk_trigger hex.works out x (hl x (by simp)) _) (pp_trigger hex.keeps out x) fun out' =>
      ih (fun y hy => hl y (List.mem_cons_of_mem _ hy)) out'

theorem qk_emitMsg (hg : Firm h0) (hex : Runs h0 ex) (fuel a : Nat) (port : Str) (m : Msg V) : Qk h0 c (emitMsg ex fuel a port m) := by
  unfold emitMsg
  refine qk_get a fun o o0 ho0 hfr _ => qk_state fun s => qk_log _ ?_
  have hout := outputs_of_fresh hfr
  dsimp only
  split
  · exact qk_pure _
  · rename_i conns hcn
    have hl : ∀ x ∈ conns, ∃ o, h0 x.target = some o := hg.ground.conns a o0 ho0 port conns (by rw [← hout]; exact hcn)
    exact qk_bind (qk_deliverAll hg fuel _ m conns hl c ()) (dk_deliverAll hg.ground fuel _ m conns hl c ())
      (pp_fold _ (fun _ _ _ => pp_deliver hg.grid _ _ _ _ _) _) fun _ => qk_triggerAll hex conns hl c _

theorem qk_emitOp (hg : Firm h0) (hex : Runs h0 ex) (fuel : Nat) {a : Nat} {o0 : Op V} (ha : h0 a = some o0) (msgs : OpMsg V)
    (hm : ∀ q ∈ msgs.keys, q ∈ o0.core.outIds) : Qk h0 c (emitOp ex fuel a msgs) := by
  have hex' : ∃ o, h0 a = some o := ⟨o0, ha⟩
  have hport : ∀ p ms, Qk h0 c (emitPort ex fuel a p ms) ∧ Dk h0 c c (emitPort ex fuel a p ms) ∧ Kpp h0 False (emitPort ex fuel a p ms) := fun p ms =>
    ⟨qk_fold _ (fun out m _ => ⟨qk_bind (qk_emitMsg hg hex fuel a _ _) (dk_emitMsg hg.ground hex.works fuel hex' _ _) (pp_emitMsg hg.grid hex.keeps _ _ _ _) fun _ => qk_pure _,
        dk_bind (dk_emitMsg hg.ground hex.works fuel hex' _ _) fun _ => dk_pure _, pp_bind (pp_emitMsg hg.grid hex.keeps _ _ _ _) fun _ => pp_pure _⟩) _,
      dk_fold _ (fun out m _ => dk_bind (dk_emitMsg hg.ground hex.works fuel hex' _ _) fun _ => dk_pure _) _,
      pp_fold _ (fun out m _ => pp_bind (pp_emitMsg hg.grid hex.keeps _ _ _ _) fun _ => pp_pure _) _⟩
  unfold emitOp
  refine qk_fold _ (fun out x hx => ⟨?_, ?_, ?_⟩) _
  · refine qk_get a fun o o0' ho0 hfr _ => ?_
    rw [ha] at ho0
    cases ho0
    have : x.1 ∈ o.core.outIds := by
      rw [outIds_of_fresh hfr]
      exact hm x.1 (List.mem_map.2 ⟨x, hx, rfl⟩)
    rw [if_pos (by simpa using this)]
    obtain ⟨h1, h2, h3⟩ := hport x.1 x.2
    exact qk_bind h1 h2 h3 fun _ => qk_pure _
  · refine dk_get hex' fun o o0 ho0 hfr => ?_
    split
    · exact dk_bind (hport _ _).2.1 fun _ => dk_pure _
    · exact dk_exc _
  · refine pp_get _ fun o o0 ho0 hfr _ => ?_
    split
    · exact pp_bind (hport _ _).2.2 fun _ => pp_pure _
    · exact pp_throw fun h => h.elim

/-- Running an operator by itself. -/
theorem qk_run (hg : Firm h0) {a : Nat} {o0 : Op V} (h0a : h0 a = some o0) (hsim : Simple o0) (ctrl : Bool)
    (hc : ctrl = false → ∃ c0 : Nat → Nat, c = fun b => c0 b + one a b)
    (hd : Dk h0 c c' (localRun a (if ctrl = true then Op.execCtrl else Op.execData))) {f : OpMsg V → M (St V) (ProgMsg V)}
    (hf : ∀ out, (∀ q ∈ out.keys, q ∈ o0.core.outIds) → Qk h0 c' (f out)) :
    Qk h0 c (localRun a (if ctrl = true then Op.execCtrl else Op.execData) >>= f) := by
  have hq : Qk h0 c (localRun a (if ctrl = true then Op.execCtrl else Op.execData)) := by
    refine qk_act hg h0a hsim fun o hfr ht hs hp hso hst => ?_
    cases ctrl with
    | false =>
      rw [if_neg (by simp)]
      obtain ⟨c0, rfl⟩ := hc rfl
      exact qr_execData ht hs hp hso (hst.mono (by simp [one]))
    | true => rw [if_pos rfl]; exact qr_execCtrl ht
  intro s hl hs e s' h
  obtain ⟨o, ho, hfr⟩ := hs.shape.get h0a
  have e1 := hq s hl hs
  have e2 := hd s hl
  have e3 := (pp_run (g := False) (f := fun out => pure []) hg.grid h0a hsim ctrl (fun _ _ => pp_pure _) s hs).1
  simp only [bind, M.bind] at h e3
  cases hx : localRun a (if ctrl = true then Op.execCtrl else Op.execData) s with
  | err e' t =>
    rw [hx] at h
    cases h
    exact e1 e s' hx
  | ok out t =>
    rw [hx] at h e2 e3
    refine hf out (fun q hq => ?_) t e2 e3 e s' h
    unfold localRun at hx
    rw [ho] at hx
    dsimp only at hx
    obtain ⟨o0', as, h3, h4⟩ := hs.reach a o ho ((simple_of_fresh hfr).2 hsim)
    rw [h0a] at h3
    cases h3
    have hpo : PortsOK o := by rw [h4]; exact after_ports (hg.grid.ports a o0 h0a hsim) (hg.grid.wf a o0 h0a) as
    have hsr : SafeR (Outs (outNames o.kind)) ((if ctrl = true then Op.execCtrl else Op.execData) o) := by
      cases ctrl
      · exact sr_execData o hpo
      · exact sr_execCtrl o
    cases hr : (if ctrl = true then Op.execCtrl else Op.execData) o with
    | err e o' => rw [hr] at hx; cases hx
    | ok out' o' =>
      rw [hr] at hx hsr
      cases hx
      rw [← outIds_of_fresh hfr]
      exact hpo.names q (hsr.sub q hq)

theorem fresh_execData {o : Op V} (hw : o.core.WF) : o.execData.state.fresh = o.fresh := by
  have := act_fresh o hw .execData
  simp only [act] at this
  cases h : o.execData <;> rw [h] at this <;> exact this

theorem fresh_execCtrl {o : Op V} (hw : o.core.WF) : o.execCtrl.state.fresh = o.fresh := by
  have := act_fresh o hw .execCtrl
  simp only [act] at this
  cases h : o.execCtrl <;> rw [h] at this <;> exact this

theorem dk_runData (hg : Ground h0) {a : Nat} (ha : ∃ o, h0 a = some o) (c : Nat → Nat) : Dk h0 (fun b => c b + one a b) c (localRun a Op.execData) := by
  refine dk_run ha (fun b hb => by simp) fun o o0 ho0 hfr hst => ?_
  have h2 := Core.WF.of_fresh (congrArg Op.core hfr) (hg.wf a o0 ho0)
  have h3 := execData_stock ((hg.sound a o0 ho0).of_fresh hfr) h2 (c := c a) (by simpa [one] using hst)
  refine ⟨h3.1, fresh_execData h2, ?_⟩
  split
  · exact h3.2
  · exact h3.2.mono (Nat.zero_le _)

theorem dk_runCtrl (hg : Ground h0) {a : Nat} (ha : ∃ o, h0 a = some o) (c : Nat → Nat) : Dk h0 c c (localRun a Op.execCtrl) := by
  refine dk_run ha (fun b hb => Nat.le_refl _) fun o o0 ho0 hfr hst => ?_
  have h2 := Core.WF.of_fresh (congrArg Op.core hfr) (hg.wf a o0 ho0)
  have h3 := execCtrl_stock ((hg.sound a o0 ho0).of_fresh hfr) h2 hst
  refine ⟨h3.1, fresh_execCtrl h2, ?_⟩
  split
  · exact h3.2
  · exact h3.2.mono (Nat.zero_le _)

theorem runs_exec (hg : Firm h0) (fuel : Nat) : Runs h0 (exec fuel) := by
  refine ⟨works_exec hg.ground fuel, pp_exec hg.grid fuel, ?_⟩
  induction fuel with
  | zero => intro a _ c; exact ⟨qk_div, qk_div⟩
  | succ fuel ih =>
    have hex : Runs h0 (exec fuel) := ⟨works_exec hg.ground fuel, pp_exec hg.grid fuel, ih⟩
    intro a ha c
    constructor
    · unfold exec
      refine qk_log _ (qk_get a fun o o0 ho0 hfr hwait => ?_)
      rcases simple_or_pipe hg.grid ho0 with hsim | ⟨ins, outs, pm, hk0⟩
      · have : Qk h0 (fun b => c b + one a b) (do
            let out ← localRun a (if false = true then Op.execCtrl else Op.execData)
            emitOp (exec fuel) fuel a out) :=
          qk_run (c' := c) hg ho0 hsim false (fun _ => ⟨c, rfl⟩) (by rw [if_neg (by simp)]; exact dk_runData hg.ground ha c) fun out hout => qk_emitOp hg hex fuel ho0 out hout
        have hso : Simple o := (simple_of_fresh hfr).2 hsim
        unfold Simple at hso
        cases hk : o.kind <;> first | exact this | (rw [hk] at hso; exact hso.elim)
      · have hk := kind_pipeline_of_fresh hfr.symm hk0
        simp only [hk, Bool.false_eq_true, if_false]
        refine qk_pre (c' := c) ?_ fun s hs => hs.mono fun b => by omega
        have hstep : ∀ out, ∀ key ∈ o.core.toProcess, Qk h0 c (pipelineStep (exec fuel) ins out key) ∧ Dk h0 c c (pipelineStep (exec fuel) ins out key) ∧
            Kpp h0 False (pipelineStep (exec fuel) ins out key) := by
          intro out key hkey
          obtain ⟨t, ht⟩ := has_find (hwait ins outs pm hk key hkey)
          obtain ⟨ot, h1, h2⟩ := hg.ground.pipes a o0 ho0 ins outs pm hk0 key t ht
          have hfree : ∀ s, Live h0 c s → Live h0 (fun b => c b + one t b) s := fun s hs => by
            refine hs.free (a := t) (fun o' ho' => ?_) fun b hb => by simp [one, hb]
            rw [h1] at ho'; cases ho'; exact h2
          unfold pipelineStep
          rw [ht]
          exact ⟨qk_bind (qk_pre (ih t ⟨ot, h1⟩ c).1 hfree) (dk_pre (hex.works t ⟨ot, h1⟩ c).1 hfree) (hex.keeps _ _) fun _ => qk_pure _,
            dk_bind (dk_pre (hex.works t ⟨ot, h1⟩ c).1 hfree) fun _ => dk_pure _, pp_bind (hex.keeps _ _) fun _ => pp_pure _⟩
        refine qk_state fun s => qk_depth _ (qk_bind (qk_fold _ hstep _) (dk_fold _ (fun b k hk => (hstep b k hk).2.1) _)
          (pp_fold _ (fun b k hk => (hstep b k hk).2.2) _) fun r => qk_depth _ (qk_bind (c' := c) ?_ ?_ (pp_pipe ho0 hk0 (f := fun _ => []) rfl fun _ _ h => by cases h) fun _ => ?_))
        · intro s _ hs e s' h
          obtain ⟨o, ho, _⟩ := hs.shape.get ho0
          unfold localRun at h
          rw [ho] at h
          cases h
        · refine dk_run ha (fun b hb => Nat.le_refl _) fun o1 o01 h3 h4 hst => ⟨trivial, rfl, ?_⟩
          intro as hk1
          rw [ho0] at h3
          cases h3
          exact absurd (isAR_of_fresh h4 ⟨as, hk1⟩) (not_ar_pipeline hk0)
        · split
          · exact qk_pure _
          · obtain ⟨out, h1, h2⟩ := pipelineOutput_names (hg.grid.out a o0 ho0 ins outs pm hk0) (flatten r) [] fun q hq => by cases hq
            exact qk_lift h1 (qk_emitOp hg hex fuel ho0 out h2)
    · unfold exec
      refine qk_log _ (qk_get a fun o o0 ho0 hfr hwait => ?_)
      rcases simple_or_pipe hg.grid ho0 with hsim | ⟨ins, outs, pm, hk0⟩
      · have : Qk h0 c (do
            let out ← localRun a (if true = true then Op.execCtrl else Op.execData)
            emitOp (exec fuel) fuel a out) :=
          qk_run (c' := c) hg ho0 hsim true (fun h => by cases h) (by rw [if_pos rfl]; exact dk_runCtrl hg.ground ha c) fun out hout => qk_emitOp hg hex fuel ho0 out hout
        have hso : Simple o := (simple_of_fresh hfr).2 hsim
        unfold Simple at hso
        cases hk : o.kind <;> first | exact this | (rw [hk] at hso; exact hso.elim)
      · have hk := kind_pipeline_of_fresh hfr.symm hk0
        simp only [hk, if_true]
        exact qk_pure _

/-! ## Calls of a program -/

theorem qk_feed (hg : Firm h0) (fuel : Nat) {a : Nat} {o0 : Op V} (ha : h0 a = some o0) {p : Str} (hp : o0.core.dataIn.has p = true) (m : Msg V)
    (c : Nat → Nat) : Qk h0 c (feed fuel a p m) :=
  qk_bind (qk_recvData hg fuel c none a m p o0 ha hp) (dk_recvData hg.ground fuel c none a m p ⟨o0, ha⟩) (pp_recvData hg.grid fuel none a m p fun h => h.elim) fun _ =>
    ((runs_exec hg fuel).quiet a ⟨o0, ha⟩ c).1

theorem qk_feedAll (hg : Firm h0) (fuel : Nat) {a : Nat} {o0 : Op V} (ha : h0 a = some o0) (msgs : OpMsg V)
    (hm : ∀ p ∈ msgs.keys, o0.core.dataIn.has p = true) (c : Nat → Nat) : Qk h0 c (feedAll fuel a msgs) := by
  have h1 : ∀ p m, Dk h0 c c (feed fuel a p m) := fun p m => dk_feed hg.ground fuel ⟨o0, ha⟩ p m c
  have h2 : ∀ p m, Kpp h0 False (feed fuel a p m) := fun p m => pp_feed hg.grid fuel a p m fun h => h.elim
  refine qk_fold _ (fun _ x hx => ⟨qk_fold _ (fun _ m _ => ⟨?_, dk_bind (h1 _ _) fun _ => dk_pure _, pp_bind (h2 _ _) fun _ => pp_pure _⟩) _,
    dk_fold _ (fun _ m _ => dk_bind (h1 _ _) fun _ => dk_pure _) _, pp_fold _ (fun _ m _ => pp_bind (h2 _ _) fun _ => pp_pure _) _⟩) _
  exact qk_bind (qk_feed hg fuel ha (hm _ (List.mem_map.2 ⟨x, hx, rfl⟩)) _ c) (h1 _ _) (h2 _ _) fun _ => qk_pure _

end Rtbot
