import Verif.Lemmas.DefinedBuilt
import Verif.Lemmas.PortRun
import Verif.Lemmas.Terminate
import Verif.Props.Ports

set_option linter.unusedSectionVars false

/-! # Ports during a call of a program with pipelines -/

namespace Rtbot
variable {V : Type} [Num V]
open Spec

/-- What must hold of the operators of a program, whatever they have received: the tables of simple operators are consistent, and the tables
of a pipeline lead to ports of its inner operators and to its own outputs. -/
structure Grid (h0 : Nat → Option (Op V)) : Prop where
  wf : HeapWF h0
  ports : ∀ b o, h0 b = some o → Simple o → PortsOK o
  plain : ∀ b o, h0 b = some o → ∀ i q, o.kind ≠ .composite i q
  into : ∀ b o, h0 b = some o → ∀ ins outs pm, o.kind = .pipeline ins outs pm → ∀ p, o.core.dataIn.has p = true →
    p ≠ [] ∧ ∃ key t ot, pm.find? p = some key ∧ ins.find? key = some t ∧ h0 t = some ot ∧ ot.core.dataIn.has (split2 key).2 = true
  ctrl : ∀ b o, h0 b = some o → ∀ ins outs pm, o.kind = .pipeline ins outs pm → o.core.ctrlIn = []
  out : ∀ b o, h0 b = some o → ∀ ins outs pm, o.kind = .pipeline ins outs pm → ∀ key, outs.has key = true → ∃ q, pm.find? key = some q ∧ q ∈ o.core.outIds

/-- The state reached from the operators `h0`: simple operators have made calls, pipelines wait for inputs they have. -/
structure Placid (h0 : Nat → Option (Op V)) (s : St V) : Prop where
  shape : SameShape h0 s.heap
  reach : ∀ b o, s.heap b = some o → Simple o → ∃ o0 as, h0 b = some o0 ∧ o = after o0 as
  wait : ∀ b o, s.heap b = some o → ∀ ins outs pm, o.kind = .pipeline ins outs pm → ∀ k ∈ o.core.toProcess, ins.has k = true

/-- Some simple operator throws `out_of_range` by itself. -/
def Spec.Loose (h : Nat → Option (Op V)) : Prop :=
  ∃ b o as, h b = some o ∧ Simple o ∧ .error (.exc .outOfRange) ∈ results o as

/-- The error is not about a missing port. -/
def Fair (h0 : Nat → Option (Op V)) (e : Err) : Prop := e ≠ .exc .badPort ∧ (e = .exc .outOfRange → Loose h0)

/-- The computation keeps the heap calm; under `g` its error is not about a missing port. -/
def Kpp (h0 : Nat → Option (Op V)) (g : Prop) {α : Type} (x : M (St V) α) : Prop :=
  ∀ s, Placid h0 s → Placid h0 (x s).state ∧ ∀ e s', x s = .err e s' → g → Fair h0 e

variable {h0 : Nat → Option (Op V)} {g : Prop}

theorem pp_pure {α : Type} (a : α) : Kpp h0 g (pure a : M (St V) α) := fun _ h => ⟨h, fun _ _ h => by cases h⟩
theorem pp_throw {α : Type} {e : Err} (h : g → Fair h0 e) : Kpp h0 g (M.throw e : M (St V) α) :=
  fun _ hs => ⟨hs, fun _ _ h' hg => by cases h'; exact h hg⟩

theorem fair_diverge : Fair h0 .diverge := ⟨(fun h => by cases h), (fun h => by cases h)⟩
theorem fair_ub (u : UB) : Fair h0 (.ub u) := ⟨(fun h => by cases h), (fun h => by cases h)⟩

theorem pp_bind {α β : Type} {x : M (St V) α} {f : α → M (St V) β} (h : Kpp h0 g x) (hf : ∀ a, Kpp h0 g (f a)) : Kpp h0 g (x >>= f) := by
  intro s hs
  obtain ⟨h1, h2⟩ := h s hs
  cases hx : x s with
  | ok a s' =>
    rw [hx] at h1
    have := hf a s' h1
    simp only [bind, M.bind, hx]
    exact this
  | err e s' =>
    rw [hx] at h1 h2
    simp only [bind, M.bind, hx]
    exact ⟨h1, fun e' s'' h => h2 e' s' (by cases h; rfl)⟩

theorem pp_fold {α β : Type} {f : β → α → M (St V) β} (l : List α) (hf : ∀ b, ∀ a ∈ l, Kpp h0 g (f b a)) : ∀ b, Kpp h0 g (M.fold f l b) := by
  induction l with
  | nil => intro b; exact pp_pure b
  | cons x l ih => intro b; exact pp_bind (hf b x (by simp)) fun b' => ih (fun b a ha => hf b a (List.mem_cons_of_mem _ ha)) b'

theorem pp_log (e : Ev V) : Kpp h0 g (logEv e) := fun _ h => ⟨⟨h.shape, h.reach, h.wait⟩, fun _ _ h => by cases h⟩
theorem pp_depth (d : Nat) : Kpp h0 g (setDepth d : M (St V) Unit) := fun _ h => ⟨⟨h.shape, h.reach, h.wait⟩, fun _ _ h => by cases h⟩
theorem pp_state : Kpp h0 g (M.get : M (St V) (St V)) := fun _ h => ⟨h, fun _ _ h => by cases h⟩

theorem pp_lift {α β : Type} {x : Except Err α} {f : α → M (St V) β} (he : ∀ e, x = .error e → g → Fair h0 e) (hf : ∀ a, x = .ok a → Kpp h0 g (f a)) :
    Kpp h0 g (M.lift x >>= f) := by
  cases x with
  | ok a => exact hf a rfl
  | error e => exact fun s hs => ⟨hs, fun e' s' h hG => by cases h; exact he e rfl hG⟩

/-- Reading an operator. -/
theorem pp_get {α : Type} (a : Nat) {f : Op V → M (St V) α} (hf : ∀ o o0, h0 a = some o0 → o.fresh = o0.fresh →
    (∀ ins outs pm, o.kind = .pipeline ins outs pm → ∀ k ∈ o.core.toProcess, ins.has k = true) → Kpp h0 g (f o)) : Kpp h0 g (getOp a >>= f) := by
  intro s hs
  simp only [bind, M.bind, getOp]
  cases h : s.heap a with
  | none => exact ⟨hs, fun _ _ h _ => by cases h; exact fair_ub _⟩
  | some o =>
    obtain ⟨o0, h1, h2⟩ := hs.shape.get' h
    exact hf o o0 h1 h2.symm (hs.wait a o h) s hs

theorem Placid.set {s : St V} (h : Placid h0 s) {a : Nat} {o o' : Op V} (ho : s.heap a = some o) (hf : o'.fresh = o.fresh)
    (hr : Simple o → ∃ x, o' = (act o x).1) (hw : ∀ ins outs pm, o'.kind = .pipeline ins outs pm → ∀ k ∈ o'.core.toProcess, ins.has k = true) :
    Placid h0 (s.setOp a o') := by
  refine ⟨fun b => ?_, fun b p hb hs => ?_, fun b p hb => ?_⟩
  · unfold St.setOp
    dsimp only
    split
    · rename_i hb
      subst hb
      rw [← h.shape b, ho]
      simp [hf]
    · exact h.shape b
  · unfold St.setOp at hb
    dsimp only at hb
    split at hb
    · rename_i hba
      subst hba
      cases hb
      have hso : Simple o := (simple_of_fresh hf).1 hs
      obtain ⟨x, hx⟩ := hr hso
      obtain ⟨o0, as, h1, h2⟩ := h.reach b o ho hso
      refine ⟨o0, as ++ [x], h1, ?_⟩
      rw [hx, h2, after_append]
      rfl
    · exact h.reach b p hb hs
  · unfold St.setOp at hb
    dsimp only at hb
    split at hb
    · cases hb; exact hw
    · exact h.wait b p hb

theorem simple_not_pipe {o : Op V} (h : Simple o) {ins outs : Map Nat} {pm : Map Str} : o.kind ≠ .pipeline ins outs pm := by
  intro hk
  unfold Simple at h
  rw [hk] at h
  exact h

/-- Running a method of a simple operator. -/
theorem pp_act {α : Type} (hg : Grid h0) {a : Nat} {o0 : Op V} (h0a : h0 a = some o0) (hsim : Simple o0) {f : Op V → Res (Op V) α} (x : Act V)
    (hst : ∀ o, (act o x).1 = (f o).state) (herr : ∀ o e o', f o = .err e o' → (act o x).2 = .error e)
    (hs : ∀ o, PortsOK o → o.fresh = o0.fresh → g → ∀ e o', f o = .err e o' → e ≠ .exc .badPort) : Kpp h0 g (localRun a f) := by
  intro s hc
  obtain ⟨o, ho, hfr⟩ := hc.shape.get h0a
  have hso : Simple o := (simple_of_fresh hfr).2 hsim
  obtain ⟨o0', as, h1, h2⟩ := hc.reach a o ho hso
  rw [h0a] at h1
  cases h1
  have hpo : PortsOK o := by rw [h2]; exact after_ports (hg.ports a o0 h0a hsim) (hg.wf a o0 h0a) as
  have hwf : o.core.WF := Core.WF.of_fresh (congrArg Op.core hfr) (hg.wf a o0 h0a)
  have hset : Placid h0 (s.setOp a (f o).state) := by
    refine hc.set ho ?_ (fun _ => ⟨x, (hst o).symm⟩) ?_
    · rw [← hst o]; exact act_fresh o hwf x
    · intro ins outs pm hk
      have hf' : (f o).state.fresh = o.fresh := by rw [← hst o]; exact act_fresh o hwf x
      exact absurd (kind_pipeline_of_fresh hf' hk) (simple_not_pipe hso)
  unfold localRun
  rw [ho]
  dsimp only
  cases hx : f o with
  | ok v o' => rw [hx] at hset; exact ⟨hset, fun _ _ h => by cases h⟩
  | err e o' =>
    rw [hx] at hset
    refine ⟨hset, fun e' s' h hG => ?_⟩
    cases h
    refine ⟨hs o hpo hfr hG e o' hx, fun he => ⟨a, o0, as ++ [x], h0a, hsim, ?_⟩⟩
    have := results_last o0 as x
    rw [← h2, herr o e o' hx, he] at this
    exact this

theorem updWith_act {o o' : Op V} {f : Op V → Except Err (Op V)} {e : Err} (h : updWith f o = .err e o') : f o = .error e := by
  unfold updWith at h
  cases hx : f o with
  | ok _ => rw [hx] at h; cases h
  | error e' => rw [hx] at h; cases h; rfl

theorem simple_or_pipe (hg : Grid h0) {a : Nat} {o0 : Op V} (h : h0 a = some o0) : Simple o0 ∨ ∃ ins outs pm, o0.kind = .pipeline ins outs pm := by
  have hp := hg.plain a o0 h
  unfold Simple
  cases hk : o0.kind <;> first | exact Or.inl trivial | skip
  · exact absurd hk (hp _ _)
  · exact Or.inr ⟨_, _, _, rfl⟩

theorem resolve_fresh {o o' : Op V} (h : o'.fresh = o.fresh) {p : Str} (hp : o.core.dataIn.has p = true) :
    o'.core.dataIn.has (o'.core.resolveData p) = true := has_resolve (by rw [has_of_fresh h]; exact hp)

theorem resolveCtrl_fresh {o o' : Op V} (h : o'.fresh = o.fresh) {p : Str} (hp : o.core.ctrlIn.has p = true) :
    o'.core.ctrlIn.has (o'.core.resolveCtrl p) = true := has_resolveCtrl (by rw [hasCtrl_of_fresh h]; exact hp)

theorem safe_err {α : Type} {x : Except Err α} {Q : α → Prop} (h : Safe Q x) {e : Err} (he : x = .error e) : e ≠ .exc .badPort := by
  rw [he] at h; exact h

theorem recv_simple (hg : Grid h0) {a : Nat} {o0 : Op V} (h0a : h0 a = some o0) (hsim : Simple o0) (m : Msg V) (p : Str)
    (hp : g → o0.core.dataIn.has p = true) : Kpp h0 g (localRun a (updWith fun o => o.recvData m p)) := by
  refine pp_act hg h0a hsim (.recvData p m) (fun o => ?_) (fun o e o' h => ?_) fun o _ hfr hG e o' h => ?_
  · simp only [act, updWith]; cases o.recvData m p <;> rfl
  · simp only [act, updWith_act h]
  · exact safe_err (sf_recvData o m p (resolve_fresh hfr (hp hG))) (updWith_act h)

/-- Executing a simple operator. -/
theorem pp_run (hg : Grid h0) {a : Nat} {o0 : Op V} (h0a : h0 a = some o0) (hsim : Simple o0) (ctrl : Bool) {f : OpMsg V → M (St V) (ProgMsg V)}
    (hf : ∀ out, (∀ q ∈ out.keys, q ∈ o0.core.outIds) → Kpp h0 g (f out)) :
    Kpp h0 g (localRun a (if ctrl = true then Op.execCtrl else Op.execData) >>= f) := by
  have hstate : ∀ o : Op V, (act o (if ctrl = true then .execCtrl else .execData)).1 = ((if ctrl = true then Op.execCtrl else Op.execData) o).state := by
    intro o
    cases ctrl
    · simp only [act, Bool.false_eq_true, if_false]; cases o.execData <;> rfl
    · simp only [act, if_true]; cases o.execCtrl <;> rfl
  have hsafe : ∀ o : Op V, PortsOK o → SafeR (Outs (outNames o.kind)) ((if ctrl = true then Op.execCtrl else Op.execData) o) := by
    intro o ho
    cases ctrl
    · exact sr_execData o ho
    · exact sr_execCtrl o
  have hrun : Kpp h0 g (localRun a (if ctrl = true then Op.execCtrl else Op.execData)) := by
    refine pp_act hg h0a hsim (if ctrl = true then .execCtrl else .execData) hstate (fun o e o' h => ?_) fun o hp hfr _ e o' h => ?_
    · cases ctrl
      · simp only [Bool.false_eq_true, if_false] at h ⊢; simp only [act, h]
      · simp only [if_true] at h ⊢; simp only [act, h]
    · have := hsafe o hp
      rw [h] at this
      exact this
  intro s hc
  obtain ⟨o, ho, hfr⟩ := hc.shape.get h0a
  obtain ⟨h1, h2⟩ := hrun s hc
  simp only [bind, M.bind]
  cases hx : localRun a (if ctrl = true then Op.execCtrl else Op.execData) s with
  | err e s' => rw [hx] at h1 h2; exact ⟨h1, fun e' s'' h => h2 e' s' (by cases h; rfl)⟩
  | ok out s' =>
    rw [hx] at h1
    refine hf out (fun q hq => ?_) s' h1
    unfold localRun at hx
    rw [ho] at hx
    dsimp only at hx
    obtain ⟨o0', as, h3, h4⟩ := hc.reach a o ho ((simple_of_fresh hfr).2 hsim)
    rw [h0a] at h3
    cases h3
    have hpo : PortsOK o := by rw [h4]; exact after_ports (hg.ports a o0 h0a hsim) (hg.wf a o0 h0a) as
    have hs := hsafe o hpo
    cases hr : (if ctrl = true then Op.execCtrl else Op.execData) o with
    | err e o' => rw [hr] at hx; cases hx
    | ok out' o' =>
      rw [hr] at hx hs
      cases hx
      rw [← outIds_of_fresh hfr]
      exact hpo.names q (hs.sub q hq)

/-- Changing what a pipeline waits for. -/
theorem pp_pipe {a : Nat} {o0 : Op V} (h0a : h0 a = some o0) {ins outs : Map Nat} {pm : Map Str} (hk : o0.kind = .pipeline ins outs pm)
    {f : List Str → List Str} {y : Op V → Res (Op V) Unit} (hy : y = fun o => .ok () { o with core := { o.core with toProcess := f o.core.toProcess } })
    (hf : ∀ (l : List Str) k, k ∈ f l → k ∈ l ∨ ins.has k = true) : Kpp h0 g (localRun a y) := by
  subst hy
  intro s hc
  obtain ⟨o, ho, hfr⟩ := hc.shape.get h0a
  have hk' := kind_pipeline_of_fresh hfr.symm hk
  unfold localRun
  rw [ho]
  refine ⟨hc.set ho rfl (fun h => absurd hk' (simple_not_pipe h)) ?_, fun _ _ h => by cases h⟩
  intro ins' outs' pm' hk1 k hk2
  have hk1 : o.kind = .pipeline ins' outs' pm' := hk1
  have e := hk'.symm.trans hk1
  cases e
  rcases hf _ k hk2 with h | h
  · exact hc.wait a o ho _ _ _ hk1 k h
  · exact h

theorem pp_recvData (hg : Grid h0) (fuel : Nat) : ∀ (frm : Option (Nat × Str)) (a : Nat) (m : Msg V) (p : Str),
    (g → ∃ o0, h0 a = some o0 ∧ o0.core.dataIn.has p = true) → Kpp h0 g (recvData fuel frm a m p) := by
  induction fuel with
  | zero => intro frm a m p _; exact pp_throw fun _ => fair_diverge
  | succ fuel ih =>
    intro frm a m p hp
    unfold recvData
    refine pp_bind (pp_log _) fun _ => pp_get a fun o o0 ho0 hfr hwait => ?_
    have hp' : g → o0.core.dataIn.has p = true := fun hG => by
      obtain ⟨o1, h1, h2⟩ := hp hG
      rw [ho0] at h1; cases h1; exact h2
    rcases simple_or_pipe hg ho0 with hsim | ⟨ins, outs, pm, hk0⟩
    · have := recv_simple hg ho0 hsim m p hp'
      have hso : Simple o := (simple_of_fresh hfr).2 hsim
      unfold Simple at hso
      cases hk : o.kind <;> first | exact this | (rw [hk] at hso; exact hso.elim)
    · have hk := kind_pipeline_of_fresh hfr.symm hk0
      simp only [hk]
      have hin := hg.into a o0 ho0 ins outs pm hk0 p
      have hport : g → ∃ key t ot, pipelinePort ins pm p = .ok key ∧ ins.find? key = some t ∧ h0 t = some ot ∧ ot.core.dataIn.has (split2 key).2 = true := by
        intro hG
        obtain ⟨hne, key, t, ot, h1, h2, h3, h4⟩ := hin (hp' hG)
        refine ⟨key, t, ot, ?_, h2, h3, h4⟩
        unfold pipelinePort
        rw [if_neg (fun h => hne h.1), h1]
      refine pp_lift (fun e he hG => ?_) fun key hkey => ?_
      · obtain ⟨key, t, ot, h1, _⟩ := hport hG
        rw [he] at h1; cases h1
      · have hport' : g → ∃ t ot, ins.find? key = some t ∧ h0 t = some ot ∧ ot.core.dataIn.has (split2 key).2 = true := by
          intro hG
          obtain ⟨key', t, ot, h1, h2⟩ := hport hG
          rw [hkey] at h1; cases h1
          exact ⟨t, ot, h2⟩
        split
        · rename_i hn
          refine pp_throw fun hG => ?_
          obtain ⟨t, ot, h1, _⟩ := hport' hG
          rw [hn] at h1; cases h1
        · rename_i t ht
          refine pp_bind (ih none t m _ fun hG => ?_) fun _ => ?_
          · obtain ⟨t', ot, h1, h2⟩ := hport' hG
            rw [ht] at h1; cases h1
            exact ⟨ot, h2⟩
          · refine pp_pipe ho0 hk0 (f := fun l => setInsert l key) rfl (fun l k hk1 => ?_)
            rcases (mem_setInsert _ _ _).1 hk1 with rfl | h
            · exact Or.inr (by unfold Map.has; rw [ht]; rfl)
            · exact Or.inl h

theorem pp_recvCtrl (hg : Grid h0) (fuel : Nat) (frm : Option (Nat × Str)) (a : Nat) (m : Msg V) (p : Str)
    (hs : ∀ o0, h0 a = some o0 → Simple o0) (hp : g → ∀ o0, h0 a = some o0 → o0.core.ctrlIn.has p = true) :
    Kpp h0 g (recvCtrl fuel frm a m p) := by
  cases fuel with
  | zero => exact pp_throw fun _ => fair_diverge
  | succ fuel =>
    unfold recvCtrl
    refine pp_bind (pp_log _) fun _ => pp_get a fun o o0 ho0 hfr hwait => ?_
    have hsim := hs o0 ho0
    have : Kpp h0 g (localRun a (updWith fun o => o.recvCtrl m p)) := by
      refine pp_act hg ho0 hsim (.recvCtrl p m) (fun o => ?_) (fun o e o' h => ?_) fun o _ hfr hG e o' h => ?_
      · simp only [act, updWith]; cases o.recvCtrl m p <;> rfl
      · simp only [act, updWith_act h]
      · exact safe_err (sf_recvCtrl o m p (resolveCtrl_fresh hfr (hp hG o0 ho0))) (updWith_act h)
    have hso : Simple o := (simple_of_fresh hfr).2 hsim
    unfold Simple at hso
    cases hk : o.kind <;> first | exact this | (rw [hk] at hso; exact hso.elim)

/-! ## emit -/

theorem pp_deliver (hg : Grid h0) (fuel : Nat) (src : Nat × Str) (m : Msg V) (u : Unit) (x : Conn) : Kpp h0 g (deliver fuel src m u x) := by
  unfold deliver
  refine pp_get _ fun o o0 ho0 hfr _ => ?_
  split
  · rename_i hd
    rw [isData_of_fresh hfr] at hd
    exact pp_recvData hg fuel _ _ _ _ fun _ => ⟨o0, ho0, hd⟩
  · split
    · rename_i hc
      rw [isCtrl_of_fresh hfr] at hc
      refine pp_recvCtrl hg fuel _ _ _ _ (fun o1 ho1 => ?_) (fun _ o1 ho1 => ?_)
      · rw [ho0] at ho1; cases ho1
        rcases simple_or_pipe hg ho0 with h | ⟨ins, outs, pm, hk⟩
        · exact h
        · have := hg.ctrl _ o0 ho0 ins outs pm hk
          unfold Core.isCtrl at hc
          rw [this] at hc
          cases hc
      · rw [ho0] at ho1; cases ho1
        exact hc
    · exact pp_pure _

theorem pp_trigger {ex : Bool → Nat → M (St V) (ProgMsg V)} (hex : ∀ c a, Kpp h0 g (ex c a)) (out : ProgMsg V) (x : Conn) :
    Kpp h0 g (trigger ex out x) := by
  unfold trigger
  refine pp_get _ fun o o0 ho0 hfr _ => ?_
  split
  · exact pp_bind (hex _ _) fun _ => pp_pure _
  · split
    · exact pp_bind (hex _ _) fun _ => pp_pure _
    · exact pp_pure _

theorem pp_emitMsg (hg : Grid h0) {ex : Bool → Nat → M (St V) (ProgMsg V)} (hex : ∀ c a, Kpp h0 g (ex c a)) (fuel a : Nat) (port : Str) (m : Msg V) :
    Kpp h0 g (emitMsg ex fuel a port m) := by
  unfold emitMsg
  refine pp_get _ fun o o0 ho0 hfr _ => pp_bind pp_state fun s => pp_bind (pp_log _) fun _ => ?_
  dsimp only
  split
  · exact pp_pure _
  · exact pp_bind (pp_fold _ (fun _ _ _ => pp_deliver hg _ _ _ _ _) _) fun _ => pp_fold _ (fun _ _ _ => pp_trigger hex _ _) _

theorem pp_emitOp (hg : Grid h0) {ex : Bool → Nat → M (St V) (ProgMsg V)} (hex : ∀ c a, Kpp h0 g (ex c a)) (fuel a : Nat) (msgs : OpMsg V)
    (hm : ∀ o0, h0 a = some o0 → ∀ q ∈ msgs.keys, q ∈ o0.core.outIds) : Kpp h0 g (emitOp ex fuel a msgs) := by
  refine pp_fold _ (fun out x hx => pp_get _ fun o o0 ho0 hfr _ => ?_) _
  have : x.1 ∈ o.core.outIds := by
    rw [outIds_of_fresh hfr]
    exact hm o0 ho0 x.1 (List.mem_map.2 ⟨x, hx, rfl⟩)
  rw [if_pos (by simpa using this)]
  exact pp_bind (pp_fold _ (fun out m _ => pp_bind (pp_emitMsg hg hex _ _ _ _) fun _ => pp_pure _) _) fun _ => pp_pure _

/-- The translated results name outputs of the pipeline. -/
theorem pipelineOutput_names {outs : Map Nat} {pm : Map Str} {S : List Str} (h : ∀ key, outs.has key = true → ∃ q, pm.find? key = some q ∧ q ∈ S)
    (l : List (Str × Str × PortMsg V)) : ∀ out : OpMsg V, (∀ q ∈ out.keys, q ∈ S) → ∃ r, pipelineOutput outs pm l out = .ok r ∧ ∀ q ∈ r.keys, q ∈ S := by
  induction l with
  | nil => intro out ho; exact ⟨out, rfl, ho⟩
  | cons e l ih =>
    obtain ⟨id, port, v⟩ := e
    intro out ho
    rw [pipelineOutput]
    split
    · rename_i hh
      obtain ⟨q, h1, h2⟩ := h _ hh
      rw [h1]
      refine ih _ fun q' hq' => ?_
      have := (Map.has_iff _ _).2 hq'
      rw [has_emplace'] at this
      rcases this with rfl | h3
      · exact h2
      · exact ho q' ((Map.has_iff _ _).1 h3)
    · exact ih _ ho

theorem pp_exec (hg : Grid h0) (fuel : Nat) : ∀ (ctrl : Bool) (a : Nat), Kpp h0 g (exec fuel ctrl a) := by
  induction fuel with
  | zero => intro ctrl a; exact pp_throw fun _ => fair_diverge
  | succ fuel ih =>
    intro ctrl a
    unfold exec
    refine pp_bind (pp_log _) fun _ => pp_get a fun o o0 ho0 hfr hwait => ?_
    rcases simple_or_pipe hg ho0 with hsim | ⟨ins, outs, pm, hk0⟩
    · have : Kpp h0 g (do
          let out ← localRun a (if ctrl = true then Op.execCtrl else Op.execData)
          emitOp (exec fuel) fuel a out) := pp_run hg ho0 hsim ctrl fun out hout => pp_emitOp hg ih fuel a out fun o1 ho1 => by
            rw [ho0] at ho1; cases ho1; exact hout
      have hso : Simple o := (simple_of_fresh hfr).2 hsim
      unfold Simple at hso
      cases hk : o.kind <;> first | exact this | (rw [hk] at hso; exact hso.elim)
    · have hk := kind_pipeline_of_fresh hfr.symm hk0
      simp only [hk]
      split
      · exact pp_pure _
      · refine pp_bind pp_state fun s => pp_bind (pp_depth _) fun _ => pp_bind (pp_fold _ (fun out key hkey => ?_) _) fun r =>
          pp_bind (pp_depth _) fun _ => pp_bind (pp_pipe ho0 hk0 (f := fun _ => []) rfl fun _ _ h => by cases h) fun _ => ?_
        · unfold pipelineStep
          have := hwait ins outs pm hk key hkey
          unfold Map.has at this
          split
          · rename_i hn; rw [hn] at this; cases this
          · exact pp_bind (ih _ _) fun _ => pp_pure _
        · split
          · exact pp_pure _
          · obtain ⟨out, h1, h2⟩ := pipelineOutput_names (hg.out a o0 ho0 ins outs pm hk0) (flatten r) [] fun q hq => by cases hq
            refine pp_lift (fun e he _ => ?_) fun out' hout => ?_
            · rw [h1] at he; cases he
            · rw [h1] at hout; cases hout
              exact pp_emitOp hg ih fuel a out fun o1 ho1 => by rw [ho0] at ho1; cases ho1; exact h2

/-! ## Calls of a program -/

theorem pp_feed (hg : Grid h0) (fuel a : Nat) (p : Str) (m : Msg V) (hp : g → ∃ o0, h0 a = some o0 ∧ o0.core.dataIn.has p = true) :
    Kpp h0 g (feed fuel a p m) :=
  pp_bind (pp_recvData hg fuel none a m p hp) fun _ => pp_exec hg fuel _ a

theorem pp_feedAll (hg : Grid h0) (fuel a : Nat) (msgs : OpMsg V) (hp : g → ∃ o0, h0 a = some o0 ∧ ∀ p ∈ msgs.keys, o0.core.dataIn.has p = true) :
    Kpp h0 g (feedAll fuel a msgs) :=
  pp_fold _ (fun _ x hx => pp_fold _ (fun _ _ _ => pp_bind (pp_feed hg fuel a _ _ fun hG => by
    obtain ⟨o0, h1, h2⟩ := hp hG
    exact ⟨o0, h1, h2 _ (List.mem_map.2 ⟨x, hx, rfl⟩)⟩) fun _ => pp_pure _) _) _

end Rtbot
