import Verif.Lemmas.Wrap
import Verif.Spec.Program

set_option linter.unusedSectionVars false

/-! # A pipeline inside a running program -/

namespace Rtbot
variable {V : Type} [Num V]
open Spec

/-- The operator with other names in `toProcess`. -/
def pend (o : Op V) (ks : List Str) : Op V := { o with core := { o.core with toProcess := ks } }

/-- What the run-time needs to know about a pipeline in a program. -/
structure PipeCtx (a : Nat) (o : Op V) (ins outs : Map Nat) (pm : Map Str) (I D : Nat → Prop) (s : St V) : Prop where
  here : ∃ ks, s.heap a = some (pend o ks) ∧ SetSorted ks
  kind : o.kind = .pipeline ins outs pm
  ctrl : o.core.ctrlIn = []
  outW : OutWell o outs pm
  inW : InWell ins pm
  only : ∀ q k t, pm.find? q = some k → ins.find? k = some t → ∃ n : Nat, q = iPort (n + 1) ∧ ins.keys[n]? = some k
  down : Down D s.heap a
  closed : Closed I s.heap
  ins : ∀ k t, ins.find? k = some t → I t
  self : ¬ I a
  apart : ∀ b, I b → ¬ D b
  enter : ∀ b c, I c → Edge s.heap b c → I b ∨ b = a

/-- The calls on the pipeline between `s` and `s'` and what it emits agree with calls on the inner operators directly. -/
structure Track (a : Nat) (o : Op V) (ins outs : Map Nat) (pm : Map Str) (I D : Nat → Prop) (s s' : St V) : Prop where
  ctx : PipeCtx a o ins outs pm I D s'
  trace : ∃ evs, s'.log = s.log ++ evs ∧ ∀ ks sd, s.heap a = some (pend o ks) → SetSorted ks → AgreeOn I s sd →
    ∃ rds ks' sd', Direct ins ks sd (actsOf a evs) rds ks' sd' ∧ s'.heap a = some (pend o ks') ∧ SetSorted ks' ∧ AgreeOn I s' sd' ∧
      ∀ (k : Nat) id p, outs.keys[k]? = some (portName id p) → emittedBy a (oPort (k + 1)) evs = rds.flatMap fun r => listed r id p

theorem Spec.Direct.append {ins : Map Nat} {ks ks1 ks2 : List Str} {s s1 s2 : St V} {as as' : List (Act V)} {rs rs' : List (ProgMsg V)}
    (h : Direct ins ks s as rs ks1 s1) (h' : Direct ins ks1 s1 as' rs' ks2 s2) : Direct ins ks s (as ++ as') (rs ++ rs') ks2 s2 := by
  induction h with
  | nil => exact h'
  | recv h1 h2 h3 h4 h5 h6 _ ih => exact .recv h1 h2 h3 h4 h5 h6 (ih h')
  | exec h1 h2 _ ih => rw [List.append_assoc]; exact .exec h1 h2 (ih h')
  | ctrl _ ih => exact .ctrl (ih h')

variable {a : Nat} {o : Op V} {ins outs : Map Nat} {pm : Map Str} {I D : Nat → Prop}

theorem PipeCtx.same {s s' : St V} (c : PipeCtx a o ins outs pm I D s) (hs : SameShape s.heap s'.heap) (h : ∃ ks, s'.heap a = some (pend o ks) ∧ SetSorted ks) :
    PipeCtx a o ins outs pm I D s' :=
  ⟨h, c.kind, c.ctrl, c.outW, c.inW, c.only,
    ⟨hs.wf c.down.wf, hs.closed c.down.closed, c.down.self, fun q x hx => c.down.conns q x (by rw [connsOf_shape hs] at hx; exact hx)⟩,
    hs.closed c.closed, c.ins, c.self, c.apart, fun b x hx he => c.enter b x hx (hs.edge.1 he)⟩

/-- Nothing happens to the pipeline and its inner operators. -/
theorem Track.quiet {s s' : St V} {evs : List (Ev V)} (c : PipeCtx a o ins outs pm I D s) (hs : SameShape s.heap s'.heap) (hl : s'.log = s.log ++ evs)
    (he : ∀ e ∈ evs, addr e ≠ a) (ha : s'.heap a = s.heap a) (hi : ∀ b, I b → s'.heap b = s.heap b) : Track a o ins outs pm I D s s' := by
  refine ⟨c.same hs (by rw [ha]; exact c.here), evs, hl, fun ks sd h1 h2 h3 => ⟨[], ks, sd, ?_, by rw [ha]; exact h1, h2, fun b hb => by rw [hi b hb]; exact h3 b hb, ?_⟩⟩
  · rw [actsOf_other he]
    exact .nil _ _
  · intro k id p _
    rw [emittedBy_other he]
    rfl

theorem Track.trans {s s' s'' : St V} (h : Track a o ins outs pm I D s s') (h' : Track a o ins outs pm I D s' s'') : Track a o ins outs pm I D s s'' := by
  obtain ⟨e1, l1, t1⟩ := h.trace
  obtain ⟨e2, l2, t2⟩ := h'.trace
  refine ⟨h'.ctx, e1 ++ e2, by rw [l2, l1, List.append_assoc], fun ks sd h1 h2 h3 => ?_⟩
  obtain ⟨r1, ks1, sd1, g1, g2, g3, g4, g5⟩ := t1 ks sd h1 h2 h3
  obtain ⟨r2, ks2, sd2, k1, k2, k3, k4, k5⟩ := t2 ks1 sd1 g2 g3 g4
  refine ⟨r1 ++ r2, ks2, sd2, by rw [actsOf_append]; exact g1.append k1, k2, k3, k4, fun k id p hk => ?_⟩
  rw [emittedBy_append, g5 k id p hk, k5 k id p hk, List.flatMap_append]

/-- Success of the computation keeps track. -/
def Tr {α : Type} (a : Nat) (o : Op V) (ins outs : Map Nat) (pm : Map Str) (I D : Nat → Prop) (Q : α → Prop) (x : M (St V) α) : Prop :=
  ∀ s v s', PipeCtx a o ins outs pm I D s → x s = .ok v s' → Track a o ins outs pm I D s s' ∧ Q v

theorem Track.refl {s : St V} (c : PipeCtx a o ins outs pm I D s) : Track a o ins outs pm I D s s :=
  Track.quiet (evs := []) c (.refl _) (by simp) (by simp) rfl fun _ _ => rfl

theorem Tr.bind {α β : Type} {Q : α → Prop} {P : β → Prop} {x : M (St V) α} {f : α → M (St V) β} (h : Tr a o ins outs pm I D Q x)
    (hf : ∀ v, Q v → Tr a o ins outs pm I D P (f v)) : Tr a o ins outs pm I D P (x >>= f) := by
  intro s v s' c hx
  obtain ⟨u, s1, h1, h2⟩ := M.bind_ok.1 hx
  obtain ⟨t1, q1⟩ := h s u s1 c h1
  obtain ⟨t2, q2⟩ := hf u q1 s1 v s' t1.ctx h2
  exact ⟨t1.trans t2, q2⟩

theorem Tr.pure {α : Type} {Q : α → Prop} {v : α} (h : Q v) : Tr a o ins outs pm I D Q (Pure.pure v) := by
  intro s v' s' c hx
  cases hx
  exact ⟨.refl c, h⟩

theorem Tr.throw {α : Type} {Q : α → Prop} (e : Err) : Tr a o ins outs pm I D Q (M.throw e) := by
  intro s v' s' c hx
  cases hx

theorem Tr.lift {α : Type} (x : Except Err α) : Tr a o ins outs pm I D (fun _ => True) (M.lift x) := by
  cases x with
  | error e => exact Tr.throw e
  | ok v => exact Tr.pure trivial

theorem Tr.log (e : Ev V) (he : addr e ≠ a) : Tr a o ins outs pm I D (fun _ => True) (logEv e) := by
  intro s v s' c hx
  cases hx
  exact ⟨.quiet (evs := [e]) c (.refl _) rfl (by simpa using he) rfl fun _ _ => rfl, trivial⟩

theorem Tr.depth (d : Nat) : Tr a o ins outs pm I D (fun _ => True) (setDepth d) := by
  intro s v s' c hx
  cases hx
  exact ⟨.quiet (evs := []) c (.refl _) (by simp) (by simp) rfl fun _ _ => rfl, trivial⟩

theorem Tr.get : Tr a o ins outs pm I D (fun _ => True) (M.get : M (St V) (St V)) := by
  intro s v s' c hx
  cases hx
  exact ⟨.refl c, trivial⟩

theorem Tr.fold {α β : Type} {f : β → α → M (St V) β} (l : List α) (h : ∀ b, ∀ x ∈ l, Tr a o ins outs pm I D (fun _ => True) (f b x)) :
    ∀ b, Tr a o ins outs pm I D (fun _ => True) (M.fold f l b) := by
  induction l with
  | nil => intro b; exact Tr.pure trivial
  | cons x l ih => intro b; exact Tr.bind (h b x (by simp)) fun b' _ => ih (fun b y hy => h b y (List.mem_cons_of_mem _ hy)) b'

theorem Tr.getOp {b : Nat} (hb : ¬ I b) : Tr a o ins outs pm I D (fun o' => b ≠ a → ∀ c ∈ nexts o', ¬ I c) (Rtbot.getOp b) := by
  intro s v s' c hx
  unfold Rtbot.getOp at hx
  cases ho : s.heap b with
  | none => rw [ho] at hx; cases hx
  | some o' =>
    rw [ho] at hx
    cases hx
    refine ⟨.refl c, fun hne x hx hi => ?_⟩
    rcases c.enter b x hi ⟨_, ho, hx⟩ with h | h
    · exact hb h
    · exact hne h

theorem Tr.run {α : Type} {b : Nat} (hb : ¬ I b) (hne : b ≠ a) {f : Op V → Res (Op V) α} (hf : ∀ o, o.core.WF → (f o).state.fresh = o.fresh) :
    Tr a o ins outs pm I D (fun _ => True) (localRun b f) := by
  intro s v s' c hx
  unfold localRun at hx
  cases ho : s.heap b with
  | none => rw [ho] at hx; cases hx
  | some o' =>
    have := hf o' (c.down.wf b o' ho)
    rw [ho] at hx
    dsimp only at hx
    cases hy : f o' with
    | err e o2 => rw [hy] at hx; cases hx
    | ok u o2 =>
      rw [hy] at hx this
      cases hx
      refine ⟨.quiet (evs := []) c ?_ (by simp [St.setOp]) (by simp) ?_ ?_, trivial⟩
      · intro x
        rw [setOp_heap]
        split
        · rename_i h; subst h; rw [ho]; exact congrArg some this
        · rfl
      · rw [setOp_heap, if_neg (Ne.symm hne)]
      · intro x hx
        rw [setOp_heap, if_neg (by rintro rfl; exact hb hx)]

/-! ## Calls on the pipeline -/

theorem acts_inner {s s' : St V} (hI : ¬ I a) (st : Steps I s s') : (∀ b, ¬ I b → s'.heap b = s.heap b) ∧
    ∃ evs, s'.log = s.log ++ evs ∧ actsOf a evs = [] ∧ ∀ q, emittedBy a q evs = [] := by
  obtain ⟨evs, h1, h2, _, h4⟩ := st.trace
  exact ⟨fun b hb => h4 b fun e he hh => hb (hh ▸ h2 e he), evs, h1, actsOf_other fun e he hh => hI (hh ▸ h2 e he),
    fun q => emittedBy_other fun e he hh => hI (hh ▸ h2 e he)⟩

theorem pend_shape {s s' : St V} {ks ks' : List Str} (h : s.heap a = some (pend o ks)) (h' : s'.heap a = some (pend o ks'))
    (hr : ∀ b, b ≠ a → s'.heap b = s.heap b) : SameShape s.heap s'.heap := by
  intro b
  by_cases hb : b = a
  · subst hb
    rw [h, h']
    rfl
  · rw [hr b hb]

theorem recv_pipe (fuel : Nat) (frm : Option (Nat × Str)) (m : Msg V) (q : Str) :
    Tr a o ins outs pm I D (fun _ => True) (recvData (fuel + 1) frm a m q) := by
  intro s v s' c hx
  refine ⟨?_, trivial⟩
  obtain ⟨ks0, hk0, hs0⟩ := c.here
  rw [recvData_pipe hk0 (show (pend o ks0).kind = _ from c.kind)] at hx
  cases hp : pipelinePort ins pm q with
  | error e => rw [hp] at hx; cases hx
  | ok key =>
    rw [hp] at hx
    dsimp only at hx
    cases ht : ins.find? key with
    | none => rw [ht] at hx; cases hx
    | some t =>
      rw [ht] at hx
      dsimp only at hx
      have hmem : key ∈ ins.keys := (Map.find?_isSome_iff _ _).1 (by rw [ht]; rfl)
      obtain ⟨id, p, rfl, hc1, hc2⟩ := c.inW.name key hmem
      rw [split2_portName hc1] at hx
      dsimp only at hx
      have hname : ∃ n : Nat, ins.keys[n]? = some (portName id p) ∧ (q = iPort (n + 1) ∨ q = [] ∧ ins.length = 1) := by
        unfold pipelinePort at hp
        split at hp
        · rename_i hq
          cases hins : ins with
          | nil => rw [hins] at hq; simp at hq
          | cons e rest =>
            rw [hins] at hp hq
            obtain ⟨k1, v1⟩ := e
            cases hp
            exact ⟨0, by simp [Map.keys], Or.inr hq⟩
        · cases hf : pm.find? q with
          | none => rw [hf] at hp; cases hp
          | some k1 =>
            rw [hf] at hp
            cases hp
            obtain ⟨n, g1, g2⟩ := c.only q _ t hf ht
            exact ⟨n, g2, Or.inl g1⟩
      obtain ⟨n, hn, hq⟩ := hname
      have hI : I t := c.ins _ _ ht
      cases hr : recvData fuel none t m p (s.ev (Ev.recv frm a q false m)) with
      | err e s1 => rw [hr] at hx; cases hx
      | ok u s1 =>
        rw [hr] at hx
        dsimp only at hx
        have st : Steps I (s.ev (Ev.recv frm a q false m)) s1 := by
          have := recvData_steps I fuel (s.ev (Ev.recv frm a q false m)) none t m p ⟨c.down.wf, c.closed⟩ hI
          rw [hr] at this
          exact this
        obtain ⟨b1, ev1, l1, a1, em1⟩ := acts_inner c.self st
        have ha1 : s1.heap a = some (pend o ks0) := (b1 a c.self).trans hk0
        simp only [localRun, ha1] at hx
        cases hx
        let s3 : St V := s1.setOp a (pend o (setInsert ks0 (portName id p)))
        have ha3 : s3.heap a = some (pend o (setInsert ks0 (portName id p))) := by simp [s3, setOp_heap]
        have hsh : SameShape s.heap s3.heap := SameShape.trans (h' := s1.heap) st.shape (pend_shape ha1 ha3 fun b hb => by simp [s3, setOp_heap, hb])
        refine ⟨c.same hsh ⟨_, ha3, hs0.insert _⟩, .recv frm a q false m :: ev1, ?_, ?_⟩
        · change s1.log = _
          rw [l1]
          simp
        · intro ks sd g1 g2 g3
          rw [hk0] at g1
          have hks : ks0 = ks := congrArg (fun x : Option (Op V) => x.elim [] fun o => o.core.toProcess) g1
          subst hks
          have hloc := recvData_local fuel none none t m p hI (s.ev (Ev.recv frm a q false m)) sd (fun b hb => g3 b hb) (goodOn_of c.down.wf c.closed)
          rw [hr] at hloc
          cases hd : recvData fuel none t m p sd with
          | err e sd1 => rw [hd] at hloc; exact hloc.elim
          | ok u' sd1 =>
            rw [hd] at hloc
            obtain ⟨_, hag, _⟩ := hloc
            refine ⟨[], setInsert ks0 (portName id p), sd1, ?_, ha3, g2.insert _, ?_, ?_⟩
            · have : actsOf a (Ev.recv frm a q false m :: ev1) = [.recvData q m] := by
                rw [show ∀ (e : Ev V) l, e :: l = [e] ++ l from fun _ _ => rfl, actsOf_append, a1]
                simp [actsOf, actOf]
              rw [this]
              exact .recv hn ht hq (fun k => mem_setInsert _ _ _) (hs0.insert _) hd (.nil _ _)
            · intro b hb
              have hba : b ≠ a := fun h => c.self (h ▸ hb)
              rw [setOp_heap, if_neg hba]
              exact hag b hb
            · intro k id' p' _
              rw [show ∀ (e : Ev V) l, e :: l = [e] ++ l from fun _ _ => rfl, emittedBy_append, em1]
              rfl

theorem execs_cons (fuel t : Nat) (ts : List Nat) (s : St V) :
    execs fuel (t :: ts) s = match exec fuel false t s with
      | .err e s' => .err e s'
      | .ok r s' => match execs fuel ts s' with
        | .err e s'' => .err e s''
        | .ok rs s'' => .ok (r :: rs) s'' := by
  rw [execs, M.bind_def]
  cases exec fuel false t s with
  | err e s' => rfl
  | ok r s' =>
    dsimp only
    rw [M.bind_def]
    cases execs fuel ts s' <;> rfl

theorem fold_execs (hins : ∀ k t, ins.find? k = some t → I t) (fuel : Nat) : ∀ (ks : List Str) {acc r : ProgMsg V} {s s' sd : St V}, Good acc → AgreeOn I s sd → Ctx I s →
    M.fold (pipelineStep (exec fuel) ins) ks acc s = .ok r s' → Steps I s s' ∧ Good r ∧
      ∃ ts rs sd', List.Forall₂ (fun k t => ins.find? k = some t) ks ts ∧ execs fuel ts sd = .ok rs sd' ∧ AgreeOn I s' sd' ∧
        ∀ id p, listed r id p = listed acc id p ++ rs.flatMap fun r => listed r id p := by
  intro ks
  induction ks with
  | nil =>
    intro acc r s s' sd hg hag hc h
    cases h
    exact ⟨.refl _ _, hg, [], [], sd, .nil, rfl, hag, fun id p => by simp⟩
  | cons k ks ih =>
    intro acc r s s' sd hg hag hc h
    rw [fold_cons] at h
    obtain ⟨acc1, s1, h1, h2⟩ := M.bind_ok.1 h
    unfold pipelineStep at h1
    cases ht : ins.find? k with
    | none => rw [ht] at h1; cases h1
    | some t =>
      rw [ht] at h1
      dsimp only at h1
      obtain ⟨r1, s1', h3, h4⟩ := M.bind_ok.1 h1
      cases h4
      have hI := hins _ _ ht
      have st := exec_steps I fuel s false t hc hI
      rw [h3] at st
      replace st : Steps I s s1 := st
      have hloc := exec_local (V := V) (S := I) fuel false t hI s sd hag (goodOn_of hc.wf hc.closed)
      rw [h3] at hloc
      cases hd : exec fuel false t sd with
      | err e sd1 => rw [hd] at hloc; exact hloc.elim
      | ok r1' sd1 =>
        rw [hd] at hloc
        obtain ⟨rfl, hag1, _⟩ := hloc
        have hgr : Good r1 := ((exec_run fuel _ _ _ _ _ h3).log hc.wf good_nil).2.choose_spec.2.good
        obtain ⟨st2, hg2, ts, rs, sd', k1, k2, k3, k4⟩ := ih (good_merge hg hgr) hag1 (hc.step st) h2
        refine ⟨st.trans st2, hg2, t :: ts, r1 :: rs, sd', .cons ht k1, ?_, k3, fun id p => ?_⟩
        · rw [execs_cons, hd]
          dsimp only
          rw [k2]
        · rw [k4, listed_merge hgr, List.flatMap_cons, List.append_assoc]

theorem exec_pipeline (fuel : Nat) (ctrl : Bool) : Tr a o ins outs pm I D (fun _ => True) (exec (fuel + 1) ctrl a) := by
  intro s v s' c hx
  refine ⟨?_, trivial⟩
  obtain ⟨ks0, hk0, hs0⟩ := c.here
  have hkind : (pend o ks0).kind = .pipeline ins outs pm := c.kind
  cases ctrl with
  | true =>
    rw [exec_pipe_ctrl hk0 hkind] at hx
    cases hx
    refine ⟨c.same (.refl _) ⟨ks0, hk0, hs0⟩, [.exec a true], rfl, fun ks sd g1 g2 g3 => ⟨[], ks, sd, ?_, g1, g2, g3, fun _ _ _ _ => rfl⟩⟩
    have : actsOf a [(Ev.exec a true : Ev V)] = [.execCtrl] := by simp [actsOf, actOf]
    rw [this]
    exact .ctrl (.nil _ _)
  | false =>
    rw [exec_pipe hk0 hkind] at hx
    let s4 : St V := { s.ev (.exec a false) with depth := s.depth + 1 }
    cases hf : M.fold (pipelineStep (exec fuel) ins) (pend o ks0).core.toProcess [] s4 with
    | err e s5 => rw [hf] at hx; cases hx
    | ok r s5 =>
      rw [hf] at hx
      dsimp only at hx
      obtain ⟨st, hgr, _⟩ := fold_execs c.ins fuel ks0 (sd := s4) good_nil (.refl _) (⟨c.down.wf, c.closed⟩ : Ctx I s4) hf
      obtain ⟨b5, ev5, l5, a5, em5⟩ := acts_inner c.self st
      have ha5 : s5.heap a = some (pend o ks0) := (b5 a c.self).trans hk0
      rw [ha5] at hx
      dsimp only at hx
      let s6 : St V := St.setOp { s5 with depth := s.depth } a (pend o [])
      have ha6 : s6.heap a = some (pend o []) := by simp [s6, setOp_heap]
      have hb6 : ∀ b, b ≠ a → s6.heap b = s5.heap b := fun b hb => by simp [s6, setOp_heap, hb]
      have hsh : SameShape s.heap s6.heap := SameShape.trans (h' := s5.heap) st.shape (pend_shape ha5 ha6 hb6)
      have c6 : PipeCtx a o ins outs pm I D s6 := c.same hsh ⟨[], ha6, .nil⟩
      obtain ⟨out, o1, o2, o3, o4⟩ := pipelineOutput_listed c.outW hgr.1
      -- the emissions
      have hem : ∃ ev7, s'.log = s6.log ++ ev7 ∧ actsOf a ev7 = [] ∧ (∀ (k : Nat) id p, outs.keys[k]? = some (portName id p) → emittedBy a (oPort (k + 1)) ev7 = listed r id p) ∧
          SameShape s6.heap s'.heap ∧ ∀ b, ¬ D b → s'.heap b = s6.heap b := by
        split at hx
        · rename_i hnil
          cases hx
          exact ⟨[], by simp [s6]; rfl, rfl, fun k id p _ => by rw [hnil]; rfl, .refl _, fun _ _ => rfl⟩
        · rw [o1] at hx
          have hrun := emitOp_run (fun _ _ _ _ _ h => exec_run fuel _ _ _ _ _ h) fuel a out [] s6 v s' hx
          obtain ⟨b7, _, ev7, l7, a7, em7⟩ := ports_emitted o2 hrun c6.down
          exact ⟨ev7, l7, a7, fun k id p hk => by rw [em7, o4 k id p hk], hrun.shape c6.down.wf, b7⟩
      obtain ⟨ev7, l7, a7, em7, sh7, b7⟩ := hem
      have ha7 : s'.heap a = some (pend o []) := (b7 a c.down.self).trans ha6
      refine ⟨c6.same sh7 ⟨[], ha7, .nil⟩, .exec a false :: (ev5 ++ ev7), ?_, ?_⟩
      · rw [l7]
        change s5.log ++ ev7 = _
        rw [l5]
        simp [s4]
      · intro ks sd g1 g2 g3
        rw [hk0] at g1
        have hks : ks0 = ks := congrArg (fun x : Option (Op V) => x.elim [] fun o => o.core.toProcess) g1
        subst hks
        obtain ⟨_, _, ts, rs, sd', k1, k2, k3, k4⟩ := fold_execs c.ins fuel ks0 (s := s4) (sd := sd) good_nil (fun b hb => g3 b hb) (⟨c.down.wf, c.closed⟩ : Ctx I s4) hf
        refine ⟨rs, [], sd', ?_, ha7, .nil, ?_, ?_⟩
        · have : actsOf a (Ev.exec a false :: (ev5 ++ ev7)) = [.execData] := by
            rw [show ∀ (e : Ev V) l, e :: l = [e] ++ l from fun _ _ => rfl, actsOf_append, actsOf_append, a5, a7]
            simp [actsOf, actOf]
          rw [this, ← List.append_nil rs]
          exact .exec k1 k2 (.nil _ _)
        · intro b hb
          have hba : b ≠ a := fun h => c.self (h ▸ hb)
          rw [b7 b (c.apart b hb), hb6 b hba]
          exact k3 b hb
        · intro k id p hk
          rw [show ∀ (e : Ev V) l, e :: l = [e] ++ l from fun _ _ => rfl, emittedBy_append, emittedBy_append, em5, em7 k id p hk, k4]
          rfl

/-! ## Calls elsewhere -/

theorem nextPipe {o' : Op V} {ins' outs' : Map Nat} {pm' : Map Str} (hk : o'.kind = .pipeline ins' outs' pm') {key : Str} {t : Nat} (ht : ins'.find? key = some t) :
    t ∈ nexts o' := by
  simp only [nexts, hk, List.mem_append]
  exact Or.inr (List.mem_map.2 ⟨_, find?_mem ht, rfl⟩)

theorem recvData_track (fuel : Nat) : ∀ (frm : Option (Nat × Str)) (b : Nat) (m : Msg V) (p : Str), ¬ I b →
    Tr a o ins outs pm I D (fun _ => True) (recvData fuel frm b m p) := by
  induction fuel with
  | zero => intro frm b m p _; exact Tr.throw _
  | succ fuel ih =>
    intro frm b m p hb
    by_cases hne : b = a
    · subst hne
      exact recv_pipe fuel frm m p
    · unfold recvData
      refine Tr.bind (Tr.log _ hne) fun _ _ => Tr.bind (Tr.getOp hb) fun o' hn => ?_
      replace hn := hn hne
      have hsimple : Tr a o ins outs pm I D (fun _ => True) (localRun b (updWith fun o => o.recvData m p)) :=
        Tr.run hb hne (updWith_fresh fun hw h => recvData_fresh hw h)
      cases hk : o'.kind <;> (try dsimp only) <;> first | exact hsimple | skip
      · rename_i i q
        cases i with
        | none => exact Tr.throw _
        | some i => exact ih _ _ _ _ (hn i (by simp [nexts, hk]))
      · rename_i ins' outs' pm'
        refine Tr.bind (Tr.lift _) fun key _ => ?_
        cases ht : ins'.find? key with
        | none => exact Tr.throw _
        | some t => exact Tr.bind (ih _ _ _ _ (hn t (nextPipe hk ht))) fun _ _ => Tr.run hb hne fun o _ => rfl

theorem recvCtrl_track (fuel : Nat) : ∀ (frm : Option (Nat × Str)) (b : Nat) (m : Msg V) (p : Str), ¬ I b →
    Tr a o ins outs pm I D (fun _ => True) (recvCtrl fuel frm b m p) := by
  induction fuel with
  | zero => intro frm b m p _; exact Tr.throw _
  | succ fuel ih =>
    intro frm b m p hb
    by_cases hne : b = a
    · subst hne
      intro s v s' c hx
      obtain ⟨ks0, hk0, hs0⟩ := c.here
      have hkind : (pend o ks0).kind = .pipeline ins outs pm := c.kind
      rw [recvCtrl_other hk0 (by intro i q; rw [hkind]; simp)] at hx
      have hc : (pend o ks0).core.ctrlIn = [] := c.ctrl
      have : (pend o ks0).recvCtrl m p = .error (.exc .badPort) := by
        simp only [Op.recvCtrl, hkind, Core.receiveCtrlBase, hc, Map.find?]
        rfl
      simp only [localRun, hk0, updWith, this] at hx
      cases hx
    · unfold recvCtrl
      refine Tr.bind (Tr.log _ hne) fun _ _ => Tr.bind (Tr.getOp hb) fun o' hn => ?_
      replace hn := hn hne
      have hsimple : Tr a o ins outs pm I D (fun _ => True) (localRun b (updWith fun o => o.recvCtrl m p)) :=
        Tr.run hb hne (updWith_fresh fun hw h => recvCtrl_fresh hw h)
      cases hk : o'.kind <;> (try dsimp only) <;> first | exact hsimple | skip
      rename_i i q
      cases i with
      | none => exact Tr.throw _
      | some i => exact ih _ _ _ _ (hn i (by simp [nexts, hk]))

theorem deliver_track (fuel : Nat) (src : Nat × Str) (m : Msg V) (u : Unit) (c : Conn) (hb : ¬ I c.target) :
    Tr a o ins outs pm I D (fun _ => True) (deliver fuel src m u c) := by
  unfold deliver
  refine Tr.bind (Tr.getOp hb) fun t _ => ?_
  split
  · exact recvData_track fuel _ _ _ _ hb
  · split
    · exact recvCtrl_track fuel _ _ _ _ hb
    · exact Tr.pure trivial

/-- Executing other operators keeps track. -/
def ExTr (a : Nat) (o : Op V) (ins outs : Map Nat) (pm : Map Str) (I D : Nat → Prop) (ex : Bool → Nat → M (St V) (ProgMsg V)) : Prop :=
  ∀ ctrl b, ¬ I b → Tr a o ins outs pm I D (fun _ => True) (ex ctrl b)

variable {ex : Bool → Nat → M (St V) (ProgMsg V)}

theorem trigger_track (hex : ExTr a o ins outs pm I D ex) (out : ProgMsg V) (c : Conn) (hb : ¬ I c.target) :
    Tr a o ins outs pm I D (fun _ => True) (trigger ex out c) := by
  unfold trigger
  refine Tr.bind (Tr.getOp hb) fun t _ => ?_
  split
  · exact Tr.bind (hex _ _ hb) fun r _ => Tr.pure trivial
  · split
    · exact Tr.bind (hex _ _ hb) fun r _ => Tr.pure trivial
    · exact Tr.pure trivial

theorem emitMsg_track (hex : ExTr a o ins outs pm I D ex) (fuel b : Nat) (port : Str) (m : Msg V) (hb : ¬ I b) (hne : b ≠ a) :
    Tr a o ins outs pm I D (fun _ => True) (emitMsg ex fuel b port m) := by
  unfold emitMsg
  refine Tr.bind (Tr.getOp hb) fun o' hn => Tr.bind Tr.get fun t _ => Tr.bind (Tr.log _ hne) fun _ _ => ?_
  replace hn := hn hne
  dsimp only
  cases hf : o'.core.outputs.find? port with
  | none => exact Tr.pure trivial
  | some conns =>
    dsimp only
    have hc : ∀ c ∈ conns, ¬ I c.target := fun c hc => hn _ (by
      simp only [nexts, List.mem_append, List.mem_flatMap]
      exact Or.inl ⟨_, find?_mem hf, List.mem_map.2 ⟨c, hc, rfl⟩⟩)
    exact Tr.bind (Tr.fold conns (fun u c hcm => deliver_track fuel _ m u c (hc c hcm)) ()) fun _ _ =>
      Tr.fold conns (fun b c hcm => trigger_track hex b c (hc c hcm)) _

theorem emitOp_track (hex : ExTr a o ins outs pm I D ex) (fuel b : Nat) (msgs : OpMsg V) (hb : ¬ I b) (hne : b ≠ a) :
    Tr a o ins outs pm I D (fun _ => True) (emitOp ex fuel b msgs) := by
  unfold emitOp
  refine Tr.fold msgs (fun acc x _ => ?_) _
  refine Tr.bind (Tr.getOp hb) fun o' _ => ?_
  split
  · refine Tr.bind (Q := fun _ => True) ?_ fun r _ => Tr.pure trivial
    exact Tr.fold x.2 (fun acc m _ => Tr.bind (emitMsg_track hex fuel b x.1 m hb hne) fun r _ => Tr.pure trivial) _
  · exact Tr.throw _

theorem exec_track (fuel : Nat) : ExTr a o ins outs pm I D (exec (V := V) fuel) := by
  induction fuel with
  | zero => intro ctrl b _; exact Tr.throw _
  | succ fuel ih =>
    intro ctrl b hb
    by_cases hne : b = a
    · subst hne
      exact exec_pipeline fuel ctrl
    · unfold exec
      refine Tr.bind (Tr.log _ hne) fun _ _ => Tr.bind (Tr.getOp hb) fun o' hn => ?_
      replace hn := hn hne
      have hsimple : Tr a o ins outs pm I D (fun _ => True) (do
          let out ← localRun b (if ctrl then Op.execCtrl else Op.execData)
          emitOp (exec (V := V) fuel) fuel b out) := by
        refine Tr.bind (Tr.run hb hne fun o _ => ?_) fun out _ => emitOp_track ih fuel b out hb hne
        cases ctrl
        · exact execData_fresh o
        · exact execCtrl_fresh o
      cases hk : o'.kind <;> (try dsimp only) <;> first | exact hsimple | skip
      · rename_i i q
        cases i with
        | none => exact Tr.throw _
        | some i => exact ih _ _ (hn i (by simp [nexts, hk]))
      · rename_i ins' outs' pm'
        cases ctrl with
        | true => exact Tr.pure trivial
        | false =>
          simp only [Bool.false_eq_true, if_false]
          refine Tr.bind Tr.get fun t _ => Tr.bind (Tr.depth _) fun _ _ => ?_
          refine Tr.bind (Q := fun _ => True) (Tr.fold _ (fun acc key _ => ?_) _) fun r _ => ?_
          · unfold pipelineStep
            cases ht : ins'.find? key with
            | none => exact Tr.throw _
            | some t => exact Tr.bind (ih _ _ (hn t (nextPipe hk ht))) fun r _ => Tr.pure trivial
          · refine Tr.bind (Tr.depth _) fun _ _ => Tr.bind (Tr.run hb hne fun o _ => rfl) fun _ _ => ?_
            split
            · exact Tr.pure trivial
            · exact Tr.bind (Tr.lift _) fun out _ => emitOp_track ih fuel b out hb hne

theorem feedAll_track (fuel b : Nat) (msgs : OpMsg V) (hb : ¬ I b) : Tr a o ins outs pm I D (fun _ => True) (feedAll fuel b msgs) := by
  unfold feedAll feedPort feed
  refine Tr.fold msgs (fun acc x _ => Tr.fold x.2 (fun acc m _ => ?_) _) _
  exact Tr.bind (Q := fun _ => True) (Tr.bind (recvData_track fuel _ _ _ _ hb) fun _ _ => exec_track fuel _ _ hb) fun r _ => Tr.pure trivial

theorem debugRun_track {fuel x : Nat} (hx : ¬ I x) (calls : List (OpMsg V)) : ∀ {P P' : Prog V} {rs}, P.ops.find? P.entry = some x →
    PipeCtx a o ins outs pm I D P.st → debugRun fuel calls P = .ok rs P' → Track a o ins outs pm I D P.st P'.st := by
  induction calls with
  | nil => intro P P' rs _ c h; cases h; exact .refl c
  | cons msgs calls ih =>
    intro P P' rs he c h
    simp only [debugRun] at h
    cases h1 : P.receiveDebug fuel msgs with
    | err e P1 => rw [h1] at h; cases h
    | ok r P1 =>
      rw [h1] at h
      dsimp only at h
      unfold Prog.receiveDebug at h1
      rw [he] at h1
      dsimp only at h1
      cases h2 : feedAll fuel x msgs P.st with
      | err e s => rw [h2] at h1; cases h1
      | ok r' s =>
        rw [h2] at h1
        cases h1
        have t1 := (feedAll_track fuel x msgs hx P.st _ _ c h2).1
        cases h3 : debugRun fuel calls { P with st := s } with
        | err e P2 => rw [h3] at h; cases h
        | ok rs2 P2 =>
          rw [h3] at h
          cases h
          exact t1.trans (ih (P := { P with st := s }) he t1.ctx h3)

end Rtbot
