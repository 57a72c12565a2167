import Verif.Lemmas.LockstepProg
import Verif.Lemmas.Served

/-! # Operators executed after every message: runs of programs -/

set_option linter.unusedSectionVars false

namespace Rtbot
open Spec
variable {V : Type} [Num V]

namespace Served
open Lockstep

/-- The operators of `D` are executed between any two messages for the same port; the ports with a message since the last execution are in `W`. -/
def Sv (h0 : Nat → Option (Op V)) (D : Nat → Prop) (W : Nat → Str → Prop) (evs : List (Ev V)) : Prop :=
  ∀ b o, D b → h0 b = some o → ExecOk o (actsOf b evs) ∧ (∀ a ∈ actsOf b evs, DataOnly o.core.dataIn.keys a) ∧
    ∃ fs, Singly (actsOf b evs) fs ∧ ∀ q ∈ fs, W b q

variable {h0 : Nat → Option (Op V)} {D : Nat → Prop} {W : Nat → Str → Prop} {evs : List (Ev V)}

theorem Sv.mono {W' : Nat → Str → Prop} (h : Sv h0 D W evs) (hW : ∀ b q, D b → W b q → W' b q) : Sv h0 D W' evs := by
  intro b o hb ho
  obtain ⟨h1, h2, fs, h3, h4⟩ := h b o hb ho
  exact ⟨h1, h2, fs, h3, fun q hq => hW b q hb (h4 q hq)⟩

theorem Sv.skip (h : Sv h0 D W evs) {e : Ev V} (he : ∀ b, D b → actOf b e = none) : Sv h0 D W (evs ++ [e]) := by
  intro b o hb ho
  have : actsOf b (evs ++ [e]) = actsOf b evs := by rw [actsOf_append, actsOf_one, he b hb]; simp
  rw [this]
  exact h b o hb ho

theorem Sv.recv (h : Sv h0 D W evs) {src : Option (Nat × Str)} {b : Nat} {q : Str} {ctrl : Bool} {m : Msg V}
    (hb : D b → ctrl = false ∧ ¬ W b q ∧ ∀ o, h0 b = some o → q ∈ o.core.dataIn.keys) :
    Sv h0 D (fun y q' => W y q' ∨ (y = b ∧ q' = q)) (evs ++ [.recv src b q ctrl m]) := by
  intro y o hy ho
  obtain ⟨h1, h2, fs, h3, h4⟩ := h y o hy ho
  by_cases hyb : y = b
  · subst hyb
    obtain ⟨rfl, hm, hq⟩ := hb hy
    have : actsOf y (evs ++ [.recv src y q false m]) = actsOf y evs ++ [.recvData q m] := by
      rw [actsOf_append, actsOf_one]; simp [actOf]
    rw [this]
    refine ⟨execOk_recv h1 _ (by intro h; cases h), ?_, q :: fs, .recv q m h3 fun hh => hm (h4 q hh), fun q' hq' => ?_⟩
    · intro a ha
      rcases List.mem_append.1 ha with ha | ha
      · exact h2 a ha
      · rw [List.mem_singleton.1 ha]
        exact hq o ho
    · rcases List.mem_cons.1 hq' with rfl | hq'
      · exact Or.inr ⟨rfl, rfl⟩
      · exact Or.inl (h4 q' hq')
  · have : actsOf y (evs ++ [.recv src b q ctrl m]) = actsOf y evs := by
      rw [actsOf_append, actsOf_one]
      cases ctrl <;> simp [actOf, Ne.symm hyb]
    rw [this]
    exact ⟨h1, h2, fs, h3, fun q' hq' => Or.inl (h4 q' hq')⟩

theorem Sv.exec (h : Sv h0 D W evs) {x : Nat} {ctrl : Bool} (hx : D x → ctrl = false)
    (hok : ∀ o, D x → h0 x = some o → ∃ out o', (after o (actsOf x evs)).execData = .ok out o') :
    Sv h0 D (fun y q => W y q ∧ y ≠ x) (evs ++ [.exec x ctrl]) := by
  intro y o hy ho
  obtain ⟨h1, h2, fs, h3, h4⟩ := h y o hy ho
  by_cases hyb : y = x
  · subst hyb
    cases hx hy
    have : actsOf y (evs ++ [.exec y false]) = actsOf y evs ++ [.execData] := by
      rw [actsOf_append, actsOf_one]; simp [actOf]
    rw [this]
    refine ⟨execOk_snoc h1 (hok o hy ho), ?_, [], .exec h3, fun q hq => by cases hq⟩
    intro a ha
    rcases List.mem_append.1 ha with ha | ha
    · exact h2 a ha
    · rw [List.mem_singleton.1 ha]; trivial
  · have : actsOf y (evs ++ [.exec x ctrl]) = actsOf y evs := by
      rw [actsOf_append, actsOf_one]
      cases ctrl <;> simp [actOf, Ne.symm hyb]
    rw [this]
    exact ⟨h1, h2, fs, h3, fun q hq => ⟨h4 q hq, hyb⟩⟩

theorem Sv.deliver {a : Nat} {p : Str} {m : Msg V} {hp : Nat → Option (Op V)} (hshape : ∀ b o, hp b = some o → ∃ o0, h0 b = some o0 ∧ o.fresh = o0.fresh) (cs : List Conn)
    (hcs : ∀ x ∈ cs, D x.target → ∃ o, h0 x.target = some o ∧ o.core.dataIn.has x.port = true) (hnd : cs.Nodup) :
    ∀ {W : Nat → Str → Prop} {evs : List (Ev V)}, (∀ x ∈ cs, ¬ W x.target x.port) → Sv h0 D W evs →
      Sv h0 D (fun y q => W y q ∨ (⟨y, q⟩ : Conn) ∈ cs) (evs ++ cs.filterMap (delivery hp a p m)) := by
  induction cs with
  | nil => intro W evs _ h; rw [List.filterMap_nil, List.append_nil]; exact h.mono fun _ _ _ => Or.inl
  | cons x cs ih =>
    intro W evs hW h
    have ih := @ih (fun x hx => hcs x (List.mem_cons_of_mem _ hx)) (List.nodup_cons.1 hnd).2
    have hxn := (List.nodup_cons.1 hnd).1
    rw [List.filterMap_cons]
    cases hde : delivery hp a p m x with
    | none =>
      dsimp only
      refine (ih (fun y hy => hW y (List.mem_cons_of_mem _ hy)) h).mono fun y q _ hy => hy.imp id (List.mem_cons_of_mem _)
    | some e =>
      dsimp only
      unfold delivery at hde
      cases htgt : hp x.target with
      | none => rw [htgt] at hde; cases hde
      | some tt =>
        rw [htgt] at hde
        dsimp only at hde
        obtain ⟨t0, k1, k2⟩ := hshape _ _ htgt
        have hev : ∃ ctrl, e = .recv (some (a, p)) x.target x.port ctrl m ∧ (D x.target → ctrl = false) := by
          by_cases hisd : tt.core.isData x.port = true
          · rw [if_pos hisd] at hde
            cases hde
            exact ⟨false, rfl, fun _ => rfl⟩
          · rw [if_neg hisd] at hde
            split at hde
            · cases hde
              refine ⟨true, rfl, fun hD => ?_⟩
              obtain ⟨o1, k4, k5⟩ := hcs x (by simp) hD
              rw [k1] at k4; cases k4
              rw [isData_of_fresh k2] at hisd
              exact absurd k5 hisd
            · cases hde
        obtain ⟨ctrl, rfl, hctrl⟩ := hev
        have h1 := h.recv (src := some (a, p)) (b := x.target) (q := x.port) (ctrl := ctrl) (m := m) fun hD => ⟨hctrl hD, hW x (by simp), fun o ho => by
          obtain ⟨o1, k4, k5⟩ := hcs x (by simp) hD
          rw [k4] at ho; cases ho
          exact mem_keys k5⟩
        rw [List.append_cons]
        refine (ih (fun y hy => ?_) h1).mono fun y q _ hy => ?_
        · rintro (hh | ⟨e1, e2⟩)
          · exact hW y (List.mem_cons_of_mem _ hy) hh
          · have : y = x := by cases y; cases x; simp_all
            exact hxn (this ▸ hy)
        · rcases hy with (hy | ⟨rfl, rfl⟩) | hy
          · exact Or.inl hy
          · exact Or.inr (by simp)
          · exact Or.inr (List.mem_cons_of_mem _ hy)

/-- Nothing that the operators reachable from `x` send to is waiting. -/
def Clear (h0 : Nat → Option (Op V)) (W : Nat → Str → Prop) (x : Nat) : Prop := ∀ y, Reach h0 x y → ∀ p, ∀ z ∈ connsOf h0 y p, ¬ W z.target z.port

theorem Clear.mono {W' : Nat → Str → Prop} {x : Nat} (h : Clear h0 W x) (hW : ∀ b q, W' b q → W b q) : Clear h0 W' x := fun y hy p z hz hw => h y hy p z hz (hW _ _ hw)

/-- What the arguments rest on. -/
structure Stage (s0 : St V) (x : Nat) (D : Nat → Prop) : Prop where
  acyc : Acyclic s0.heap
  one : OneInto s0.heap x
  data : ∀ a p c, c ∈ connsOf s0.heap a p → D c.target → ∃ o, s0.heap c.target = some o ∧ o.core.dataIn.has c.port = true

/-- How calls are made. -/
def Ok (h0 : Nat → Option (Op V)) (D : Nat → Prop) (W : Nat → Str → Prop) : Call V → Prop
  | .exec ctrl x => (D x → ctrl = false) ∧ Clear h0 W x
  | .ports a _ _ | .msgs a _ _ _ => Clear h0 W a
  | .conns cs _ => ∀ x ∈ cs, (D x.target → ∃ o, h0 x.target = some o ∧ o.core.dataIn.has x.port = true) ∧ Clear h0 W x.target
  | .keys _ _ _ => False

/-- The ports left waiting. -/
def post (W : Nat → Str → Prop) : Call V → Nat → Str → Prop
  | .exec _ x => fun y q => W y q ∧ y ≠ x
  | .ports _ _ _ | .msgs _ _ _ _ | .keys _ _ _ => W
  | .conns cs _ => fun y q => W y q ∧ ∀ x ∈ cs, x.target ≠ y

variable {s0 : St V} {x : Nat}

theorem run_sv (hS : Stage s0 x D) (hf : Fine s0.heap s0) {call : Call V} {s s' : St V} {r : ProgMsg V} (h : Run call s r s') :
    ∀ (W : Nat → Str → Prop) evs evs', At s0 s evs → At s0 s' evs' → Ok s0.heap D W call → Sv s0.heap D W evs → Sv s0.heap D (post W call) evs' := by
  induction h with
  | @comp s r s' a o i q ctrl ho hk h ih =>
    intro W evs evs' hat hat' hok hl
    have := (hat.fine hf).simple a o ho
    simp [Simple, hk] at this
  | @pipeCtrl s a o inputs outs pm ho hk =>
    intro W evs evs' hat hat' hok hl
    have := (hat.fine hf).simple a o ho
    simp [Simple, hk] at this
  | @pipeNone s s' a o inputs outs pm o1 ho hk h ho1 ih =>
    intro W evs evs' hat hat' hok hl
    have := (hat.fine hf).simple a o ho
    simp [Simple, hk] at this
  | @pipeSome s s' a o inputs outs pm o1 r out r' s'' ho hk h hr ho1 hout h2 ih ih2 =>
    intro W evs evs' hat hat' hok hl
    have := (hat.fine hf).simple a o ho
    simp [Simple, hk] at this
  | @simple s a o ctrl out o' r s' ho hs hx h ih =>
    intro W evs evs' hat hat' hok hl
    obtain ⟨_, hat1⟩ := exec_at hat ho hx
    have hl1 := hl.exec (x := a) (ctrl := ctrl) hok.1 fun o0 hD ho0 => ⟨out, o', by
      have := hat.heap hf ho0
      rw [ho] at this; cases this
      cases hok.1 hD
      exact hx⟩
    exact ih _ _ _ hat1 hat' (show Clear s0.heap (fun y q => W y q ∧ y ≠ a) a from hok.2.mono fun _ _ h => h.1) hl1
  | portsNil => intro W evs evs' hat hat' _ hl; cases hat.unique hat'; exact hl
  | @portsCons s a o p ms rest acc r s1 r' s2 ho hp h h2 ih ih2 =>
    intro W evs evs' hat hat' hok hl
    obtain ⟨evs1, hat1⟩ := hat.next (run_any h (hat.fine hf))
    exact ih2 W _ _ hat1 hat' hok (ih W _ _ hat hat1 hok hl)
  | msgsNil => intro W evs evs' hat hat' _ hl; cases hat.unique hat'; exact hl
  | @msgsNone s a o p m ms acc r s' ho hcn h ih =>
    intro W evs evs' hat hat' hok hl
    have st : Steps Any s (s.ev (.emit s.depth a o.core.id p m)) := Steps.event s (.emit s.depth a o.core.id p m) trivial fun _ _ _ => rfl
    have hat1 : At s0 (s.ev (.emit s.depth a o.core.id p m)) (evs ++ [.emit s.depth a o.core.id p m]) :=
      ⟨by show s.log ++ [_] = _; rw [hat.log, List.append_assoc], hat.steps.trans st⟩
    exact ih W _ _ hat1 hat' hok (hl.skip fun _ _ => rfl)
  | @msgsSome s a o p m ms acc cs fuel s1 r s2 r' s3 ho hcn hd h h2 ih ih2 =>
    intro W evs evs' hat hat' hok hl
    have st : Steps Any s (s.ev (.emit s.depth a o.core.id p m)) := Steps.event s (.emit s.depth a o.core.id p m) trivial fun _ _ _ => rfl
    have st2 := deliverAll_steps (S := Any) fuel (a, p) m cs _ (ctx_any (FlowOrder.fine_steps (hat.fine hf) st).wf) fun _ _ => trivial
    rw [hd] at st2
    obtain ⟨evs1, hat1⟩ := hat.next (st.trans st2)
    obtain ⟨evs2, hat2⟩ := hat1.next (run_any h (hat1.fine hf))
    obtain ⟨he, hcs⟩ := emit_evs hf hat hat1 ho hcn hd
    have hdata : ∀ x ∈ cs, D x.target → ∃ o, s0.heap x.target = some o ∧ o.core.dataIn.has x.port = true := fun z hz hD => hS.data a p z (by rw [hcs]; exact hz) hD
    have hl1 : Sv s0.heap D (fun y q => W y q ∨ (⟨y, q⟩ : Conn) ∈ cs) evs1 := by
      rw [he, List.append_cons]
      refine Sv.deliver (fun b o ho => hat.start ho) cs hdata (by rw [← hcs]; exact hS.one.once a p) (fun z hz => ?_) (hl.skip fun _ _ => rfl)
      exact hok a .refl p z (by rw [hcs]; exact hz)
    have hedge : ∀ x ∈ cs, Edge s0.heap a x.target := fun x hx => edge_of_conns (p := p) (by rw [hcs]; exact hx)
    have hl2 := ih _ _ _ hat1 hat2 (fun z hz => ⟨hdata z hz, fun y hy p' w hw => by
      rintro (hh | hh)
      · exact hok y (reach_head (hedge z hz) hy) p' w hw hh
      · have hw' : w ∈ connsOf s0.heap a p := by rw [hcs]; cases w; exact hh
        obtain ⟨rfl, _⟩ := hS.one.sole _ _ _ _ _ hw hw'
        exact hS.acyc y z.target (hedge z hz) hy⟩) hl1
    refine ih2 W _ _ hat2 hat' hok (hl2.mono fun y q _ hy => ?_)
    obtain ⟨hy1, hy2⟩ := hy
    rcases hy1 with hy1 | hy1
    · exact hy1
    · exact absurd rfl (hy2 _ hy1)
  | connsNil => intro W evs evs' hat hat' _ hl; cases hat.unique hat'; exact hl.mono fun y q _ hy => ⟨hy, fun x hx => by cases hx⟩
  | @connsCons s z cs tt acc ctrl r s1 r' s2 ho hp h h2 ih ih2 =>
    intro W evs evs' hat hat' hok hl
    obtain ⟨evs1, hat1⟩ := hat.next (run_any h (hat.fine hf))
    have hctrl : D z.target → ctrl = false := by
      intro hD
      cases ctrl with
      | false => rfl
      | true =>
        obtain ⟨o0, k1, k2⟩ := (hok z (by simp)).1 hD
        obtain ⟨o1, k3, k4⟩ := hat.start ho
        rw [k1] at k3; cases k3
        rw [if_pos rfl, isData_of_fresh k4] at hp
        have h1 : o0.core.dataIn.has z.port = false := hp.1
        rw [k2] at h1; cases h1
    have hl1 := ih W _ _ hat hat1 ⟨hctrl, (hok z (by simp)).2⟩ hl
    refine (ih2 _ _ _ hat1 hat' (fun y hy => ⟨(hok y (by simp [hy])).1, (hok y (by simp [hy])).2.mono fun _ _ h => h.1⟩) hl1).mono fun y q _ hy => ?_
    obtain ⟨⟨k1, k2⟩, k3⟩ := hy
    refine ⟨k1, fun w hw => ?_⟩
    rcases List.mem_cons.1 hw with rfl | hw
    · exact fun e => k2 e.symm
    · exact k3 w hw
  | @connsSkip s z cs tt acc r' s2 ho hd hc h2 ih2 =>
    intro W evs evs' hat hat' hok hl
    refine (ih2 W _ _ hat hat' (fun y hy => hok y (by simp [hy])) hl).mono fun y q hD hy => ?_
    obtain ⟨k1, k2⟩ := hy
    refine ⟨k1, fun w hw => ?_⟩
    rcases List.mem_cons.1 hw with rfl | hw
    · rintro rfl
      obtain ⟨o0, q1, q2⟩ := (hok w (by simp)).1 hD
      obtain ⟨o1, k3, k4⟩ := hat.start ho
      rw [q1] at k3; cases k3
      rw [isData_of_fresh k4] at hd
      have h1 : o0.core.dataIn.has w.port = false := hd
      rw [q2] at h1; cases h1
    · exact k2 w hw
  | keysNil => intro W evs evs' hat hat' hok hl; exact hok.elim
  | keysCons ht h h2 ih ih2 => intro W evs evs' hat hat' hok hl; exact hok.elim

/-! ## Calls of a program -/

/-- The relation between the states around calls. -/
def SRel (s0 : St V) (D : Nat → Prop) (s s' : St V) : Prop :=
  ∀ evs, At s0 s evs → ∃ evs', At s0 s' evs' ∧ (Sv s0.heap D (fun _ _ => False) evs → Sv s0.heap D (fun _ _ => False) evs')

theorem SRel.refl (s : St V) : SRel s0 D s s := fun evs h => ⟨evs, h, fun h => h⟩

theorem SRel.trans (s s' s'' : St V) (h : SRel s0 D s s') (h' : SRel s0 D s' s'') : SRel s0 D s s'' := by
  intro evs hat
  obtain ⟨e1, k1, k3⟩ := h evs hat
  obtain ⟨e2, q1, q3⟩ := h' e1 k1
  exact ⟨e2, q1, fun hl => q3 (k3 hl)⟩

theorem feed_sv (hS : Stage s0 x D) (hf : Fine s0.heap s0) (hx : ¬ D x) {fuel : Nat} {port : Str} {m : Msg V} {s s' : St V} {r : ProgMsg V}
    (h : feed fuel x port m s = .ok r s') : SRel s0 D s s' := by
  intro evs hat
  obtain ⟨s1, h1, h2⟩ := feed_ok h
  have hfs := hat.fine hf
  have st := recvData_steps Any fuel s none x m port (ctx_any hfs.wf) trivial
  obtain ⟨_, hl⟩ := FlowOrder.recvData_only fuel none x m port hfs
  rw [h1] at st hl
  change Steps Any s s1 at st
  obtain ⟨evs1, hat1⟩ := hat.next st
  have hrun := exec_run fuel _ _ _ _ _ h2
  obtain ⟨evs2, hat2⟩ := hat1.next (run_any hrun (hat1.fine hf))
  refine ⟨evs2, hat2, fun hb => ?_⟩
  refine (run_sv hS hf hrun (fun _ _ => False) _ _ hat1 hat2 ⟨fun hD => absurd hD hx, fun _ _ _ _ _ h => h⟩ ?_).mono fun _ _ _ h => h.1
  rcases hl with hl | hl
  · have : evs1 = evs := log_cancel hat1.log (by rw [show s1.log = s.log from hl]; exact hat.log)
    rw [this]; exact hb
  · have : evs1 = evs ++ [.recv none x port false m] :=
      log_cancel hat1.log (by rw [show s1.log = s.log ++ [.recv none x port false m] from hl, hat.log, List.append_assoc])
    rw [this]
    refine hb.skip fun b hD => ?_
    have : x ≠ b := fun e => hx (e ▸ hD)
    simp [actOf, this]

theorem feedAll_sv (hS : Stage s0 x D) (hf : Fine s0.heap s0) (hx : ¬ D x) {fuel : Nat} {msgs : OpMsg V} {s s' : St V} {r : ProgMsg V}
    (h : feedAll fuel x msgs s = .ok r s') : SRel s0 D s s' := by
  refine fold_rel SRel.refl SRel.trans msgs (fun y pm _ s y' s' h => ?_) _ _ _ _ h
  refine fold_rel SRel.refl SRel.trans pm.2 (fun y m _ s y' s' h => ?_) _ _ _ _ h
  simp only [bind, M.bind] at h
  split at h
  · rename_i r s1 h1; cases h; exact feed_sv hS hf hx h1
  · cases h

theorem debugRun_sv (hS : Stage s0 x D) (hf : Fine s0.heap s0) (hx : ¬ D x) {fuel : Nat} (calls : List (OpMsg V)) : ∀ {P P' : Prog V} {rs},
    P.ops.find? P.entry = some x → debugRun fuel calls P = .ok rs P' → SRel s0 D P.st P'.st := by
  induction calls with
  | nil => intro P P' rs _ h; cases h; exact SRel.refl _
  | cons msgs calls ih =>
    intro P P' rs he h
    simp only [debugRun] at h
    split at h
    · cases h
    · rename_i r P1 h1
      split at h
      · cases h
      · rename_i rs' P2 h2
        cases h
        have hfr := receiveDebug_frame (fuel := fuel) (P := P) (msgs := msgs)
        rw [h1] at hfr
        have he1 : P1.ops.find? P1.entry = some x := by rw [show P1.ops = P.ops from hfr.2.1, show P1.entry = P.entry from hfr.2.2.1, he]
        refine SRel.trans _ _ _ ?_ (ih he1 h2)
        unfold Prog.receiveDebug at h1
        rw [he] at h1
        dsimp only at h1
        split at h1
        · rename_i r' s' hfa; cases h1; exact feedAll_sv hS hf hx hfa
        · cases h1

/-- After successful calls: every operator to whose data ports alone connections lead has been executed after every message, before the next for the same port, and has received on each
port all that is emitted at the other end of the connection. -/
theorem served_run {P P' : Prog V} {ox : Op V} (hP : Plain P x ox) {fuel : Nat} {calls : List (OpMsg V)} {rs : List (ProgMsg V)} (h : debugRun fuel calls P = .ok rs P')
    {evs : List (Ev V)} (hl : P'.st.log = P.st.log ++ evs) {b : Nat} {o : Op V} (hb : b ≠ x) (hd : OnlyData P.st.heap b) (ho : P.st.heap b = some o) :
    Singly (actsOf b evs) [] ∧ ExecOk o (actsOf b evs) ∧ (∀ a ∈ actsOf b evs, DataOnly o.core.dataIn.keys a) ∧
      ∀ a p q, (⟨b, q⟩ : Conn) ∈ connsOf P.st.heap a p → sentTo q (actsOf b evs) = emittedBy a p evs := by
  have hafter := debugRun_after calls h
  have hf := fine_start hP.ops
  obtain ⟨st, _, evs', k1, hF, _, _⟩ := FlowOrder.calls_rel hP.acyclic hP.one fuel (calls.map .receiveDebug) P hP.entry hf
  rw [hafter] at k1 st
  cases log_cancel hl k1
  have hS : Stage P.st x (fun y => y = b) := ⟨hP.acyclic, hP.one, fun a p c hc e => by
    obtain ⟨o', h1, h2⟩ := hd a p c hc e
    exact ⟨o', by rw [e]; exact h1, h2⟩⟩
  obtain ⟨evs', q1, q3⟩ := debugRun_sv hS hf (fun e => hb e.symm) calls hP.entry h [] ⟨by simp, Steps.refl _ _⟩
  cases log_cancel hl q1.log
  obtain ⟨l1, l2, fs, l3, l4⟩ := q3 (fun b o _ _ => ⟨fun pre post e => by simp [actsOf] at e, fun a ha => by simp [actsOf] at ha, [], .start, fun q h => by cases h⟩) b o rfl ho
  have : fs = [] := List.eq_nil_iff_forall_not_mem.2 l4
  subst this
  obtain ⟨evs', k1, hcomp⟩ := debugRun_complete calls hf.wf h
  cases log_cancel hl k1
  refine ⟨l3, l1, l2, fun a p q hc => ?_⟩
  obtain ⟨o', e1, e2⟩ := hd a p _ hc rfl
  rw [ho] at e1; cases e1
  exact arrives hP.one hF hcomp hc ho e2 l2

end Served
end Rtbot
