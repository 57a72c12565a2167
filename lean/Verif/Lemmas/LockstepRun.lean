import Verif.Lemmas.Lockstep
import Verif.Lemmas.FlowOrder

/-! # Operators in step: runs of programs -/

set_option linter.unusedSectionVars false

namespace Rtbot
open Spec
variable {V : Type} [Num V]

namespace Lockstep

/-! ## States reached from a start -/

/-- The computation from `s0` to `s` has logged `evs`. -/
structure At (s0 s : St V) (evs : List (Ev V)) : Prop where
  log : s.log = s0.log ++ evs
  steps : Steps Any s0 s

theorem At.next {s0 s s1 : St V} {evs : List (Ev V)} (h : At s0 s evs) (st : Steps Any s s1) : ∃ evs1, At s0 s1 evs1 := by
  obtain ⟨e, h1, _⟩ := st.trace
  exact ⟨evs ++ e, by rw [h1, h.log, List.append_assoc], h.steps.trans st⟩

theorem At.pre {s0 s s1 : St V} {evs evs1 : List (Ev V)} (h : At s0 s evs) (h1 : At s0 s1 evs1) (st : Steps Any s s1) : evs <+: evs1 := by
  obtain ⟨e, k, _⟩ := st.trace
  rw [h.log, List.append_assoc] at k
  exact ⟨e, (log_cancel h1.log k).symm⟩

theorem At.heap {s0 s : St V} {evs : List (Ev V)} (h : At s0 s evs) (hf : Fine s0.heap s0) {b : Nat} {o : Op V} (ho : s0.heap b = some o) :
    s.heap b = some (after o (actsOf b evs)) := by
  obtain ⟨e, k1, _, k3, _⟩ := h.steps.trace
  cases log_cancel h.log k1
  exact k3 b o ho (hf.simple b o ho)

theorem At.fine {s0 s : St V} {evs : List (Ev V)} (h : At s0 s evs) (hf : Fine s0.heap s0) : Fine s0.heap s := FlowOrder.fine_steps hf h.steps

theorem At.start {s0 : St V} {s : St V} {evs : List (Ev V)} (h : At s0 s evs) {b : Nat} {o : Op V} (ho : s.heap b = some o) : ∃ o0, s0.heap b = some o0 ∧ o.fresh = o0.fresh := by
  obtain ⟨o0, h1, h2⟩ := h.steps.shape.get' ho
  exact ⟨o0, h1, h2.symm⟩

theorem At.unique {s0 s : St V} {evs evs1 : List (Ev V)} (h : At s0 s evs) (h1 : At s0 s evs1) : evs = evs1 := log_cancel h.log h1.log

theorem run_any {s s' : St V} {c : Call V} {r : ProgMsg V} (h : Run c s r s') {h0 : Nat → Option (Op V)} (hf : Fine h0 s) : Steps Any s s' :=
  h.steps (ctx_any hf.wf) (starts_any c)

/-! ## Keeping step -/

/-- All operators of `D` are in step at time `t`; those waiting to be executed are in `W`. -/
def Lk (h0 : Nat → Option (Op V)) (D : Nat → Prop) (t : UInt64) (W : Nat → Prop) (evs : List (Ev V)) : Prop :=
  ∀ b o, D b → h0 b = some o → ExecOk o (actsOf b evs) ∧ (∀ a ∈ actsOf b evs, DataOnly o.core.dataIn.keys a) ∧
    ∃ pend, InStep (actsOf b evs) t pend ∧ (pend = true → W b)

variable {h0 : Nat → Option (Op V)} {D : Nat → Prop} {t : UInt64} {W : Nat → Prop} {evs : List (Ev V)}

theorem Lk.mono {W' : Nat → Prop} (h : Lk h0 D t W evs) (hW : ∀ b, W b → W' b) : Lk h0 D t W' evs := by
  intro b o hb ho
  obtain ⟨h1, h2, p, h3, h4⟩ := h b o hb ho
  exact ⟨h1, h2, p, h3, fun hp => hW b (h4 hp)⟩

theorem Lk.later {t' : UInt64} (h : Lk h0 D t (fun _ => False) evs) (ht : t ≤ t') : Lk h0 D t' (fun _ => False) evs := by
  intro b o hb ho
  obtain ⟨h1, h2, p, h3, h4⟩ := h b o hb ho
  cases p with
  | true => exact (h4 rfl).elim
  | false => exact ⟨h1, h2, false, .later h3 ht, fun h => by cases h⟩

theorem actsOf_one {b : Nat} {e : Ev V} : actsOf b [e] = (actOf b e).toList := by
  unfold actsOf
  cases h : actOf b e <;> simp [h]

theorem Lk.skip (h : Lk h0 D t W evs) {e : Ev V} (he : ∀ b, D b → actOf b e = none) : Lk h0 D t W (evs ++ [e]) := by
  intro b o hb ho
  have : actsOf b (evs ++ [e]) = actsOf b evs := by rw [actsOf_append, actsOf_one, he b hb]; simp
  rw [this]
  exact h b o hb ho

theorem Lk.recv (h : Lk h0 D t W evs) {src : Option (Nat × Str)} {b : Nat} {q : Str} {ctrl : Bool} {m : Msg V}
    (hb : D b → ctrl = false ∧ m.time = t ∧ ∀ o, h0 b = some o → q ∈ o.core.dataIn.keys) :
    Lk h0 D t (fun y => W y ∨ y = b) (evs ++ [.recv src b q ctrl m]) := by
  intro y o hy ho
  obtain ⟨h1, h2, p, h3, h4⟩ := h y o hy ho
  by_cases hyb : y = b
  · subst hyb
    obtain ⟨rfl, hm, hq⟩ := hb hy
    have : actsOf y (evs ++ [.recv src y q false m]) = actsOf y evs ++ [.recvData q m] := by
      rw [actsOf_append, actsOf_one]; simp [actOf]
    rw [this]
    refine ⟨execOk_recv h1 _ (by intro h; cases h), ?_, true, .recv q m h3 hm, fun _ => Or.inr rfl⟩
    intro a ha
    rcases List.mem_append.1 ha with ha | ha
    · exact h2 a ha
    · rw [List.mem_singleton.1 ha]
      exact hq o ho
  · have : actsOf y (evs ++ [.recv src b q ctrl m]) = actsOf y evs := by
      rw [actsOf_append, actsOf_one]
      cases ctrl <;> simp [actOf, Ne.symm hyb]
    rw [this]
    exact ⟨h1, h2, p, h3, fun hp => Or.inl (h4 hp)⟩

theorem Lk.exec (h : Lk h0 D t W evs) {x : Nat} {ctrl : Bool} (hx : D x → ctrl = false)
    (hok : ∀ o, D x → h0 x = some o → ∃ out o', (after o (actsOf x evs)).execData = .ok out o') :
    Lk h0 D t (fun y => W y ∧ y ≠ x) (evs ++ [.exec x ctrl]) := by
  intro y o hy ho
  obtain ⟨h1, h2, p, h3, h4⟩ := h y o hy ho
  by_cases hyb : y = x
  · subst hyb
    cases hx hy
    have : actsOf y (evs ++ [.exec y false]) = actsOf y evs ++ [.execData] := by
      rw [actsOf_append, actsOf_one]; simp [actOf]
    rw [this]
    refine ⟨execOk_snoc h1 (hok o hy ho), ?_, false, .exec h3, fun h => by cases h⟩
    intro a ha
    rcases List.mem_append.1 ha with ha | ha
    · exact h2 a ha
    · rw [List.mem_singleton.1 ha]; trivial
  · have : actsOf y (evs ++ [.exec x ctrl]) = actsOf y evs := by
      rw [actsOf_append, actsOf_one]
      cases ctrl <;> simp [actOf, Ne.symm hyb]
    rw [this]
    exact ⟨h1, h2, p, h3, fun hp => ⟨h4 hp, hyb⟩⟩

theorem Lk.deliver (ds : List (Ev V)) (T : Nat → Prop)
    (hds : ∀ e ∈ ds, ∃ src b q ctrl m, e = .recv src b q ctrl m ∧ T b ∧ (D b → ctrl = false ∧ m.time = t ∧ ∀ o, h0 b = some o → q ∈ o.core.dataIn.keys)) :
    ∀ {W : Nat → Prop} {evs : List (Ev V)}, Lk h0 D t W evs → Lk h0 D t (fun y => W y ∨ T y) (evs ++ ds) := by
  induction ds with
  | nil => intro W evs h; rw [List.append_nil]; exact h.mono fun _ => Or.inl
  | cons e ds ih =>
    intro W evs h
    obtain ⟨src, b, q, ctrl, m, rfl, hT, hb⟩ := hds e List.mem_cons_self
    have := ih (fun e he => hds e (List.mem_cons_of_mem _ he)) (h.recv (src := src) hb)
    rw [List.append_assoc] at this
    refine this.mono fun y hy => ?_
    rcases hy with (hy | rfl) | hy
    · exact Or.inl hy
    · exact Or.inr hT
    · exact Or.inr hy

/-! ## Runs -/

theorem deliverAll_exact (fuel a : Nat) (p : Str) (m : Msg V) (cs : List Conn) {s s' : St V} (hf : Fine h0 s) (h : M.fold (deliver fuel (a, p) m) cs () s = .ok () s') :
    s'.log = s.log ++ cs.filterMap (delivery s.heap a p m) := by
  obtain ⟨_, e, h1, _, h2⟩ := deliverAll_log fuel a p m cs s s' hf.wf h
  obtain ⟨_, e', k1, k2, _⟩ := FlowOrder.deliverAll_only fuel a p m cs hf
  rw [h] at k1
  cases log_cancel h1 k1
  rw [h1, ← h2, List.filter_eq_self.2]
  intro x hx
  obtain ⟨c, _, ctrl, rfl, _⟩ := k2 x hx
  rfl

theorem edge_of_conns {h : Nat → Option (Op V)} {a : Nat} {p : Str} {x : Conn} (hx : x ∈ connsOf h a p) : Edge h a x.target := by
  unfold connsOf at hx
  split at hx
  · cases hx
  · next o ho =>
    split at hx
    · cases hx
    · next cs hc =>
      refine ⟨o, ho, ?_⟩
      simp only [nexts, List.mem_append, List.mem_flatMap]
      exact Or.inl ⟨_, find?_mem hc, List.mem_map.2 ⟨x, hx, rfl⟩⟩

theorem mem_keys {m : Map (Inp V)} {q : Str} (h : m.has q = true) : q ∈ m.keys := by
  rw [← Map.find?_isSome_iff]
  exact h

/-- What the arguments rest on: the program at the start, all that is logged in the end, and the part of the program to be kept in step. -/
structure Scene (s0 : St V) (E : List (Ev V)) (c : Nat) (pc : Str) (D : Nat → Prop) : Prop where
  built : ∀ b o, s0.heap b = some o → Connected o
  acyc : Acyclic s0.heap
  clk : Clocked s0.heap c pc D
  inc : ∀ b o q, D b → s0.heap b = some o → q ∈ o.core.dataIn.keys → Increasing (sentTo q (actsOf b E))
  clock : Increasing (emittedBy c pc E)

/-- Calls outside the reach of the clock are made as follows. -/
def OkA (h0 : Nat → Option (Op V)) (D : Nat → Prop) (t : UInt64) : Call V → Prop
  | .exec ctrl x => D x → ctrl = false
  | .ports a out _ => D a → ∀ e ∈ out, ∀ m ∈ e.2, m.time = t
  | .msgs a _ ms _ => D a → ∀ m ∈ ms, m.time = t
  | .conns cs _ => ∀ x ∈ cs, D x.target → ∃ o, h0 x.target = some o ∧ o.core.dataIn.has x.port = true
  | .keys _ _ _ => False

/-- The operators left waiting. -/
def postA (W : Nat → Prop) : Call V → Nat → Prop
  | .exec _ x => fun y => W y ∧ y ≠ x
  | .ports _ _ _ | .msgs _ _ _ _ | .keys _ _ _ => W
  | .conns cs _ => fun y => W y ∧ ∀ x ∈ cs, x.target ≠ y

variable {s0 : St V} {E : List (Ev V)} {c : Nat} {pc : Str}

/-- The emission of a message and its deliveries. -/
theorem emit_evs (hf : Fine s0.heap s0) {s s1 : St V} {evs evs1 : List (Ev V)} (hat : At s0 s evs) (hat1 : At s0 s1 evs1) {a fuel : Nat}
    {o : Op V} {p : Str} {m : Msg V} {cs : List Conn} (ho : s.heap a = some o) (hc : o.core.outputs.find? p = some cs)
    (hd : M.fold (deliver fuel (a, p) m) cs () (s.ev (.emit s.depth a o.core.id p m)) = .ok () s1) :
    evs1 = evs ++ .emit s.depth a o.core.id p m :: cs.filterMap (delivery s.heap a p m) ∧ connsOf s0.heap a p = cs := by
  have hfs := hat.fine hf
  have hst1 : Steps Any s (s.ev (.emit s.depth a o.core.id p m)) := Steps.event s (.emit s.depth a o.core.id p m) trivial fun _ _ _ => rfl
  have hf1 := FlowOrder.fine_steps hfs hst1
  have hx := deliverAll_exact fuel a p m cs hf1 hd
  have hcs := FlowOrder.connsOf_shape hfs.shape ho hc
  refine ⟨log_cancel hat1.log ?_, hcs⟩
  rw [hx]
  show (s.log ++ [_]) ++ _ = _
  rw [hat.log]
  simp only [List.append_assoc, List.singleton_append]

/-- After the emission of a message and its deliveries. -/
theorem deliver_lk (hclk : Clocked s0.heap c pc D) (hf : Fine s0.heap s0) {s s1 : St V} {evs evs1 : List (Ev V)} (hat : At s0 s evs) (hat1 : At s0 s1 evs1) {a fuel : Nat}
    {o : Op V} {p : Str} {m : Msg V} {cs : List Conn} (ho : s.heap a = some o) (hc : o.core.outputs.find? p = some cs)
    (hd : M.fold (deliver fuel (a, p) m) cs () (s.ev (.emit s.depth a o.core.id p m)) = .ok () s1) (hm : D a ∨ (a = c ∧ p = pc) → m.time = t)
    (hl : Lk s0.heap D t W evs) : Lk s0.heap D t (fun y => W y ∨ ∃ x ∈ cs, x.target = y) evs1 := by
  obtain ⟨he, hcs⟩ := emit_evs hf hat hat1 ho hc hd
  rw [he, List.append_cons]
  refine Lk.deliver _ (fun y => ∃ x ∈ cs, x.target = y) ?_ (hl.skip fun _ _ => rfl)
  intro e hmem
  obtain ⟨x, hxc, hde⟩ := List.mem_filterMap.1 hmem
  unfold delivery at hde
  cases htgt : s.heap x.target with
  | none => rw [htgt] at hde; cases hde
  | some tt =>
    rw [htgt] at hde
    dsimp only at hde
    obtain ⟨t0, k1, k2⟩ := hat.start htgt
    by_cases hisd : tt.core.isData x.port = true
    · rw [if_pos hisd] at hde
      cases hde
      refine ⟨_, _, _, _, _, rfl, ⟨x, hxc, rfl⟩, fun hD => ?_⟩
      obtain ⟨k3, o1, k4, k5⟩ := hclk.source a p x (by rw [hcs]; exact hxc) hD
      refine ⟨rfl, hm k3, fun o2 ho2 => ?_⟩
      rw [k4] at ho2; cases ho2
      exact mem_keys k5
    · rw [if_neg hisd] at hde
      split at hde
      · cases hde
        refine ⟨_, _, _, _, _, rfl, ⟨x, hxc, rfl⟩, fun hD => ?_⟩
        obtain ⟨_, o1, k4, k5⟩ := hclk.source a p x (by rw [hcs]; exact hxc) hD
        rw [k1] at k4; cases k4
        rw [isData_of_fresh k2] at hisd
        exact absurd k5 hisd
      · cases hde

theorem sentTo_pre {q : Str} {b : Nat} {l l' : List (Ev V)} (h : l <+: l') (hi : Increasing (sentTo q (actsOf b l'))) : Increasing (sentTo q (actsOf b l)) := by
  obtain ⟨r, rfl⟩ := h
  rw [actsOf_append] at hi
  exact sentTo_prefix q hi

/-- The state right after an execution: its log, and what the operator hands to `emit`. -/
theorem exec_at {s : St V} {evs : List (Ev V)} (hat : At s0 s evs) {a : Nat} {o o' : Op V} {ctrl : Bool} {out : OpMsg V} (ho : s.heap a = some o)
    (hx : (if ctrl then o.execCtrl else o.execData) = .ok out o') :
    Steps Any s (St.setOp (s.ev (.exec a ctrl)) a o') ∧ At s0 (St.setOp (s.ev (.exec a ctrl)) a o') (evs ++ [.exec a ctrl]) := by
  have key := Steps.call (S := Any) s (.exec a ctrl) (if ctrl then .execCtrl else .execData) o
    (if ctrl then o.execCtrl else o.execData).state trivial (by cases ctrl <;> simp [actOf, addr]) ho
    (by cases ctrl
        · simp only [act, Bool.false_eq_true, if_false]; cases o.execData <;> rfl
        · simp only [act, if_true]; cases o.execCtrl <;> rfl)
    (by cases ctrl
        · exact execData_fresh o
        · exact execCtrl_fresh o)
  rw [hx] at key
  refine ⟨key, ?_, hat.steps.trans key⟩
  show s.log ++ [_] = _
  rw [hat.log, List.append_assoc]

theorem modeA (hS : Scene s0 E c pc D) (hf : Fine s0.heap s0) (t : UInt64) {call : Call V} {s s' : St V} {r : ProgMsg V} (h : Run call s r s') :
    ∀ (W : Nat → Prop) evs evs', At s0 s evs → At s0 s' evs' → evs' <+: E → call.starts (Away s0.heap c) → OkA s0.heap D t call → Lk s0.heap D t W evs →
      Lk s0.heap D t (postA W call) evs' := by
  induction h with
  | @comp s r s' a o i q ctrl ho hk h ih =>
    intro W evs evs' hat hat' hE hst hok hl
    have := (hat.fine hf).simple a o ho
    simp [Simple, hk] at this
  | @pipeCtrl s a o inputs outs pm ho hk =>
    intro W evs evs' hat hat' hE hst hok hl
    have := (hat.fine hf).simple a o ho
    simp [Simple, hk] at this
  | @pipeNone s s' a o inputs outs pm o1 ho hk h ho1 ih =>
    intro W evs evs' hat hat' hE hst hok hl
    have := (hat.fine hf).simple a o ho
    simp [Simple, hk] at this
  | @pipeSome s s' a o inputs outs pm o1 r out r' s'' ho hk h hr ho1 hout h2 ih ih2 =>
    intro W evs evs' hat hat' hE hst hok hl
    have := (hat.fine hf).simple a o ho
    simp [Simple, hk] at this
  | @simple s a o ctrl out o' r s' ho hs hx h ih =>
    intro W evs evs' hat hat' hE hst hok hl
    obtain ⟨_, hat1⟩ := exec_at hat ho hx
    have hpre := hat1.pre hat' (run_any h (hat1.fine hf))
    have hexec : ∀ o0, D a → s0.heap a = some o0 → (after o0 (actsOf a evs)).execData = .ok out o' := by
      intro o0 hD ho0
      have := hat.heap hf ho0
      rw [ho] at this; cases this
      cases hok hD
      exact hx
    have hl1 := hl.exec (x := a) (ctrl := ctrl) hok fun o0 hD ho0 => ⟨out, o', hexec o0 hD ho0⟩
    refine ih _ _ _ hat1 hat' hE hst (fun hD => ?_) hl1
    obtain ⟨o0, ho0, _⟩ := hat.start ho
    obtain ⟨h1, h2, pend, h3, _⟩ := hl a o0 hD ho0
    refine keeps (hS.built a o0 ho0) (hS.clk.kinds a o0 hD ho0) h3 h1 h2 (fun q hq => ?_) (hexec o0 hD ho0)
    exact sentTo_pre (((List.prefix_append _ _).trans hpre).trans hE) (hS.inc a o0 q hD ho0 hq)
  | portsNil => intro W evs evs' hat hat' _ _ _ hl; cases hat.unique hat'; exact hl
  | @portsCons s a o p ms rest acc r s1 r' s2 ho hp h h2 ih ih2 =>
    intro W evs evs' hat hat' hE hst hok hl
    obtain ⟨evs1, hat1⟩ := hat.next (run_any h (hat.fine hf))
    have hpre := hat1.pre hat' (run_any h2 (hat1.fine hf))
    have hl1 := ih W _ _ hat hat1 (hpre.trans hE) hst (fun hD => hok hD (p, ms) (by simp)) hl
    exact ih2 W _ _ hat1 hat' hE hst (fun hD e he => hok hD e (List.mem_cons_of_mem _ he)) hl1
  | msgsNil => intro W evs evs' hat hat' _ _ _ hl; cases hat.unique hat'; exact hl
  | @msgsNone s a o p m ms acc r s' ho hcn h ih =>
    intro W evs evs' hat hat' hE hst hok hl
    have st : Steps Any s (s.ev (.emit s.depth a o.core.id p m)) := Steps.event s (.emit s.depth a o.core.id p m) trivial fun _ _ _ => rfl
    have hat1 : At s0 (s.ev (.emit s.depth a o.core.id p m)) (evs ++ [.emit s.depth a o.core.id p m]) :=
      ⟨by show s.log ++ [_] = _; rw [hat.log, List.append_assoc], hat.steps.trans st⟩
    exact ih W _ _ hat1 hat' hE hst (fun hD m hm => hok hD m (List.mem_cons_of_mem _ hm)) (hl.skip fun _ _ => rfl)
  | @msgsSome s a o p m ms acc cs fuel s1 r s2 r' s3 ho hcn hd h h2 ih ih2 =>
    intro W evs evs' hat hat' hE hst hok hl
    have st : Steps Any s (s.ev (.emit s.depth a o.core.id p m)) := Steps.event s (.emit s.depth a o.core.id p m) trivial fun _ _ _ => rfl
    have st2 := deliverAll_steps (S := Any) fuel (a, p) m cs _ (ctx_any (FlowOrder.fine_steps (hat.fine hf) st).wf) fun _ _ => trivial
    rw [hd] at st2
    obtain ⟨evs1, hat1⟩ := hat.next (st.trans st2)
    obtain ⟨evs2, hat2⟩ := hat1.next (run_any h (hat1.fine hf))
    have hpre := hat2.pre hat' (run_any h2 (hat2.fine hf))
    obtain ⟨he, hcs⟩ := emit_evs hf hat hat1 ho hcn hd
    have hl1 := deliver_lk hS.clk hf hat hat1 ho hcn hd (fun hor => by
      rcases hor with hD | ⟨rfl, _⟩
      · exact hok hD m (by simp)
      · exact absurd .refl hst) hl
    have hedge : ∀ x ∈ cs, Edge s0.heap a x.target := fun x hx => edge_of_conns (p := p) (by rw [hcs]; exact hx)
    have hl2 := ih _ _ _ hat1 hat2 (hpre.trans hE) (fun x hx => closed_away s0.heap c a x.target hst (hedge x hx))
      (fun x hx hD => (hS.clk.source a p x (by rw [hcs]; exact hx) hD).2) hl1
    refine ih2 W _ _ hat2 hat' hE hst (fun hD m hm => hok hD m (List.mem_cons_of_mem _ hm)) (hl2.mono fun y hy => ?_)
    obtain ⟨hy1, hy2⟩ := hy
    rcases hy1 with hy1 | ⟨x, hx, he⟩
    · exact hy1
    · exact absurd he (hy2 x hx)
  | connsNil => intro W evs evs' hat hat' _ _ _ hl; cases hat.unique hat'; exact hl.mono fun y hy => ⟨hy, fun x hx => by cases hx⟩
  | @connsCons s x cs tt acc ctrl r s1 r' s2 ho hp h h2 ih ih2 =>
    intro W evs evs' hat hat' hE hst hok hl
    obtain ⟨evs1, hat1⟩ := hat.next (run_any h (hat.fine hf))
    have hpre := hat1.pre hat' (run_any h2 (hat1.fine hf))
    have hl1 := ih W _ _ hat hat1 (hpre.trans hE) (hst x (by simp)) (fun hD => by
      cases ctrl with
      | false => rfl
      | true =>
        obtain ⟨o0, k1, k2⟩ := hok x (by simp) hD
        obtain ⟨o1, k3, k4⟩ := hat.start ho
        rw [k1] at k3; cases k3
        rw [if_pos rfl, isData_of_fresh k4] at hp
        have h1 : o0.core.dataIn.has x.port = false := hp.1
        rw [k2] at h1; cases h1) hl
    refine (ih2 _ _ _ hat1 hat' hE (fun y hy => hst y (by simp [hy])) (fun y hy => hok y (by simp [hy])) hl1).mono fun y hy => ?_
    obtain ⟨⟨k1, k2⟩, k3⟩ := hy
    refine ⟨k1, fun z hz => ?_⟩
    rcases List.mem_cons.1 hz with rfl | hz
    · exact fun e => k2 e.symm
    · exact k3 z hz
  | @connsSkip s x cs tt acc r' s2 ho hd hc h2 ih2 =>
    intro W evs evs' hat hat' hE hst hok hl
    refine (ih2 W _ _ hat hat' hE (fun y hy => hst y (by simp [hy])) (fun y hy => hok y (by simp [hy])) hl)
      |> fun hh => ?_
    intro b o hb ho'
    obtain ⟨h1, h2, pend, h3, h4⟩ := hh b o hb ho'
    refine ⟨h1, h2, pend, h3, fun hp => ?_⟩
    obtain ⟨k1, k2⟩ := h4 hp
    refine ⟨k1, fun z hz => ?_⟩
    rcases List.mem_cons.1 hz with rfl | hz
    · rintro rfl
      obtain ⟨o0, q1, q2⟩ := hok z (by simp) hb
      obtain ⟨o1, k3, k4⟩ := hat.start ho
      rw [q1] at k3; cases k3
      rw [isData_of_fresh k4] at hd
      have h1 : o0.core.dataIn.has z.port = false := hd
      rw [q2] at h1; cases h1
    · exact k2 z hz
  | keysNil => intro W evs evs' hat hat' _ _ hok hl; exact hok.elim
  | keysCons ht h h2 ih ih2 => intro W evs evs' hat hat' _ _ hok hl; exact hok.elim

/-- In step with the clock: at the time of one of its messages, or at the start. -/
def LkB (h0 : Nat → Option (Op V)) (D : Nat → Prop) (c : Nat) (pc : Str) (evs : List (Ev V)) : Prop :=
  ∃ t, Lk h0 D t (fun _ => False) evs ∧ (t = 0 ∨ ∃ m ∈ emittedBy c pc evs, m.time = t)

theorem LkB.skip (h : LkB h0 D c pc evs) {e : Ev V} (he : ∀ b, D b → actOf b e = none) : LkB h0 D c pc (evs ++ [e]) := by
  obtain ⟨t, h1, h2⟩ := h
  refine ⟨t, h1.skip he, h2.imp id ?_⟩
  rintro ⟨m, hm, ht⟩
  exact ⟨m, by rw [emittedBy_append]; exact List.mem_append_left _ hm, ht⟩

/-- Calls on operators outside. -/
def OkB (D : Nat → Prop) : Call V → Prop
  | .exec _ x => ¬ D x
  | .ports a _ _ => ¬ D a
  | .msgs a _ _ _ => ¬ D a
  | .conns cs _ => ∀ x ∈ cs, ¬ D x.target
  | .keys _ _ _ => False

theorem actOf_exec_ne {b x : Nat} {ctrl : Bool} (h : b ≠ x) : actOf b (.exec x ctrl : Ev V) = none := by
  cases ctrl <;> simp [actOf, h.symm]

theorem modeB (hS : Scene s0 E c pc D) (hf : Fine s0.heap s0) {call : Call V} {s s' : St V} {r : ProgMsg V} (h : Run call s r s') :
    ∀ evs evs', At s0 s evs → At s0 s' evs' → evs' <+: E → OkB D call → LkB s0.heap D c pc evs → LkB s0.heap D c pc evs' := by
  induction h with
  | @comp s r s' a o i q ctrl ho hk h ih =>
    intro evs evs' hat hat' hE hok hl
    have := (hat.fine hf).simple a o ho
    simp [Simple, hk] at this
  | @pipeCtrl s a o inputs outs pm ho hk =>
    intro evs evs' hat hat' hE hok hl
    have := (hat.fine hf).simple a o ho
    simp [Simple, hk] at this
  | @pipeNone s s' a o inputs outs pm o1 ho hk h ho1 ih =>
    intro evs evs' hat hat' hE hok hl
    have := (hat.fine hf).simple a o ho
    simp [Simple, hk] at this
  | @pipeSome s s' a o inputs outs pm o1 r out r' s'' ho hk h hr ho1 hout h2 ih ih2 =>
    intro evs evs' hat hat' hE hok hl
    have := (hat.fine hf).simple a o ho
    simp [Simple, hk] at this
  | @simple s a o ctrl out o' r s' ho hs hx h ih =>
    intro evs evs' hat hat' hE hok hl
    obtain ⟨_, hat1⟩ := exec_at hat ho hx
    exact ih _ _ hat1 hat' hE hok (hl.skip fun b hb => actOf_exec_ne fun e => hok (e ▸ hb))
  | portsNil => intro evs evs' hat hat' _ _ hl; cases hat.unique hat'; exact hl
  | @portsCons s a o p ms rest acc r s1 r' s2 ho hp h h2 ih ih2 =>
    intro evs evs' hat hat' hE hok hl
    obtain ⟨evs1, hat1⟩ := hat.next (run_any h (hat.fine hf))
    have hpre := hat1.pre hat' (run_any h2 (hat1.fine hf))
    exact ih2 _ _ hat1 hat' hE hok (ih _ _ hat hat1 (hpre.trans hE) hok hl)
  | msgsNil => intro evs evs' hat hat' _ _ hl; cases hat.unique hat'; exact hl
  | @msgsNone s a o p m ms acc r s' ho hcn h ih =>
    intro evs evs' hat hat' hE hok hl
    have st : Steps Any s (s.ev (.emit s.depth a o.core.id p m)) := Steps.event s (.emit s.depth a o.core.id p m) trivial fun _ _ _ => rfl
    have hat1 : At s0 (s.ev (.emit s.depth a o.core.id p m)) (evs ++ [.emit s.depth a o.core.id p m]) :=
      ⟨by show s.log ++ [_] = _; rw [hat.log, List.append_assoc], hat.steps.trans st⟩
    exact ih _ _ hat1 hat' hE hok (hl.skip fun _ _ => rfl)
  | @msgsSome s a o p m ms acc cs fuel s1 r s2 r' s3 ho hcn hd h h2 ih ih2 =>
    intro evs evs' hat hat' hE hok hl
    have st : Steps Any s (s.ev (.emit s.depth a o.core.id p m)) := Steps.event s (.emit s.depth a o.core.id p m) trivial fun _ _ _ => rfl
    have st2 := deliverAll_steps (S := Any) fuel (a, p) m cs _ (ctx_any (FlowOrder.fine_steps (hat.fine hf) st).wf) fun _ _ => trivial
    rw [hd] at st2
    obtain ⟨evs1, hat1⟩ := hat.next (st.trans st2)
    obtain ⟨evs2, hat2⟩ := hat1.next (run_any h (hat1.fine hf))
    have hpre := hat2.pre hat' (run_any h2 (hat2.fine hf))
    have hpre1 := hat1.pre hat2 (run_any h (hat1.fine hf))
    refine ih2 _ _ hat2 hat' hE hok ?_
    obtain ⟨t, hl0, ht⟩ := hl
    by_cases hcl : a = c ∧ p = pc
    · obtain ⟨rfl, rfl⟩ := hcl
      have hev : ∃ rest, evs2 = evs ++ .emit s.depth a o.core.id p m :: rest := by
        obtain ⟨he, _⟩ := emit_evs hf hat hat1 ho hcn hd
        obtain ⟨rest, hrest⟩ := hpre1
        exact ⟨_, by rw [← hrest, he, List.append_assoc, List.cons_append]⟩
      obtain ⟨rest, hev⟩ := hev
      have hmem : ∀ l, emittedBy a p (evs ++ .emit s.depth a o.core.id p m :: l) = emittedBy a p evs ++ m :: emittedBy a p l := by
        intro l
        rw [emittedBy_append]
        simp [emittedBy]
      have htm : t ≤ m.time := by
        rcases ht with rfl | ⟨m', hm', rfl⟩
        · exact UInt64.zero_le
        · obtain ⟨r1, hr1⟩ := hpre.trans hE
          have hinc := hS.clock
          rw [← hr1, hev, List.append_assoc, List.cons_append, hmem] at hinc
          exact UInt64.le_of_lt ((List.pairwise_append.1 hinc).2.2 m' hm' m (by simp))
      obtain ⟨he, hcs⟩ := emit_evs hf hat hat1 ho hcn hd
      have hl1 := deliver_lk hS.clk hf hat hat1 ho hcn hd (fun _ => rfl) (hl0.later htm)
      have hedge : ∀ x ∈ cs, Edge s0.heap a x.target := fun x hx => edge_of_conns (p := p) (by rw [hcs]; exact hx)
      have hl2 := modeA hS hf m.time h _ _ _ hat1 hat2 (hpre.trans hE) (fun x hx => hS.acyc a x.target (hedge x hx))
        (fun x hx hD => (hS.clk.source a p x (by rw [hcs]; exact hx) hD).2) hl1
      refine ⟨m.time, hl2.mono fun y hy => ?_, Or.inr ⟨m, by rw [hev, hmem]; simp, rfl⟩⟩
      obtain ⟨hy1, hy2⟩ := hy
      rcases hy1 with hy1 | ⟨x, hx, he⟩
      · exact hy1
      · exact absurd he (hy2 x hx)
    · have hno : ∀ x ∈ connsOf s0.heap a p, ¬ D x.target := fun x hx hD => by
        rcases (hS.clk.source a p x hx hD).1 with h | h
        · exact hok h
        · exact hcl h
      obtain ⟨he, hcs⟩ := emit_evs hf hat hat1 ho hcn hd
      have hl1 := deliver_lk (t := t) hS.clk hf hat hat1 ho hcn hd (fun hor => by
        rcases hor with h | h
        · exact absurd h hok
        · exact absurd h hcl) hl0
      rw [hcs] at hno
      refine ih _ _ hat1 hat2 (hpre.trans hE) hno ⟨t, ?_, ?_⟩
      · intro b o' hb ho'
        obtain ⟨k1, k2, pend, k3, k4⟩ := hl1 b o' hb ho'
        refine ⟨k1, k2, pend, k3, fun hp => ?_⟩
        rcases k4 hp with h | ⟨x, hx, rfl⟩
        · exact h
        · exact hno x hx hb
      · refine ht.imp id ?_
        rintro ⟨m', hm', h⟩
        exact ⟨m', by rw [he, emittedBy_append]; exact List.mem_append_left _ hm', h⟩
  | connsNil => intro evs evs' hat hat' _ _ hl; cases hat.unique hat'; exact hl
  | @connsCons s x cs tt acc ctrl r s1 r' s2 ho hp h h2 ih ih2 =>
    intro evs evs' hat hat' hE hok hl
    obtain ⟨evs1, hat1⟩ := hat.next (run_any h (hat.fine hf))
    have hpre := hat1.pre hat' (run_any h2 (hat1.fine hf))
    exact ih2 _ _ hat1 hat' hE (fun y hy => hok y (by simp [hy])) (ih _ _ hat hat1 (hpre.trans hE) (hok x (by simp)) hl)
  | @connsSkip s x cs tt acc r' s2 ho hd hc h2 ih2 =>
    intro evs evs' hat hat' hE hok hl
    exact ih2 _ _ hat hat' hE (fun y hy => hok y (by simp [hy])) hl
  | keysNil => intro evs evs' hat hat' _ hok hl; exact hok.elim
  | keysCons ht h h2 ih ih2 => intro evs evs' hat hat' _ hok hl; exact hok.elim

end Lockstep
end Rtbot
