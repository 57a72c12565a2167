import Verif.Lemmas.Compose
import Verif.Lemmas.Built

/-! # What an operator emits during a call -/

set_option linter.unusedSectionVars false

namespace Rtbot
variable {V : Type} [Num V]
open Spec

theorem results_append (o : Op V) (as bs : List (Act V)) : results o (as ++ bs) = results o as ++ results (after o as) bs := by
  induction as generalizing o with
  | nil => rfl
  | cons a as ih => simp only [List.cons_append, results, after]; rw [ih]

theorem collected_append (p : Str) (l l' : List (Except Err (OpMsg V))) : collected p (l ++ l') = collected p l ++ collected p l' :=
  List.flatMap_append

theorem after_portsOK {o : Op V} (h : PortsOK o) (hw : o.core.WF) (as : List (Act V)) : PortsOK (after o as) := by
  induction as generalizing o with
  | nil => exact h
  | cons x as ih => exact ih (h.act hw x) (Core.WF.of_fresh (congrArg Op.core (act_fresh o hw x)) hw)

/-- No cycle passes through `b`, which is a simple operator with consistent port tables. -/
structure Calm (h : Nat → Option (Op V)) (b : Nat) (o : Op V) : Prop where
  here : h b = some o
  simple : Simple o
  ports : PortsOK o
  noBack : ∀ x, Edge h b x → ¬ Reach h x b

section out
variable {b : Nat} {p : Str}

/-- The emissions of `b` are the results of the calls on it. -/
def Out (b : Nat) (p : Str) (o : Op V) (evs : List (Ev V)) : Prop := emittedBy b p evs = collected p (results o (actsOf b evs))

theorem Out.nil {o : Op V} : Out b p o [] := rfl
theorem Out.append {o : Op V} {l l' : List (Ev V)} (h : Out b p o l) (h' : Out b p (after o (actsOf b l)) l') : Out b p o (l ++ l') := by
  unfold Out at *
  rw [emittedBy_append, actsOf_append, results_append, collected_append, h, h']

theorem Out.away {o : Op V} {l : List (Ev V)} (h : ∀ e ∈ l, addr e ≠ b) : Out b p o l := by
  unfold Out; rw [emittedBy_away h, actsOf_away h]; rfl

theorem Out.recv {o : Op V} {l : List (Ev V)} (h : ∀ e ∈ l, isRecv e = true) : Out b p o l := by
  unfold Out
  rw [emittedBy_recv h]
  have : ∀ (l : List (Ev V)) (o : Op V), (∀ e ∈ l, isRecv e = true) → collected p (results o (actsOf b l)) = [] := by
    intro l
    induction l with
    | nil => intro o _; rfl
    | cons e l ih =>
      intro o h
      have he := h e (by simp)
      have hl := fun o => ih o fun e he => h e (by simp [he])
      cases e with
      | emit => cases he
      | exec => cases he
      | recv f a q c m =>
        by_cases hab : a = b
        · cases c with
          | false =>
            have h1 : actsOf b (.recv f a q false m :: l) = .recvData q m :: actsOf b l := by simp [actsOf, actOf, hab]
            rw [h1]
            simp only [results, collected, List.flatMap_cons]
            have h2 := hl (act o (.recvData q m)).1
            simp only [collected] at h2
            rw [h2]
            simp only [act]
            cases o.recvData m q <;> rfl
          | true =>
            have h1 : actsOf b (.recv f a q true m :: l) = .recvCtrl q m :: actsOf b l := by simp [actsOf, actOf, hab]
            rw [h1]
            simp only [results, collected, List.flatMap_cons]
            have h2 := hl (act o (.recvCtrl q m)).1
            simp only [collected] at h2
            rw [h2]
            simp only [act]
            cases o.recvCtrl m q <;> rfl
        · have h1 : actsOf b (.recv f a q c m :: l) = actsOf b l := by
            have : actOf b (.recv f a q c m) = none := actOf_away hab
            simp [actsOf, this]
          rw [h1]; exact hl o
  exact (this l o h).symm

theorem Calm.step {s s' : St V} {o : Op V} {S : Nat → Prop} (hw : HeapWF s.heap) (c : Calm s.heap b o) (st : Steps S s s') {evs : List (Ev V)}
    (hl : s'.log = s.log ++ evs) : Calm s'.heap b (after o (actsOf b evs)) := by
  obtain ⟨evs', h1, h2, h3, _⟩ := st.trace
  have he := log_cancel hl h1
  subst he
  have hb := h3 b o c.here c.simple
  obtain ⟨o', k1, k2⟩ := st.shape.get c.here
  rw [hb] at k1; cases k1
  exact ⟨hb, (simple_of_fresh k2).2 c.simple, after_portsOK c.ports (hw b o c.here) _,
    fun x hx hr => c.noBack x (st.shape.edge.1 hx) (st.shape.reach.1 hr)⟩

/-- What is emitted on `p` by the loop over a message map. -/
def onPort (p : Str) (msgs : OpMsg V) : List (Msg V) := msgs.flatMap fun e => if e.1 = p then e.2 else []

theorem onPort_sorted (p : Str) {msgs : OpMsg V} (h : msgs.Sorted) : onPort p msgs = msgsOn p msgs := by
  induction msgs with
  | nil => rfl
  | cons e l ih =>
    obtain ⟨k, ms⟩ := e
    have ih := ih h.tail
    unfold onPort at ih ⊢
    rw [List.flatMap_cons, ih]
    unfold msgsOn
    rw [Map.find?_cons]
    by_cases hk : k = p
    · subst hk
      have : Map.find? l k = none := by
        rw [Map.find?_none_iff]
        intro hm
        exact strLt_ne (h.head_lt hm) rfl
      simp [this]
    · simp [hk]

/-- The part of the claim that depends on the call. -/
def OutBy (b : Nat) (p : Str) (o : Op V) (evs : List (Ev V)) : Call V → Prop
  | .ports x msgs _ => if x = b then actsOf b evs = [] ∧ emittedBy b p evs = onPort p msgs else Out b p o evs
  | .msgs x p' ms _ => if x = b then actsOf b evs = [] ∧ emittedBy b p evs = (if p' = p then ms else []) else Out b p o evs
  | .exec ctrl x => Out b p o evs ∧ (x = b → actsOf b evs = [if ctrl then .execCtrl else .execData])
  | _ => Out b p o evs

theorem Run.out {c : Call V} {s s' : St V} {r : ProgMsg V} (h : Run c s r s') : ∀ {o : Op V}, HeapWF s.heap → Calm s.heap b o →
    ∃ evs, s'.log = s.log ++ evs ∧ OutBy b p o evs c := by
  induction h with
  | @comp s r s' x o i y ctrl ho hk h ih =>
    intro ob hw w
    obtain ⟨evs, hl, hf, _⟩ := ih hw w
    have hx : x ≠ b := by
      rintro rfl
      have := w.here.symm.trans ho; cases this
      have := w.simple; simp [Simple, hk] at this
    have h1 : ∀ e ∈ [(Ev.exec x ctrl : Ev V)], addr e ≠ b := by simpa [addr] using hx
    refine ⟨[.exec x ctrl] ++ evs, by rw [hl]; simp, Out.append (.away h1) ?_, fun h => absurd h hx⟩
    rw [actsOf_away h1]; exact hf
  | @pipeCtrl s x o inputs outs pm ho hk =>
    intro ob hw w
    have hx : x ≠ b := by
      rintro rfl
      have := w.here.symm.trans ho; cases this
      have := w.simple; simp [Simple, hk] at this
    exact ⟨[.exec x true], rfl, Out.away (by simpa [addr] using hx), fun h => absurd h hx⟩
  | @pipeNone s s' x o inputs outs pm o1 ho hk h ho1 ih =>
    intro ob hw w
    obtain ⟨evs, hl, hf⟩ := ih hw w
    have hx : x ≠ b := by
      rintro rfl
      have := w.here.symm.trans ho; cases this
      have := w.simple; simp [Simple, hk] at this
    have h1 : ∀ e ∈ [(Ev.exec x false : Ev V)], addr e ≠ b := by simpa [addr] using hx
    refine ⟨[.exec x false] ++ evs, by simp [St.setOp, hl], Out.append (.away h1) ?_, fun h => absurd h hx⟩
    rw [actsOf_away h1]; exact hf
  | @pipeSome s s' x o inputs outs pm o1 r out r' s'' ho hk h hr ho1 hout h2 ih ih2 =>
    intro ob hw w
    obtain ⟨evs, hl, hf⟩ := ih hw w
    have hx : x ≠ b := by
      rintro rfl
      have := w.here.symm.trans ho; cases this
      have := w.simple; simp [Simple, hk] at this
    have h1 : ∀ e ∈ [(Ev.exec x false : Ev V)], addr e ≠ b := by simpa [addr] using hx
    have hst := h.steps (S := Any) (ctx_any hw) (starts_any _)
    have hsh : SameShape s.heap s'.heap := hst.shape
    have hsh2 : SameShape s'.heap (St.setOp { s' with depth := s.depth } x (clearProcess o1)).heap :=
      setOp_shape (s := { s' with depth := s.depth }) ho1 rfl
    have w1 : Calm s'.heap b (after ob (actsOf b evs)) :=
      Calm.step (s := { s.ev (.exec x false) with depth := s.depth + 1 }) hw ⟨w.here, w.simple, w.ports, w.noBack⟩ hst hl
    have w2 : Calm (St.setOp { s' with depth := s.depth } x (clearProcess o1)).heap b (after ob (actsOf b evs)) := by
      refine ⟨?_, w1.simple, w1.ports, fun y hy hr => w1.noBack y (hsh2.edge.1 hy) (hsh2.reach.1 hr)⟩
      rw [setOp_heap, if_neg (fun h => hx h.symm)]
      exact w1.here
    obtain ⟨evs2, hl2, hf2⟩ := ih2 ((hsh.trans hsh2).wf hw) w2
    simp only [OutBy, if_neg hx] at hf2
    refine ⟨[.exec x false] ++ (evs ++ evs2), by simp [hl2, St.setOp, hl], Out.append (.away h1) ?_, fun h => absurd h hx⟩
    rw [actsOf_away h1]; exact Out.append hf hf2
  | @simple s x o ctrl out o' r s' ho hs hx h ih =>
    intro ob hw w
    have hsh : SameShape s.heap (St.setOp (s.ev (.exec x ctrl)) x o').heap := setOp_shape (s := s.ev (.exec x ctrl)) ho (execWith_fresh hx)
    by_cases hxb : x = b
    · subst hxb
      have := w.here.symm.trans ho; cases this
      have hact : (act o (if ctrl then .execCtrl else .execData)) = (o', .ok out) := by
        cases ctrl
        · simp only [Bool.false_eq_true, if_false] at hx ⊢
          simp only [act, hx]
        · simp only [if_true] at hx ⊢
          simp only [act, hx]
      have hports : PortsOK o' := by
        have := w.ports.act (hw x o ho) (if ctrl then .execCtrl else .execData)
        rw [hact] at this; exact this
      have hsorted : out.Sorted := by
        cases ctrl
        · have := sr_execData o w.ports
          simp only [Bool.false_eq_true, if_false] at hx
          rw [hx] at this; exact this.sorted
        · have := sr_execCtrl o
          simp only [if_true] at hx
          rw [hx] at this; exact this.sorted
      have w1 : Calm (St.setOp (s.ev (.exec x ctrl)) x o').heap x o' := by
        refine ⟨by rw [setOp_heap, if_pos rfl], (simple_of_fresh (execWith_fresh hx)).2 hs, hports,
          fun y hy hr => w.noBack y (hsh.edge.1 hy) (hsh.reach.1 hr)⟩
      obtain ⟨evs, hl, hf⟩ := ih (hsh.wf hw) w1
      simp only [OutBy, if_true] at hf
      obtain ⟨hf1, hf2⟩ := hf
      have hacts : actsOf x ([Ev.exec x ctrl] ++ evs) = [if ctrl then .execCtrl else .execData] := by
        rw [actsOf_append, actsOf_exec, if_pos rfl, hf1]; rfl
      refine ⟨[.exec x ctrl] ++ evs, by simp [hl, St.setOp], ?_, fun _ => hacts⟩
      unfold Out
      rw [hacts, emittedBy_append, emittedBy_exec, hf2, onPort_sorted p hsorted]
      simp [results, hact, collected]
    · have h1 : ∀ e ∈ [(Ev.exec x ctrl : Ev V)], addr e ≠ b := by simpa [addr] using hxb
      have w1 : Calm (St.setOp (s.ev (.exec x ctrl)) x o').heap b ob := by
        refine ⟨?_, w.simple, w.ports, fun y hy hr => w.noBack y (hsh.edge.1 hy) (hsh.reach.1 hr)⟩
        rw [setOp_heap, if_neg (fun h => hxb h.symm)]; exact w.here
      obtain ⟨evs, hl, hf⟩ := ih (hsh.wf hw) w1
      simp only [OutBy, if_neg hxb] at hf
      refine ⟨[.exec x ctrl] ++ evs, by simp [hl, St.setOp], Out.append (.away h1) ?_, fun h => absurd h hxb⟩
      rw [actsOf_away h1]; exact hf
  | @portsNil s x acc =>
    intro ob _ _
    refine ⟨[], by simp, ?_⟩
    simp only [OutBy]
    split
    · exact ⟨rfl, rfl⟩
    · exact Out.nil
  | @portsCons s x o p' ms rest acc r s1 r' s2 ho hp h h2 ih ih2 =>
    intro ob hw w
    obtain ⟨evs, hl, hf⟩ := ih hw w
    have w1 := w.step hw (h.steps (S := Any) (ctx_any hw) (starts_any _)) hl
    obtain ⟨evs2, hl2, hf2⟩ := ih2 ((h.shape hw).wf hw) w1
    refine ⟨evs ++ evs2, by rw [hl2, hl, List.append_assoc], ?_⟩
    simp only [OutBy] at hf hf2 ⊢
    split
    · rename_i hx
      rw [if_pos hx] at hf hf2
      refine ⟨by rw [actsOf_append, hf.1, hf2.1]; rfl, ?_⟩
      rw [emittedBy_append, hf.2, hf2.2]; rfl
    · rename_i hx
      rw [if_neg hx] at hf hf2
      exact Out.append hf hf2
  | @msgsNil s x p' acc =>
    intro ob _ _
    refine ⟨[], by simp, ?_⟩
    simp only [OutBy]
    split
    · exact ⟨rfl, by simp [emittedBy]⟩
    · exact Out.nil
  | @msgsNone s x o p' m ms acc r s' ho hcn h ih =>
    intro ob hw w
    obtain ⟨evs, hl, hf⟩ := ih hw w
    refine ⟨[.emit s.depth x o.core.id p' m] ++ evs, by simp [hl], ?_⟩
    simp only [OutBy] at hf ⊢
    split
    · rename_i hx
      rw [if_pos hx] at hf
      refine ⟨by rw [actsOf_append, actsOf_emit, hf.1]; rfl, ?_⟩
      rw [emittedBy_append, emittedBy_one, hf.2]
      by_cases hp : p' = p <;> simp [hx, hp]
    · rename_i hx
      rw [if_neg hx] at hf
      exact Out.append (.away (by simpa [addr] using hx)) hf
  | @msgsSome s x o p' m ms acc cs fuel s1 r s2 r' s3 ho hcn hdl h h2 ih ih2 =>
    intro ob hw w
    have hst0 := deliverAll_steps (S := Any) fuel (x, p') m cs (s.ev (.emit s.depth x o.core.id p' m)) (ctx_any hw) (fun _ _ => trivial)
    rw [hdl] at hst0
    have hw1 : SameShape s.heap s1.heap := hst0.shape
    have hw1' := hw1.wf hw
    obtain ⟨_, evs0, hl0, hr0, _⟩ := deliverAll_log fuel x p' m cs (s.ev (.emit s.depth x o.core.id p' m)) _ hw hdl
    have w1 : Calm s1.heap b (after ob (actsOf b evs0)) :=
      Calm.step (s := s.ev (.emit s.depth x o.core.id p' m)) hw ⟨w.here, w.simple, w.ports, w.noBack⟩ hst0 hl0
    obtain ⟨evs, hl, hf⟩ := ih hw1' w1
    have hst1 := h.steps (S := Any) (ctx_any hw1') (starts_any _)
    have w2 := w1.step hw1' hst1 hl
    obtain ⟨evs2, hl2, hf2⟩ := ih2 (hst1.shape.wf hw1') w2
    refine ⟨[.emit s.depth x o.core.id p' m] ++ (evs0 ++ (evs ++ evs2)), by rw [hl2, hl, hl0]; simp, ?_⟩
    simp only [OutBy] at hf hf2 ⊢
    split
    · rename_i hx
      rw [if_pos hx] at hf2
      subst hx
      have := w.here.symm.trans ho; cases this
      have haway : ∀ c ∈ cs, Away s.heap x c.target := fun c hc => w.noBack _ (mem_connsOf ho hcn hc)
      have hq0 : ∀ e ∈ evs0, addr e ≠ x := by
        intro e he hc
        have hst := deliverAll_steps (S := Away s.heap x) fuel (x, p') m cs (s.ev (.emit s.depth x o.core.id p' m))
          ⟨hw, closed_away _ _⟩ haway
        rw [hdl] at hst
        obtain ⟨evs', k1, k2, _⟩ := hst.trace
        have := log_cancel hl0 k1
        subst this
        have := k2 e he
        rw [hc] at this
        exact this .refl
      have hq1 : ∀ e ∈ evs, addr e ≠ x := by
        intro e he hc
        have := h.within (S := Away s1.heap x) ⟨hw1', closed_away _ _⟩ (fun c hc => (away_shape hw1 _ _).2 (haway c hc)) hl e he
        rw [hc] at this
        exact this .refl
      refine ⟨by rw [actsOf_append, actsOf_append, actsOf_append, actsOf_emit, actsOf_away hq0, actsOf_away hq1, hf2.1]; rfl, ?_⟩
      rw [emittedBy_append, emittedBy_append, emittedBy_append, emittedBy_one, emittedBy_away hq0, emittedBy_away hq1, hf2.2]
      by_cases hp : p' = p <;> simp [hp]
    · rename_i hx
      rw [if_neg hx] at hf2
      refine Out.append (.away (by simpa [addr] using hx)) ?_
      exact Out.append (.recv hr0) (Out.append hf hf2)
  | connsNil => intro ob _ _; exact ⟨[], by simp, Out.nil⟩
  | @connsCons s c cs t acc ctrl r s1 r' s2 ho hp h h2 ih ih2 =>
    intro ob hw w
    obtain ⟨evs, hl, hf, _⟩ := ih hw w
    have w1 := w.step hw (h.steps (S := Any) (ctx_any hw) (starts_any _)) hl
    obtain ⟨evs2, hl2, hf2⟩ := ih2 ((h.shape hw).wf hw) w1
    exact ⟨evs ++ evs2, by rw [hl2, hl, List.append_assoc], Out.append hf hf2⟩
  | connsSkip ho hdd hcc h2 ih2 => intro ob hw w; exact ih2 hw w
  | keysNil => intro ob _ _; exact ⟨[], by simp, Out.nil⟩
  | @keysCons s inputs k ks t acc r s1 r' s2 ht h h2 ih ih2 =>
    intro ob hw w
    obtain ⟨evs, hl, hf, _⟩ := ih hw w
    have w1 := w.step hw (h.steps (S := Any) (ctx_any hw) (starts_any _)) hl
    obtain ⟨evs2, hl2, hf2⟩ := ih2 ((h.shape hw).wf hw) w1
    exact ⟨evs ++ evs2, by rw [hl2, hl, List.append_assoc], Out.append hf hf2⟩

end out

/-! ## Calls of a program -/

theorem feed_ok {fuel x : Nat} {p : Str} {m : Msg V} {s s' : St V} {r : ProgMsg V} (h : feed fuel x p m s = .ok r s') :
    ∃ s1, recvData fuel none x m p s = .ok () s1 ∧ exec fuel false x s1 = .ok r s' := by
  unfold feed at h
  simp only [bind, M.bind] at h
  split at h
  · rename_i u s1 h1; exact ⟨s1, h1, h⟩
  · cases h

theorem fold_rel {σ α β : Type} {f : β → α → M σ β} {R : σ → σ → Prop} (hr : ∀ s, R s s) (ht : ∀ s s' s'', R s s' → R s' s'' → R s s'') (l : List α)
    (hf : ∀ y, ∀ x ∈ l, ∀ s y' s', f y x s = .ok y' s' → R s s') : ∀ y s y' s', M.fold f l y s = .ok y' s' → R s s' := by
  induction l with
  | nil => intro y s y' s' h; cases h; exact hr s
  | cons x l ih =>
    intro y s y' s' h
    rw [fold_cons] at h
    split at h
    · rename_i y1 s1 h1
      exact ht _ _ _ (hf y x (by simp) _ _ _ h1) (ih (fun y x hx => hf y x (by simp [hx])) _ _ _ _ h)
    · cases h

/-- Relation between the states around successful calls: `b` is fed from `a`. -/
def FedRel (a : Nat) (p : Str) (b : Nat) (q : Str) (s s' : St V) : Prop :=
  HeapWF s.heap → Wire s.heap a p b q → SameShape s.heap s'.heap ∧ ∃ evs, s'.log = s.log ++ evs ∧ Fed a p b q evs

theorem FedRel.refl {a b : Nat} {p q : Str} (s : St V) : FedRel a p b q s s := fun _ _ => ⟨.refl _, [], by simp, Fed.nil⟩
theorem FedRel.trans {a b : Nat} {p q : Str} (s s' s'' : St V) (h : FedRel a p b q s s') (h' : FedRel a p b q s' s'') : FedRel a p b q s s'' := by
  intro hw w
  obtain ⟨h1, evs, h2, h3⟩ := h hw w
  obtain ⟨k1, evs', k2, k3⟩ := h' (h1.wf hw) (w.shape h1)
  exact ⟨h1.trans k1, evs ++ evs', by rw [k2, h2, List.append_assoc], h3.append k3⟩

theorem feed_fed {a b : Nat} {p q : Str} {fuel x : Nat} {port : Str} {m : Msg V} {s s' : St V} {r : ProgMsg V} (hx : x ≠ b)
    (h : feed fuel x port m s = .ok r s') : FedRel a p b q s s' := by
  intro hw w
  obtain ⟨s1, h1, h2⟩ := feed_ok h
  have st := recvData_steps Any fuel s none x m port (ctx_any hw) trivial
  rw [h1] at st
  have hsh : SameShape s.heap s1.heap := st.shape
  obtain ⟨evs0, hl0, hi0⟩ := recvData_inner fuel _ _ _ _ _ _ h1
  have hrun := exec_run fuel _ _ _ _ _ h2
  obtain ⟨evs, hl, hf⟩ := hrun.fed (hsh.wf hw) (w.shape hsh)
  simp only [FedBy, if_neg hx, List.nil_append] at hf
  refine ⟨hsh.trans (hrun.shape (hsh.wf hw)), (Ev.recv none x port false m :: evs0) ++ evs, by rw [hl, hl0, List.append_assoc], Fed.append ?_ hf⟩
  unfold Fed
  rw [actsOf_away, emittedBy_recv]
  · rfl
  · intro e he
    rcases List.mem_cons.1 he with h | h
    · subst h; rfl
    · exact (hi0 e h).1
  · intro e he hc
    rcases List.mem_cons.1 he with h | h
    · subst h; exact hx hc
    · exact w.not_inner (hc ▸ (hi0 e h).2)

theorem feedAll_fed {a b : Nat} {p q : Str} {fuel x : Nat} {msgs : OpMsg V} {s s' : St V} {r : ProgMsg V} (hx : x ≠ b)
    (h : feedAll fuel x msgs s = .ok r s') : FedRel a p b q s s' := by
  refine fold_rel FedRel.refl FedRel.trans msgs (fun y pm _ s y' s' h => ?_) _ _ _ _ h
  refine fold_rel FedRel.refl FedRel.trans pm.2 (fun y m _ s y' s' h => ?_) _ _ _ _ h
  simp only [bind, M.bind] at h
  split at h
  · rename_i r s1 h1; cases h; exact feed_fed hx h1
  · cases h

theorem debugRun_fed {a b : Nat} {p q : Str} {fuel x : Nat} (hx : x ≠ b) (calls : List (OpMsg V)) : ∀ {P P' : Prog V} {rs},
    P.ops.find? P.entry = some x → debugRun fuel calls P = .ok rs P' → FedRel a p b q P.st P'.st := by
  induction calls with
  | nil => intro P P' rs _ h; cases h; exact FedRel.refl _
  | cons msgs calls ih =>
    intro P P' rs he h
    simp only [debugRun] at h
    split at h
    · cases h
    · rename_i r P1 h1
      split at h
      · cases h
      · rename_i rs' P2 h2
        cases h
        have hfr := receiveDebug_frame (fuel := fuel) (P := P) (msgs := msgs)
        rw [h1] at hfr
        have he1 : P1.ops.find? P1.entry = some x := by rw [show P1.ops = P.ops from hfr.2.1, show P1.entry = P.entry from hfr.2.2.1, he]
        refine FedRel.trans _ _ _ ?_ (ih he1 h2)
        unfold Prog.receiveDebug at h1
        rw [he] at h1
        dsimp only at h1
        split at h1
        · rename_i r' s' hfa; cases h1; exact feedAll_fed hx hfa
        · cases h1

/-- Relation between the states around successful calls: what `b` emits, and what is done to it when it is the entry. -/
def OutRel (x b : Nat) (p : Str) (acts : List (Act V)) (s s' : St V) : Prop :=
  ∀ o, HeapWF s.heap → Calm s.heap b o → SameShape s.heap s'.heap ∧ ∃ evs, s'.log = s.log ++ evs ∧ Calm s'.heap b (after o (actsOf b evs)) ∧
    Out b p o evs ∧ (x = b → actsOf b evs = acts)

theorem OutRel.refl {x b : Nat} {p : Str} (s : St V) : OutRel x b p [] s s := fun _ _ c => ⟨.refl _, [], by simp, c, Out.nil, fun _ => rfl⟩
theorem OutRel.trans {x b : Nat} {p : Str} {as as' : List (Act V)} {s s' s'' : St V} (h : OutRel x b p as s s') (h' : OutRel x b p as' s' s'') :
    OutRel x b p (as ++ as') s s'' := by
  intro o hw c
  obtain ⟨h1, evs, h2, h3, h4, h5⟩ := h o hw c
  obtain ⟨k1, evs', k2, k3, k4, k5⟩ := h' _ (h1.wf hw) h3
  refine ⟨h1.trans k1, evs ++ evs', by rw [k2, h2, List.append_assoc], ?_, h4.append k4, fun hx => by rw [actsOf_append, h5 hx, k5 hx]⟩
  rw [actsOf_append, after_append]; exact k3

theorem feed_out {b : Nat} {p : Str} {fuel x : Nat} {port : Str} {m : Msg V} {s s' : St V} {r : ProgMsg V}
    (h : feed fuel x port m s = .ok r s') : OutRel x b p [.recvData port m, .execData] s s' := by
  intro o hw c
  obtain ⟨s1, h1, h2⟩ := feed_ok h
  have st := recvData_steps Any fuel s none x m port (ctx_any hw) trivial
  rw [h1] at st
  have hsh : SameShape s.heap s1.heap := st.shape
  obtain ⟨_, evs0, hl0, hi0⟩ := recvData_log fuel _ _ _ _ _ _ h1
  have hrun := exec_run fuel _ _ _ _ _ h2
  have c1 := c.step hw st hl0
  have hw1 := hsh.wf hw
  obtain ⟨evs, hl, hf, ha⟩ := hrun.out (p := p) hw1 c1
  have st2 := hrun.steps (S := Any) (ctx_any hw1) (starts_any _)
  have c2 := c1.step hw1 st2 hl
  refine ⟨hsh.trans st2.shape, (Ev.recv none x port false m :: evs0) ++ evs, by rw [hl, hl0, List.append_assoc], ?_, ?_, ?_⟩
  · rw [actsOf_append, after_append]; exact c2
  · refine Out.append (.recv ?_) hf
    intro e he
    rcases List.mem_cons.1 he with h | h
    · subst h; rfl
    · exact (hi0 e h).1
  · intro hx
    subst hx
    have : evs0 = [] := by
      cases fuel with
      | zero => cases h1
      | succ fuel =>
        rw [recvData_simple c.here c.simple] at h1
        simp only [localRun, c.here] at h1
        split at h1
        · cases h1
          have hl0' : s.log ++ [Ev.recv none x port false m] = s.log ++ Ev.recv none x port false m :: evs0 := hl0
          have := List.append_cancel_left hl0'
          simpa using this.symm
        · cases h1
    rw [this, actsOf_append, ha rfl]
    simp [actsOf, actOf]

theorem feedPort_out {b : Nat} {p : Str} {fuel x : Nat} {port : Str} (ms : PortMsg V) : ∀ {out : ProgMsg V} {s s' : St V} {r : ProgMsg V},
    feedPort fuel x port ms out s = .ok r s' → OutRel x b p (inTurn port ms) s s' := by
  induction ms with
  | nil => intro out s s' r h; cases h; exact OutRel.refl _
  | cons m ms ih =>
    intro out s s' r h
    rw [feedPort_cons] at h
    split at h
    · rename_i r1 s1 h1
      exact OutRel.trans (feed_out h1) (ih h)
    · cases h

theorem feedAll_out {b : Nat} {p : Str} {fuel x : Nat} (msgs : OpMsg V) : ∀ {out : ProgMsg V} {s s' : St V} {r : ProgMsg V},
    M.fold (fun out (pm : Str × PortMsg V) => feedPort fuel x pm.1 pm.2 out) msgs out s = .ok r s' →
    OutRel x b p (msgs.flatMap fun e => inTurn e.1 e.2) s s' := by
  induction msgs with
  | nil => intro out s s' r h; cases h; exact OutRel.refl _
  | cons e msgs ih =>
    intro out s s' r h
    rw [fold_cons] at h
    split at h
    · rename_i r1 s1 h1
      exact OutRel.trans (feedPort_out _ h1) (ih h)
    · cases h

theorem debugRun_out {b : Nat} {p : Str} {fuel x : Nat} (calls : List (OpMsg V)) : ∀ {P P' : Prog V} {rs},
    P.ops.find? P.entry = some x → debugRun fuel calls P = .ok rs P' → OutRel x b p (handed calls) P.st P'.st := by
  induction calls with
  | nil => intro P P' rs _ h; cases h; exact OutRel.refl _
  | cons msgs calls ih =>
    intro P P' rs he h
    simp only [debugRun] at h
    split at h
    · cases h
    · rename_i r P1 h1
      split at h
      · cases h
      · rename_i rs' P2 h2
        cases h
        have hfr := receiveDebug_frame (fuel := fuel) (P := P) (msgs := msgs)
        rw [h1] at hfr
        have he1 : P1.ops.find? P1.entry = some x := by rw [show P1.ops = P.ops from hfr.2.1, show P1.entry = P.entry from hfr.2.2.1, he]
        refine OutRel.trans ?_ (ih he1 h2)
        unfold Prog.receiveDebug at h1
        rw [he] at h1
        dsimp only at h1
        split at h1
        · rename_i r' s' hfa; cases h1; exact feedAll_out _ hfa
        · cases h1

/-! ## Stream functions -/

theorem feedOp_collected (p q : Str) (ms : List (Msg V)) : ∀ {o o' : Op V} {outs : List (OpMsg V)}, feedOp o q ms = .ok outs o' →
    collected p (results o (inTurn q ms)) = emittedOn p outs := by
  induction ms with
  | nil => intro o o' outs h; cases h; rfl
  | cons m ms ih =>
    intro o o' outs h
    simp only [feedOp] at h
    split at h
    · cases h
    · rename_i out o1 h1
      split at h
      · cases h
      · rename_i outs' o2 h2
        cases h
        unfold step at h1
        cases hr : o.recvData m q with
        | error e => rw [hr] at h1; cases h1
        | ok o0 =>
          rw [hr] at h1
          dsimp only at h1
          have h3 := ih h2
          have : inTurn q (m :: ms) = .recvData q m :: .execData :: inTurn q ms := rfl
          rw [this]
          simp only [results, act, hr, h1]
          unfold collected emittedOn at *
          rw [List.flatMap_cons, List.flatMap_cons, h3, List.flatMap_cons]
          rfl

/-! ## Reports -/

/-- All emissions are logged with the right id and at depth `d`. -/
def Honest (h : Nat → Option (Op V)) (d : Nat) (evs : List (Ev V)) : Prop :=
  ∀ d' a id p m, Ev.emit d' a id p m ∈ evs → d' = d ∧ ∃ o, h a = some o ∧ o.core.id = id

def AllSimple (h : Nat → Option (Op V)) : Prop := ∀ b o, h b = some o → Simple o

theorem SameShape.allSimple {h h' : Nat → Option (Op V)} (hs : SameShape h h') (ha : AllSimple h) : AllSimple h' := by
  intro b o ho
  obtain ⟨o', k1, k2⟩ := hs.get' ho
  exact (simple_of_fresh k2).1 (ha b o' k1)

theorem Honest.shape {h h' : Nat → Option (Op V)} {d : Nat} {evs : List (Ev V)} (hs : SameShape h h') (hh : Honest h' d evs) : Honest h d evs := by
  intro d' a id p m he
  obtain ⟨k1, o, k2, k3⟩ := hh d' a id p m he
  obtain ⟨o', k4, k5⟩ := hs.get' k2
  exact ⟨k1, o', k4, by rw [id_of_fresh k5]; exact k3⟩

theorem Honest.nil {h : Nat → Option (Op V)} {d : Nat} : Honest h d ([] : List (Ev V)) := fun _ _ _ _ _ h => by cases h
theorem Honest.append {h : Nat → Option (Op V)} {d : Nat} {l l' : List (Ev V)} (a : Honest h d l) (b : Honest h d l') : Honest h d (l ++ l') := by
  intro d' x id p m he
  rcases List.mem_append.1 he with he | he
  · exact a _ _ _ _ _ he
  · exact b _ _ _ _ _ he

theorem Honest.recv {h : Nat → Option (Op V)} {d : Nat} {l : List (Ev V)} (a : ∀ e ∈ l, isRecv e = true) : Honest h d l := by
  intro d' x id p m he
  have := a _ he
  cases this

theorem Run.honest {c : Call V} {s s' : St V} {r : ProgMsg V} (h : Run c s r s') : HeapWF s.heap → AllSimple s.heap →
    s'.depth = s.depth ∧ ∃ evs, s'.log = s.log ++ evs ∧ Honest s.heap s.depth evs := by
  have pair : ∀ {s s1 s2 : St V}, SameShape s.heap s1.heap → (s1.depth = s.depth ∧ ∃ evs, s1.log = s.log ++ evs ∧ Honest s.heap s.depth evs) →
      (s2.depth = s1.depth ∧ ∃ evs, s2.log = s1.log ++ evs ∧ Honest s1.heap s1.depth evs) →
      s2.depth = s.depth ∧ ∃ evs, s2.log = s.log ++ evs ∧ Honest s.heap s.depth evs := by
    rintro s s1 s2 hs ⟨d1, e1, l1, h1⟩ ⟨d2, e2, l2, h2⟩
    rw [d1] at h2
    exact ⟨d2.trans d1, e1 ++ e2, by rw [l2, l1, List.append_assoc], h1.append (h2.shape hs)⟩
  induction h with
  | comp ho hk h ih => intro hw ha; have := ha _ _ ho; simp [Simple, hk] at this
  | pipeCtrl ho hk => intro hw ha; have := ha _ _ ho; simp [Simple, hk] at this
  | pipeNone ho hk h ho1 ih => intro hw ha; have := ha _ _ ho; simp [Simple, hk] at this
  | pipeSome ho hk h hr ho1 hout h2 ih ih2 => intro hw ha; have := ha _ _ ho; simp [Simple, hk] at this
  | @simple s x o ctrl out o' r s' ho hs hx h ih =>
    intro hw ha
    have hsh : SameShape s.heap (St.setOp (s.ev (.exec x ctrl)) x o').heap := setOp_shape (s := s.ev (.exec x ctrl)) ho (execWith_fresh hx)
    refine pair hsh ⟨rfl, [.exec x ctrl], rfl, ?_⟩ (ih (hsh.wf hw) (hsh.allSimple ha))
    intro d' a id p m he
    simp at he
  | portsNil => intro _ _; exact ⟨rfl, [], by simp, Honest.nil⟩
  | portsCons ho hp h h2 ih ih2 =>
    intro hw ha
    have hsh := h.shape hw
    exact pair hsh (ih hw ha) (ih2 (hsh.wf hw) (hsh.allSimple ha))
  | msgsNil => intro _ _; exact ⟨rfl, [], by simp, Honest.nil⟩
  | @msgsNone s x o p' m ms acc r s' ho hcn h ih =>
    intro hw ha
    refine pair (s1 := s.ev (.emit s.depth x o.core.id p' m)) (SameShape.refl _) ⟨rfl, [.emit s.depth x o.core.id p' m], rfl, ?_⟩ (ih hw ha)
    intro d' a id p m he
    simp only [List.mem_singleton, Ev.emit.injEq] at he
    obtain ⟨rfl, rfl, rfl, _⟩ := he
    exact ⟨rfl, o, ho, rfl⟩
  | @msgsSome s x o p' m ms acc cs fuel s1 r s2 r' s3 ho hcn hdl h h2 ih ih2 =>
    intro hw ha
    have hst0 := deliverAll_steps (S := Any) fuel (x, p') m cs (s.ev (.emit s.depth x o.core.id p' m)) (ctx_any hw) (fun _ _ => trivial)
    rw [hdl] at hst0
    have hw1 : SameShape s.heap s1.heap := hst0.shape
    have hw1' := hw1.wf hw
    obtain ⟨hd0, evs0, hl0, hr0, _⟩ := deliverAll_log fuel x p' m cs (s.ev (.emit s.depth x o.core.id p' m)) _ hw hdl
    have hsh2 := h.shape hw1'
    refine pair (hw1.trans hsh2) (pair hw1 ⟨hd0, [.emit s.depth x o.core.id p' m] ++ evs0, by rw [hl0]; simp, ?_⟩ (ih hw1' (hw1.allSimple ha)))
      (ih2 (hsh2.wf hw1') (hsh2.allSimple (hw1.allSimple ha)))
    refine Honest.append ?_ (.recv hr0)
    intro d' a id p m he
    simp only [List.mem_singleton, Ev.emit.injEq] at he
    obtain ⟨rfl, rfl, rfl, _⟩ := he
    exact ⟨rfl, o, ho, rfl⟩
  | connsNil => intro _ _; exact ⟨rfl, [], by simp, Honest.nil⟩
  | connsCons ho hp h h2 ih ih2 =>
    intro hw ha
    have hsh := h.shape hw
    exact pair hsh (ih hw ha) (ih2 (hsh.wf hw) (hsh.allSimple ha))
  | connsSkip ho hdd hcc h2 ih2 => intro hw ha; exact ih2 hw ha
  | keysNil => intro _ _; exact ⟨rfl, [], by simp, Honest.nil⟩
  | keysCons ht h h2 ih ih2 =>
    intro hw ha
    have hsh := h.shape hw
    exact pair hsh (ih hw ha) (ih2 (hsh.wf hw) (hsh.allSimple ha))

/-- Relation between the states around successful calls: emissions are logged truthfully. -/
def HonestRel (s s' : St V) : Prop :=
  HeapWF s.heap → AllSimple s.heap → SameShape s.heap s'.heap ∧ s'.depth = s.depth ∧ ∃ evs, s'.log = s.log ++ evs ∧ Honest s.heap s.depth evs

theorem HonestRel.refl (s : St V) : HonestRel s s := fun _ _ => ⟨.refl _, rfl, [], by simp, Honest.nil⟩
theorem HonestRel.trans (s s' s'' : St V) (h : HonestRel s s') (h' : HonestRel s' s'') : HonestRel s s'' := by
  intro hw ha
  obtain ⟨h1, d1, evs, h2, h3⟩ := h hw ha
  obtain ⟨k1, d2, evs', k2, k3⟩ := h' (h1.wf hw) (h1.allSimple ha)
  rw [d1] at k3
  exact ⟨h1.trans k1, d2.trans d1, evs ++ evs', by rw [k2, h2, List.append_assoc], h3.append (k3.shape h1)⟩

theorem feedAll_honest {fuel x : Nat} {msgs : OpMsg V} {s s' : St V} {r : ProgMsg V}
    (h : feedAll fuel x msgs s = .ok r s') : HonestRel s s' := by
  refine fold_rel HonestRel.refl HonestRel.trans msgs (fun y pm _ s y' s' h => ?_) _ _ _ _ h
  refine fold_rel HonestRel.refl HonestRel.trans pm.2 (fun y m _ s y' s' h => ?_) _ _ _ _ h
  simp only [bind, M.bind] at h
  split at h
  case h_2 => cases h
  rename_i r s1 h1; cases h
  intro hw ha
  obtain ⟨s2, h2, h3⟩ := feed_ok h1
  have st := recvData_steps Any fuel s none x m pm.1 (ctx_any hw) trivial
  rw [h2] at st
  have hsh : SameShape s.heap s2.heap := st.shape
  obtain ⟨hd, evs0, hl0, hi0⟩ := recvData_log fuel _ _ _ _ _ _ h2
  have hrun := exec_run fuel _ _ _ _ _ h3
  obtain ⟨hd2, evs, hl, hf⟩ := hrun.honest (hsh.wf hw) (hsh.allSimple ha)
  rw [hd] at hf
  refine ⟨hsh.trans (hrun.shape (hsh.wf hw)), hd2.trans hd, (Ev.recv none x pm.1 false m :: evs0) ++ evs, by rw [hl, hl0, List.append_assoc],
    Honest.append (.recv ?_) (hf.shape hsh)⟩
  intro e he
  rcases List.mem_cons.1 he with h | h
  · subst h; rfl
  · exact (hi0 e h).1

theorem debugRun_honest {fuel : Nat} (calls : List (OpMsg V)) : ∀ {P P' : Prog V} {rs},
    debugRun fuel calls P = .ok rs P' → HonestRel P.st P'.st := by
  induction calls with
  | nil => intro P P' rs h; cases h; exact HonestRel.refl _
  | cons msgs calls ih =>
    intro P P' rs h
    simp only [debugRun] at h
    split at h
    · cases h
    · rename_i r P1 h1
      split at h
      · cases h
      · rename_i rs' P2 h2
        cases h
        refine HonestRel.trans _ _ _ ?_ (ih h2)
        unfold Prog.receiveDebug at h1
        split at h1
        · cases h1
        · split at h1
          · rename_i r' s' hfa; cases h1; exact feedAll_honest hfa
          · cases h1

theorem debugRun_listed {fuel : Nat} (calls : List (OpMsg V)) : ∀ {P P' : Prog V} {rs}, HeapWF P.st.heap →
    debugRun fuel calls P = .ok rs P' → P'.st.depth = P.st.depth ∧
      ∃ evs, P'.st.log = P.st.log ++ evs ∧ ∀ id p, (rs.flatMap fun r => listed r id p) = emitted P.st.depth id p evs := by
  induction calls with
  | nil => intro P P' rs _ h; cases h; exact ⟨rfl, [], by simp, fun _ _ => rfl⟩
  | cons msgs calls ih =>
    intro P P' rs hw h
    simp only [debugRun] at h
    split at h
    · cases h
    · rename_i r P1 h1
      split at h
      · cases h
      · rename_i rs' P2 h2
        cases h
        obtain ⟨hd, evs, hl, hL⟩ := receiveDebug_log hw h1
        have st := receiveDebug_steps (S := Any) (fuel := fuel) (msgs := msgs) (ctx_any hw) (fun _ _ => trivial)
        rw [h1] at st
        obtain ⟨hd2, evs2, hl2, hL2⟩ := ih (P := P1) (st.shape.wf hw) h2
        rw [hd] at hL2
        refine ⟨hd2.trans hd, evs ++ evs2, by rw [hl2, hl, List.append_assoc], fun id p => ?_⟩
        rw [List.flatMap_cons, hL2, hL.report, emitted_append, listed_nil, List.nil_append]

/-- With distinct ids, the emissions under an id are the emissions of the operator with that id. -/
theorem emitted_by {h : Nat → Option (Op V)} {d b : Nat} {o : Op V} {evs : List (Ev V)} (hh : Honest h d evs) (ho : h b = some o)
    (hu : ∀ x o', h x = some o' → o'.core.id = o.core.id → x = b) (p : Str) : emitted d o.core.id p evs = emittedBy b p evs := by
  unfold emitted emittedBy
  refine List.filterMap_congr fun e he => ?_
  cases e with
  | emit d' a id p' m =>
    obtain ⟨k1, o', k2, k3⟩ := hh d' a id p' m he
    by_cases hab : a = b
    · subst hab
      rw [ho] at k2; cases k2
      simp [k1, k3]
    · have : id ≠ o.core.id := fun hid => hab (hu a o' k2 (k3.trans hid))
      simp [hab, this]
  | _ => rfl

end Rtbot
