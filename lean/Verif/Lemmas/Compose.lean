import Verif.Spec.Compose
import Verif.Lemmas.Report
import Verif.Lemmas.Program
import Verif.Lemmas.PortRun

/-! # Logs of composed programs -/

set_option linter.unusedSectionVars false

namespace Rtbot
variable {V : Type} [Num V]
open Spec

theorem SameShape.reach {h h' : Nat → Option (Op V)} (hs : SameShape h h') {a b : Nat} : Reach h' a b ↔ Reach h a b := by
  constructor
  · intro hr
    induction hr with
    | refl => exact .refl
    | step _ e ih => exact .step ih (hs.edge.1 e)
  · intro hr
    induction hr with
    | refl => exact .refl
    | step _ e ih => exact .step ih (hs.edge.2 e)

theorem reach_head {h : Nat → Option (Op V)} {a b c : Nat} (e : Edge h a b) (hr : Reach h b c) : Reach h a c := by
  induction hr with
  | refl => exact .step .refl e
  | step _ e' ih => exact .step ih e'

/-- The operators from which `a` cannot be reached. -/
def Away (h : Nat → Option (Op V)) (a : Nat) (x : Nat) : Prop := ¬ Reach h x a

theorem closed_away (h : Nat → Option (Op V)) (a : Nat) : Closed (Away h a) h := fun _ _ hx e hr => hx (reach_head e hr)

theorem Spec.Wire.shape {h h' : Nat → Option (Op V)} {a b : Nat} {p q : Str} (w : Wire h a p b q) (hs : SameShape h h') : Wire h' a p b q := by
  obtain ⟨⟨o, h1, h2⟩, ⟨t, h3, h4, h5⟩, h6, h7, h8⟩ := w
  obtain ⟨o', k1, k2⟩ := hs.get h1
  obtain ⟨t', k3, k4⟩ := hs.get h3
  refine ⟨⟨o', k1, (simple_of_fresh k2).2 h2⟩, ⟨t', k3, (simple_of_fresh k4).2 h4, by rw [has_of_fresh k4]; exact h5⟩,
    fun x hx => h6 x (hs.edge.1 hx), fun p' => by rw [connsOf_shape hs]; exact h7 p', fun x hx hr => h8 x (hs.edge.1 hx) (hs.reach.1 hr)⟩

/-! ## Events and lists -/

theorem inTurn_append (q : Str) (l l' : List (Msg V)) : inTurn q (l ++ l') = inTurn q l ++ inTurn q l' := List.flatMap_append
theorem emittedBy_append (a : Nat) (p : Str) (l l' : List (Ev V)) : emittedBy a p (l ++ l') = emittedBy a p l ++ emittedBy a p l' :=
  List.filterMap_append

theorem emittedBy_away {a : Nat} {p : Str} {l : List (Ev V)} (h : ∀ e ∈ l, addr e ≠ a) : emittedBy a p l = [] := by
  unfold emittedBy
  rw [List.filterMap_eq_nil_iff]
  intro e he
  have := h e he
  cases e with
  | emit d a' id p' m =>
    simp only [addr] at this
    simp [this]
  | _ => rfl

theorem emittedBy_recv {a : Nat} {p : Str} {l : List (Ev V)} (h : ∀ e ∈ l, isRecv e = true) : emittedBy a p l = [] := by
  unfold emittedBy
  rw [List.filterMap_eq_nil_iff]
  intro e he
  have := h e he
  cases e with
  | emit => cases this
  | _ => rfl

theorem actOf_away {b : Nat} {e : Ev V} (h : addr e ≠ b) : actOf b e = none := by
  cases e with
  | emit => rfl
  | recv f a p c m => simp only [addr] at h; cases c <;> simp [actOf, h]
  | exec a c => simp only [addr] at h; cases c <;> simp [actOf, h]

theorem actsOf_away {b : Nat} {l : List (Ev V)} (h : ∀ e ∈ l, addr e ≠ b) : actsOf b l = [] := by
  unfold actsOf
  rw [List.filterMap_eq_nil_iff]
  exact fun e he => actOf_away (h e he)

theorem actsOf_emit (b d a : Nat) (id p : Str) (m : Msg V) : actsOf b [.emit d a id p m] = [] := rfl

theorem emittedBy_one (a d a' : Nat) (id p p' : Str) (m : Msg V) :
    emittedBy a p [.emit d a' id p' m] = if a' = a ∧ p' = p then [m] else [] := by
  simp only [emittedBy, List.filterMap_cons, List.filterMap_nil]
  split <;> simp_all

theorem actsOf_exec (b a : Nat) (c : Bool) : actsOf b [(.exec a c : Ev V)] = if a = b then [if c then .execCtrl else .execData] else [] := by
  simp only [actsOf, List.filterMap_cons, List.filterMap_nil]
  cases c <;> by_cases h : a = b <;> simp [actOf, h]

theorem emittedBy_exec (b : Nat) (p : Str) (a : Nat) (c : Bool) : emittedBy b p [(.exec a c : Ev V)] = [] := rfl

theorem log_cancel {l : List (Ev V)} {x y z : List (Ev V)} (h1 : l = x ++ y) (h2 : l = x ++ z) : y = z :=
  List.append_cancel_left (h1.symm.trans h2)

/-- A run that starts in a closed set logs only events of that set. -/
theorem Run.within {S : Nat → Prop} {c : Call V} {s s' : St V} {r : ProgMsg V} (h : Run c s r s') (hc : Ctx S s) (hS : c.starts S)
    {evs : List (Ev V)} (hl : s'.log = s.log ++ evs) : ∀ e ∈ evs, S (addr e) := by
  obtain ⟨evs', h1, h2, _⟩ := (h.steps hc hS).trace
  rw [log_cancel hl h1]; exact h2

/-! ## Deliveries -/

/-- Inner operators of composites and pipelines. -/
def Inner (h : Nat → Option (Op V)) (y : Nat) : Prop := ∃ x o, h x = some o ∧ ¬ Simple o ∧ y ∈ nexts o

theorem SameShape.inner {h h' : Nat → Option (Op V)} (hs : SameShape h h') {y : Nat} : Inner h' y → Inner h y := by
  rintro ⟨x, o, h1, h2, h3⟩
  obtain ⟨o', k1, k2⟩ := hs.get' h1
  exact ⟨x, o', k1, fun h => h2 ((simple_of_fresh k2).1 h), by rw [nexts_of_fresh k2]; exact h3⟩

theorem recvData_inner (fuel : Nat) : ∀ (s s' : St V) frm a m p, recvData fuel frm a m p s = .ok () s' →
    ∃ evs, s'.log = s.log ++ Ev.recv frm a p false m :: evs ∧ ∀ e ∈ evs, isRecv e = true ∧ Inner s.heap (addr e) := by
  induction fuel with
  | zero => intro s s' frm a m p h; cases h
  | succ fuel ih =>
    intro s s' frm a m p h
    cases ho : s.heap a with
    | none => rw [recvData_none ho] at h; cases h
    | some o =>
      rcases kind_cases o with ⟨i, q, hk⟩ | ⟨q, hk⟩ | ⟨inputs, outs, pm, hk⟩ | hs
      · rw [recvData_comp ho hk] at h
        obtain ⟨evs, h2, h3⟩ := ih _ _ _ _ _ _ h
        have hin : Inner s.heap i := ⟨a, o, ho, by simp [Simple, hk], by simp [nexts, hk]⟩
        refine ⟨Ev.recv none i p false m :: evs, by simp [h2], ?_⟩
        intro e he
        rcases List.mem_cons.1 he with h | h
        · subst h; exact ⟨rfl, hin⟩
        · exact h3 e h
      · rw [recvData_comp' ho hk] at h; cases h
      · rw [recvData_pipe ho hk] at h
        split at h
        · cases h
        · rename_i key hkey
          split at h
          · cases h
          · rename_i t ht
            split at h
            · cases h
            · rename_i s1 h1
              obtain ⟨evs, h2, h3⟩ := ih _ _ _ _ _ _ h1
              have hin : Inner s.heap t := ⟨a, o, ho, by simp [Simple, hk], by
                simp only [nexts, hk, List.mem_append]
                exact Or.inr (List.mem_map.2 ⟨_, find?_mem ht, rfl⟩)⟩
              have hlog : s'.log = s1.log := by
                simp only [localRun] at h
                split at h
                · cases h
                · cases h; rfl
              refine ⟨Ev.recv none t (split2 key).2 false m :: evs, by rw [hlog, h2]; simp, ?_⟩
              intro e he
              rcases List.mem_cons.1 he with h | h
              · subst h; exact ⟨rfl, hin⟩
              · exact h3 e h
      · rw [recvData_simple ho hs] at h
        simp only [localRun, ho] at h
        split at h
        · cases h; exact ⟨[], rfl, by simp⟩
        · cases h

theorem recvCtrl_inner (fuel : Nat) : ∀ (s s' : St V) frm a m p, recvCtrl fuel frm a m p s = .ok () s' →
    ∃ evs, s'.log = s.log ++ Ev.recv frm a p true m :: evs ∧ ∀ e ∈ evs, isRecv e = true ∧ Inner s.heap (addr e) := by
  induction fuel with
  | zero => intro s s' frm a m p h; cases h
  | succ fuel ih =>
    intro s s' frm a m p h
    cases ho : s.heap a with
    | none => rw [recvCtrl_none ho] at h; cases h
    | some o =>
      have other : (∀ i q, o.kind ≠ .composite i q) → ∃ evs, s'.log = s.log ++ Ev.recv frm a p true m :: evs ∧
          ∀ e ∈ evs, isRecv e = true ∧ Inner s.heap (addr e) := by
        intro hk
        rw [recvCtrl_other ho hk] at h
        simp only [localRun, ho] at h
        split at h
        · cases h; exact ⟨[], rfl, by simp⟩
        · cases h
      rcases kind_cases o with ⟨i, q, hk⟩ | ⟨q, hk⟩ | ⟨inputs, outs, pm, hk⟩ | hs
      · rw [recvCtrl_comp ho hk] at h
        obtain ⟨evs, h2, h3⟩ := ih _ _ _ _ _ _ h
        have hin : Inner s.heap i := ⟨a, o, ho, by simp [Simple, hk], by simp [nexts, hk]⟩
        refine ⟨Ev.recv none i p true m :: evs, by simp [h2], ?_⟩
        intro e he
        rcases List.mem_cons.1 he with h | h
        · subst h; exact ⟨rfl, hin⟩
        · exact h3 e h
      · rw [recvCtrl_comp' ho hk] at h; cases h
      · exact other (by simp [hk])
      · exact other (by intro i q hk; simp [Simple, hk] at hs)

/-- What the delivery loop does to an operator that is no inner operator and is addressed on data ports only. -/
theorem deliverAll_acts (fuel a : Nat) (p : Str) (m : Msg V) (b : Nat) (cs : List Conn) : ∀ (s s' : St V), HeapWF s.heap →
    ¬ Inner s.heap b → (∀ c ∈ cs, c.target = b → ∃ t, s.heap b = some t ∧ t.core.isData c.port = true) →
    M.fold (deliver fuel (a, p) m) cs () s = .ok () s' →
    ∃ evs, s'.log = s.log ++ evs ∧ (∀ e ∈ evs, isRecv e = true) ∧
      actsOf b evs = (cs.filter fun c => c.target = b).map fun c => Act.recvData c.port m := by
  induction cs with
  | nil => intro s s' _ _ _ h; cases h; exact ⟨[], by simp, by simp, rfl⟩
  | cons c cs ih =>
    intro s s' hw hb hd h
    have hst := deliver_steps (S := Any) fuel (a, p) m c s (ctx_any hw) trivial
    rw [fold_cons] at h
    split at h
    case h_2 => cases h
    rename_i s1 h1
    rw [h1] at hst
    have hsh : SameShape s.heap s1.heap := hst.shape
    obtain ⟨evs, hl, hr, ha⟩ := ih s1 s' (hsh.wf hw) (fun h => hb (hsh.inner h)) (by
      intro c' hc' hc
      obtain ⟨t, k1, k2⟩ := hd c' (by simp [hc']) hc
      obtain ⟨t', k3, k4⟩ := hsh.get k1
      exact ⟨t', k3, by rw [isData_of_fresh k4]; exact k2⟩) h
    have inner_acts : ∀ l : List (Ev V), (∀ e ∈ l, isRecv e = true ∧ Inner s.heap (addr e)) → actsOf b l = [] := fun l hl =>
      actsOf_away fun e he hc => hb (hc ▸ (hl e he).2)
    simp only [deliver, M.bind_def, getOp] at h1
    cases ho : s.heap c.target with
    | none => rw [ho] at h1; cases h1
    | some t =>
      rw [ho] at h1
      dsimp only at h1
      have glue : ∀ ctrl evs1, s1.log = s.log ++ Ev.recv (some (a, p)) c.target c.port ctrl m :: evs1 →
          (∀ e ∈ evs1, isRecv e = true ∧ Inner s.heap (addr e)) → (c.target = b → ctrl = false) →
          ∃ evs, s'.log = s.log ++ evs ∧ (∀ e ∈ evs, isRecv e = true) ∧
            actsOf b evs = ((c :: cs).filter fun c => c.target = b).map fun c => Act.recvData c.port m := by
        intro ctrl evs1 g2 g3 g4
        refine ⟨[Ev.recv (some (a, p)) c.target c.port ctrl m] ++ evs1 ++ evs, by simp [hl, g2], ?_, ?_⟩
        · intro e he
          simp only [List.mem_append, List.mem_singleton] at he
          rcases he with (h | h) | h
          · subst h; rfl
          · exact (g3 e h).1
          · exact hr e h
        · rw [actsOf_append, actsOf_append, inner_acts evs1 g3, ha, List.append_nil]
          by_cases hc : c.target = b
          · rw [g4 hc]
            simp [actsOf, actOf, hc]
          · rw [actsOf_away (l := [_]) (by simpa [addr] using hc)]
            simp [hc]
      by_cases hdt : t.core.isData c.port = true
      · rw [if_pos hdt] at h1
        obtain ⟨evs1, g2, g3⟩ := recvData_inner fuel _ _ _ _ _ _ h1
        exact glue false evs1 g2 g3 fun _ => rfl
      · rw [if_neg hdt] at h1
        have hnb : c.target ≠ b := by
          intro hc
          obtain ⟨t', k1, k2⟩ := hd c (by simp) hc
          rw [← hc, ho] at k1
          cases k1
          exact hdt k2
        by_cases hct : t.core.isCtrl c.port = true
        · rw [if_pos hct] at h1
          obtain ⟨evs1, g2, g3⟩ := recvCtrl_inner fuel _ _ _ _ _ _ h1
          exact glue true evs1 g2 g3 fun h => absurd h hnb
        · rw [if_neg hct] at h1
          cases h1
          exact ⟨evs, hl, hr, by rw [ha]; simp [hnb]⟩

/-! ## The calls on an operator with one incoming connection -/

section wire
variable {a b : Nat} {p q : Str}

/-- Every message `a` emits on `p` makes `b` receive it and execute, once; nothing else happens to `b`. -/
def Fed (a : Nat) (p : Str) (b : Nat) (q : Str) (evs : List (Ev V)) : Prop := actsOf b evs = inTurn q (emittedBy a p evs)

theorem Fed.nil : Fed a p b q ([] : List (Ev V)) := rfl
theorem Fed.append {l l' : List (Ev V)} (h : Fed a p b q l) (h' : Fed a p b q l') : Fed a p b q (l ++ l') := by
  unfold Fed at *
  rw [actsOf_append, emittedBy_append, inTurn_append, h, h']

/-- The part of the claim that depends on the call. -/
def FedBy (h : Nat → Option (Op V)) (a : Nat) (p : Str) (b : Nat) (q : Str) (evs : List (Ev V)) : Call V → Prop
  | .exec ctrl x => actsOf b evs = (if x = b then [if ctrl then .execCtrl else .execData] else []) ++ inTurn q (emittedBy a p evs)
  | .ports _ _ _ | .msgs _ _ _ _ => Fed a p b q evs
  | .conns cs _ => ((∀ c ∈ cs, c.target ≠ b) → Fed a p b q evs) ∧
      ((∀ c ∈ cs, Away h a c.target) → (∀ c ∈ cs, c.target = b → c.port = q) →
        actsOf b evs = (cs.filter fun c => c.target = b).map fun _ => .execData)
  | .keys inputs _ _ => (∀ e ∈ inputs, e.2 ≠ b) → Fed a p b q evs

theorem Spec.Wire.not_inner {h : Nat → Option (Op V)} (w : Wire h a p b q) : ¬ Inner h b := by
  rintro ⟨x, o, h1, h2, h3⟩
  have := w.sole x ⟨o, h1, h3⟩
  subst this
  obtain ⟨o', k1, k2⟩ := w.source
  rw [h1] at k1; cases k1
  exact h2 k2

theorem away_shape {h h' : Nat → Option (Op V)} (hs : SameShape h h') (a x : Nat) : Away h' a x ↔ Away h a x := not_congr hs.reach

theorem mem_connsOf {h : Nat → Option (Op V)} {x : Nat} {o : Op V} {p' : Str} {cs : List Conn} (ho : h x = some o)
    (hc : o.core.outputs.find? p' = some cs) {c : Conn} (hm : c ∈ cs) : Edge h x c.target :=
  ⟨o, ho, List.mem_append_left _ (List.mem_flatMap.2 ⟨_, find?_mem hc, List.mem_map.2 ⟨c, hm, rfl⟩⟩)⟩

theorem setOp_shape {s : St V} {x : Nat} {o o' : Op V} (ho : s.heap x = some o) (hf : o'.fresh = o.fresh) :
    SameShape s.heap (s.setOp x o').heap := by
  intro y
  rw [setOp_heap]
  split
  · rename_i hb; subst hb; rw [ho]; simp [hf]
  · rfl

theorem execWith_fresh {o o' : Op V} {ctrl : Bool} {out : OpMsg V} (hx : (if ctrl then o.execCtrl else o.execData) = .ok out o') :
    o'.fresh = o.fresh := by
  cases ctrl
  · have := execData_fresh o
    simp only [Bool.false_eq_true, if_false] at hx
    rw [hx] at this; exact this
  · have := execCtrl_fresh o
    simp only [if_true] at hx
    rw [hx] at this; exact this

theorem Run.fed {c : Call V} {s s' : St V} {r : ProgMsg V} (h : Run c s r s') : HeapWF s.heap → Wire s.heap a p b q →
    ∃ evs, s'.log = s.log ++ evs ∧ FedBy s.heap a p b q evs c := by
  induction h with
  | @comp s r s' x o i y ctrl ho hk h ih =>
    intro hw w
    obtain ⟨evs, hl, hf⟩ := ih hw w
    have hi : i ≠ b := fun hi => w.not_inner ⟨x, o, ho, by simp [Simple, hk], by simp [nexts, hk, hi]⟩
    have hx : x ≠ b := by
      rintro rfl
      obtain ⟨t, k1, k2, _⟩ := w.target
      rw [ho] at k1; cases k1
      simp [Simple, hk] at k2
    refine ⟨[.exec x ctrl] ++ evs, by rw [hl]; simp, ?_⟩
    simp only [FedBy, if_neg hi, if_neg hx] at hf ⊢
    rw [actsOf_append, actsOf_exec, if_neg hx, emittedBy_append, emittedBy_exec]
    exact hf
  | @pipeCtrl s x o inputs outs pm ho hk =>
    intro hw w
    have hx : x ≠ b := by
      rintro rfl
      obtain ⟨t, k1, k2, _⟩ := w.target
      rw [ho] at k1; cases k1
      simp [Simple, hk] at k2
    refine ⟨[.exec x true], rfl, ?_⟩
    simp only [FedBy, if_neg hx]
    rw [actsOf_exec, if_neg hx]; rfl
  | @pipeNone s s' x o inputs outs pm o1 ho hk h ho1 ih =>
    intro hw w
    obtain ⟨evs, hl, hf⟩ := ih hw w
    have hx : x ≠ b := by
      rintro rfl
      obtain ⟨t, k1, k2, _⟩ := w.target
      rw [ho] at k1; cases k1
      simp [Simple, hk] at k2
    have hF := hf fun e he hc => w.not_inner ⟨x, o, ho, by simp [Simple, hk], by
      simp only [nexts, hk, List.mem_append]; exact Or.inr (List.mem_map.2 ⟨e, he, hc⟩)⟩
    refine ⟨[.exec x false] ++ evs, by simp [St.setOp, hl], ?_⟩
    simp only [FedBy, if_neg hx]
    rw [actsOf_append, actsOf_exec, if_neg hx, emittedBy_append, emittedBy_exec]
    exact hF
  | @pipeSome s s' x o inputs outs pm o1 r out r' s'' ho hk h hr ho1 hout h2 ih ih2 =>
    intro hw w
    obtain ⟨evs, hl, hf⟩ := ih hw w
    have hx : x ≠ b := by
      rintro rfl
      obtain ⟨t, k1, k2, _⟩ := w.target
      rw [ho] at k1; cases k1
      simp [Simple, hk] at k2
    have hF := hf fun e he hc => w.not_inner ⟨x, o, ho, by simp [Simple, hk], by
      simp only [nexts, hk, List.mem_append]; exact Or.inr (List.mem_map.2 ⟨e, he, hc⟩)⟩
    have hsh : SameShape s.heap s'.heap := h.shape hw
    have hsh2 : SameShape s.heap (St.setOp { s' with depth := s.depth } x (clearProcess o1)).heap :=
      hsh.trans (setOp_shape (s := { s' with depth := s.depth }) ho1 rfl)
    obtain ⟨evs2, hl2, hf2⟩ := ih2 (hsh2.wf hw) (w.shape hsh2)
    refine ⟨[.exec x false] ++ (evs ++ evs2), by simp [hl2, St.setOp, hl], ?_⟩
    simp only [FedBy, if_neg hx]
    rw [actsOf_append, actsOf_exec, if_neg hx, emittedBy_append, emittedBy_exec]
    exact hF.append hf2
  | @simple s x o ctrl out o' r s' ho hs hx h ih =>
    intro hw w
    have hsh : SameShape s.heap (St.setOp (s.ev (.exec x ctrl)) x o').heap := setOp_shape (s := s.ev (.exec x ctrl)) ho (execWith_fresh hx)
    obtain ⟨evs, hl, hf⟩ := ih (hsh.wf hw) (w.shape hsh)
    refine ⟨[.exec x ctrl] ++ evs, by simp [hl, St.setOp], ?_⟩
    simp only [FedBy]
    rw [actsOf_append, actsOf_exec, emittedBy_append, emittedBy_exec, hf]
    rfl
  | portsNil => intro _ _; exact ⟨[], by simp, Fed.nil⟩
  | portsCons ho hp h h2 ih ih2 =>
    intro hw w
    obtain ⟨evs, hl, hf⟩ := ih hw w
    obtain ⟨evs2, hl2, hf2⟩ := ih2 ((h.shape hw).wf hw) (w.shape (h.shape hw))
    exact ⟨evs ++ evs2, by rw [hl2, hl, List.append_assoc], Fed.append hf hf2⟩
  | msgsNil => intro _ _; exact ⟨[], by simp, Fed.nil⟩
  | @msgsNone s x o p' m ms acc r s' ho hcn h ih =>
    intro hw w
    obtain ⟨evs, hl, hf⟩ := ih hw w
    refine ⟨[.emit s.depth x o.core.id p' m] ++ evs, by simp [hl], Fed.append ?_ hf⟩
    unfold Fed
    rw [actsOf_emit, emittedBy_one, if_neg]
    · rfl
    · rintro ⟨rfl, rfl⟩
      have := w.once p'
      simp [connsOf, ho, hcn] at this
  | @msgsSome s x o p' m ms acc cs fuel s1 r s2 r' s3 ho hcn hdl h h2 ih ih2 =>
    intro hw w
    have hw1 : SameShape s.heap s1.heap := by
      have := deliverAll_steps fuel (x, p') m cs (s.ev (.emit s.depth x o.core.id p' m)) (ctx_any hw) (fun _ _ => trivial)
      rw [hdl] at this
      exact this.shape
    have w1 := w.shape hw1
    have hw1' := hw1.wf hw
    have hcs : connsOf s.heap x p' = cs := by simp [connsOf, ho, hcn]
    have hport : ∀ c ∈ cs, c.target = b → x = a ∧ p' = p ∧ c.port = q := by
      intro c hc hb
      have hxa := w.sole x (hb ▸ mem_connsOf ho hcn hc)
      subst hxa
      have := w.once p'
      rw [hcs] at this
      have hm : c ∈ cs.filter fun c => c.target = b := List.mem_filter.2 ⟨hc, by simpa using hb⟩
      rw [this] at hm
      split at hm
      · rename_i hp; simp only [List.mem_singleton] at hm; exact ⟨rfl, hp, by rw [hm]⟩
      · cases hm
    obtain ⟨evs0, hl0, hr0, ha0⟩ := deliverAll_acts fuel x p' m b cs (s.ev (.emit s.depth x o.core.id p' m)) _ hw w.not_inner (by
      intro c hc hb
      obtain ⟨t, k1, _, k2⟩ := w.target
      exact ⟨t, k1, by rw [(hport c hc hb).2.2]; exact k2⟩) hdl
    obtain ⟨evs, hl, hf1, hf2⟩ := ih hw1' w1
    obtain ⟨evs2, hl2, hf3⟩ := ih2 ((h.shape hw1').wf hw1') (w1.shape (h.shape hw1'))
    refine ⟨([.emit s.depth x o.core.id p' m] ++ evs0 ++ evs) ++ evs2, by rw [hl2, hl, hl0]; simp, Fed.append ?_ hf3⟩
    by_cases hxa : x = a
    · subst hxa
      have haway : ∀ c ∈ cs, Away s1.heap x c.target := fun c hc => by
        rw [away_shape hw1]; exact w.noBack _ (mem_connsOf ho hcn hc)
      have hquiet : ∀ e ∈ evs, addr e ≠ x := by
        intro e he hc
        have := h.within (S := Away s1.heap x) ⟨hw1', closed_away _ _⟩ haway hl e he
        rw [hc] at this
        exact this .refl
      have hconn := hf2 haway fun c hc hb => (hport c hc hb).2.2
      have honce := w.once p'
      rw [hcs] at honce
      unfold Fed
      rw [actsOf_append, actsOf_append, actsOf_emit, List.nil_append, ha0, hconn, emittedBy_append, emittedBy_append, emittedBy_one,
        emittedBy_recv hr0, emittedBy_away hquiet, List.append_nil, List.append_nil, honce]
      by_cases hp : p' = p
      · simp [hp, inTurn]
      · simp [hp, inTurn]
    · have hnb : ∀ c ∈ cs, c.target ≠ b := fun c hc hb => hxa (hport c hc hb).1
      refine Fed.append (Fed.append ?_ ?_) (hf1 hnb)
      · unfold Fed
        rw [actsOf_emit, emittedBy_one, if_neg (by rintro ⟨h, _⟩; exact hxa h)]; rfl
      · unfold Fed
        rw [ha0, emittedBy_recv hr0, List.filter_eq_nil_iff.2 (by intro c hc; simpa using hnb c hc)]; rfl
  | connsNil => intro _ _; exact ⟨[], by simp, fun _ => Fed.nil, fun _ _ => rfl⟩
  | @connsCons s c cs t acc ctrl r s1 r' s2 ho hp h h2 ih ih2 =>
    intro hw w
    have hsh := h.shape hw
    obtain ⟨evs, hl, hf⟩ := ih hw w
    obtain ⟨evs2, hl2, hf2, hf3⟩ := ih2 (hsh.wf hw) (w.shape hsh)
    refine ⟨evs ++ evs2, by rw [hl2, hl, List.append_assoc], ?_, ?_⟩
    · intro hn
      have hc := hn c (by simp)
      simp only [FedBy, if_neg hc] at hf
      exact Fed.append hf (hf2 fun c' hc' => hn c' (by simp [hc']))
    · intro haway hq
      have hquiet : ∀ e ∈ evs, addr e ≠ a := by
        intro e he hc
        have := h.within (S := Away s.heap a) ⟨hw, closed_away _ _⟩ (haway c (by simp)) hl e he
        rw [hc] at this
        exact this .refl
      have h3 := hf3 (fun c' hc' => (away_shape hsh _ _).2 (haway c' (by simp [hc']))) fun c' hc' => hq c' (by simp [hc'])
      simp only [FedBy] at hf
      rw [emittedBy_away hquiet] at hf
      rw [actsOf_append, h3, hf]
      by_cases hb : c.target = b
      · have hctrl : ctrl = false := by
          obtain ⟨t', k1, _, k2⟩ := w.target
          rw [← hb, ho] at k1; cases k1
          have := hq c (by simp) hb
          rw [← this] at k2
          cases ctrl with
          | false => rfl
          | true => simp only [if_true, Core.isData] at hp; rw [k2] at hp; cases hp.1
        simp [hb, hctrl, inTurn]
      · simp [hb, inTurn]
  | @connsSkip s c cs t acc r' s2 ho hdd hcc h2 ih2 =>
    intro hw w
    obtain ⟨evs, hl, hf2, hf3⟩ := ih2 hw w
    refine ⟨evs, hl, fun hn => hf2 fun c' hc' => hn c' (by simp [hc']), fun haway hq => ?_⟩
    have hb : c.target ≠ b := by
      intro hb
      obtain ⟨t', k1, _, k2⟩ := w.target
      rw [← hb, ho] at k1; cases k1
      have := hq c (by simp) hb
      rw [this, Core.isData, k2] at hdd
      cases hdd
    rw [hf3 (fun c' hc' => haway c' (by simp [hc'])) fun c' hc' => hq c' (by simp [hc'])]
    simp [hb]
  | keysNil => intro _ _; exact ⟨[], by simp, fun _ => Fed.nil⟩
  | @keysCons s inputs k ks t acc r s1 r' s2 ht h h2 ih ih2 =>
    intro hw w
    obtain ⟨evs, hl, hf⟩ := ih hw w
    obtain ⟨evs2, hl2, hf2⟩ := ih2 ((h.shape hw).wf hw) (w.shape (h.shape hw))
    refine ⟨evs ++ evs2, by rw [hl2, hl, List.append_assoc], fun hn => ?_⟩
    have hc : t ≠ b := hn _ (find?_mem ht)
    simp only [FedBy, if_neg hc] at hf
    exact Fed.append hf (hf2 hn)

end wire

end Rtbot
