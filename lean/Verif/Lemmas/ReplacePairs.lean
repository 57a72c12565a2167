import Verif.Lemmas.Replace
import Verif.Lemmas.Window
import Verif.Lemmas.Wired
import Verif.Spec.Exact
import Mathlib.Tactic.Ring

set_option linter.unusedSectionVars false

/-! # Pairs of interchangeable operators: how to show that two operators answer the same -/

namespace Rtbot
namespace Replace
variable {V : Type} [Num V]
open Spec

/-- The same messages, or the same error; the operators keep their parameters. -/
def SameProc (k k' : Kind V) (r r' : Except Err (OpMsg V × Kind V)) : Prop := (∃ out, r = .ok (out, k) ∧ r' = .ok (out, k')) ∨ ∃ e, r = .error e ∧ r' = .error e

theorem execData_base {o : Op V} (h : o.kind.isBase = true) : o.execData = o.execBase := by
  unfold Op.execData
  cases hk : o.kind <;> simp_all [Kind.isBase]

theorem execCtrl_base {o : Op V} (h : o.kind.isBase = true) : o.execCtrl = .ok [] o := by
  unfold Op.execCtrl
  cases hk : o.kind <;> simp_all [Kind.isBase]

theorem recvCtrl_base {o : Op V} (h : o.kind.isBase = true) (m : Msg V) (p : Str) : o.recvCtrl m p = (do let c ← o.core.receiveCtrlBase m p; .ok { o with core := c }) := by
  unfold Op.recvCtrl
  cases hk : o.kind <;> simp_all [Kind.isBase]

/-- Operators with the same buffers that have the same results whenever they compute. -/
theorem same_base {k k' : Kind V} {Inv : Core V → Prop} (hb : k.isBase = true) (hb' : k'.isBase = true)
    (hrecv : ∀ c c' m p, Inv c → c.receiveDataBase m p = .ok c' → Inv c') (hctrl : ∀ c c' m p, Inv c → c.receiveCtrlBase m p = .ok c' → Inv c')
    (htp : ∀ c l, Inv c → Inv { c with toProcess := l })
    (hproc : ∀ c ready, Inv c → c.readyPorts = .ok ready → ready ≠ [] → SameProc k k' (Op.process ⟨{ c with toProcess := ready }, k⟩) (Op.process ⟨{ c with toProcess := ready }, k'⟩)) :
    ∀ (as : List (Act V)) (c : Core V), Inv c → results (⟨c, k⟩ : Op V) as = results ⟨c, k'⟩ as := by
  intro as
  induction as with
  | nil => intro c _; rfl
  | cons x as ih =>
    intro c hi
    have key : ∃ r c', (act ⟨c, k⟩ x).2 = r ∧ (act ⟨c, k'⟩ x).2 = r ∧ (act ⟨c, k⟩ x).1 = ⟨c', k⟩ ∧ (act ⟨c, k'⟩ x).1 = ⟨c', k'⟩ ∧ Inv c' := by
      cases x with
      | recvData p m =>
        simp only [act]
        rw [recvData_base (o := ⟨c, k⟩) hb, recvData_base (o := ⟨c, k'⟩) hb']
        simp only [bind, Except.bind]
        cases hr : c.receiveDataBase m p with
        | error e => exact ⟨_, c, rfl, rfl, rfl, rfl, hi⟩
        | ok c' => exact ⟨_, c', rfl, rfl, rfl, rfl, hrecv _ _ _ _ hi hr⟩
      | recvCtrl p m =>
        simp only [act]
        rw [recvCtrl_base (o := ⟨c, k⟩) hb, recvCtrl_base (o := ⟨c, k'⟩) hb']
        simp only [bind, Except.bind]
        cases hr : c.receiveCtrlBase m p with
        | error e => exact ⟨_, c, rfl, rfl, rfl, rfl, hi⟩
        | ok c' => exact ⟨_, c', rfl, rfl, rfl, rfl, hctrl _ _ _ _ hi hr⟩
      | execCtrl =>
        simp only [act]
        rw [execCtrl_base (o := ⟨c, k⟩) hb, execCtrl_base (o := ⟨c, k'⟩) hb']
        exact ⟨_, c, rfl, rfl, rfl, rfl, hi⟩
      | execData =>
        simp only [act]
        rw [execData_base (o := ⟨c, k⟩) hb, execData_base (o := ⟨c, k'⟩) hb']
        unfold Op.execBase
        dsimp only
        cases hr : c.readyPorts with
        | error e => exact ⟨_, c, rfl, rfl, rfl, rfl, hi⟩
        | ok ready =>
          dsimp only
          by_cases he : ready = []
          · rw [if_pos he, if_pos he]
            exact ⟨_, _, rfl, rfl, rfl, rfl, htp _ _ hi⟩
          · rw [if_neg he, if_neg he]
            rcases hproc c ready hi hr he with ⟨out, h1, h2⟩ | ⟨e, h1, h2⟩
            · rw [h1, h2]
              exact ⟨_, _, rfl, rfl, rfl, rfl, htp _ _ hi⟩
            · rw [h1, h2]
              exact ⟨_, _, rfl, rfl, rfl, rfl, htp _ _ hi⟩
    obtain ⟨r, c', h1, h2, h3, h4, h5⟩ := key
    rw [results, results, h1, h2, h3, h4, ih c' h5]

/-- A single buffer for `n` messages. -/
structure Sized (n : Nat) (c : Core V) (i : Inp V) : Prop where
  data : c.dataIn = [(i1, i)]
  ctrl : c.ctrlIn = []
  max : i.max = n
  len : i.data.length ≤ n

theorem receive_sole {n : Nat} (hn : 0 < n) {c c' : Core V} {i : Inp V} (h : Sized n c i) {m : Msg V} {p : Str} (hr : c.receiveDataBase m p = .ok c') :
    ∃ i', i.receive m = .ok i' ∧ Sized n c' i' := by
  unfold Core.receiveDataBase at hr
  dsimp only at hr
  cases hf : c.dataIn.find? (c.resolveData p) with
  | none => rw [hf] at hr; cases hr
  | some j =>
    rw [hf] at hr
    have hj : c.resolveData p = i1 ∧ j = i := by
      rw [h.data, Map.find?_cons] at hf
      split at hf
      · rename_i e
        cases hf
        exact ⟨e.symm, rfl⟩
      · cases hf
    obtain ⟨e1, rfl⟩ := hj
    obtain ⟨i', h1, h2⟩ := bind_eq_ok.1 hr
    cases h2
    refine ⟨i', h1, ?_, h.ctrl, ?_, ?_⟩
    · dsimp only
      rw [e1, h.data]
      simp [Map.put]
    · unfold Inp.receive at h1
      split at h1
      · unfold Inp.popSum at h1
        cases hd : j.data with
        | nil => rw [hd] at h1; cases h1
        | cons x xs => rw [hd] at h1; cases h1; exact h.max
      · split at h1
        · cases h1
        · cases h1; exact h.max
    · have hl := h.len
      have hm := h.max
      unfold Inp.receive at h1
      split at h1
      · unfold Inp.popSum at h1
        cases hd : j.data with
        | nil => rw [hd] at h1; cases h1
        | cons x xs =>
          rw [hd] at h1 hl
          cases h1
          simpa [Inp.push] using hl
      · split at h1
        · cases h1
        · cases h1
          simp only [Inp.push, List.length_append, List.length_singleton]
          omega

theorem ready_full {n : Nat} {c : Core V} {i : Inp V} (h : Sized n c i) {ready : List Str} (hr : c.readyPorts = .ok ready) (he : ready ≠ []) : i.data.length = n := by
  unfold Core.readyPorts at hr
  split at hr
  · cases hr
    obtain ⟨p, hp⟩ := List.exists_mem_of_ne_nil _ he
    have h2 := (List.mem_filter.1 hp).2
    rw [h.data, Map.find?_cons] at h2
    have hm := h.max
    have hl := h.len
    split at h2
    · rename_i j hj
      split at hj
      · cases hj
        simp only [decide_eq_true_eq] at h2
        omega
      · cases hj
    · cases h2
  · cases hr

theorem ctrl_none {n : Nat} {c c' : Core V} {i : Inp V} (h : Sized n c i) {m : Msg V} {p : Str} (hr : c.receiveCtrlBase m p = .ok c') : False := by
  unfold Core.receiveCtrlBase at hr
  dsimp only at hr
  rw [h.ctrl] at hr
  cases hr

/-- Operators with a single buffer of the same size that have the same results when the buffer is full. -/
theorem same_sized {k k' : Kind V} {n : Nat} (hn : 0 < n) (hb : k.isBase = true) (hb' : k'.isBase = true) (J : Inp V → Prop) (hJ : ∀ i i' m, J i → i.receive m = .ok i' → J i')
    (hproc : ∀ c i, c.dataIn = [(i1, i)] → i.data.length = n → J i → SameProc k k' (Op.process ⟨c, k⟩) (Op.process ⟨c, k'⟩)) {c : Core V} {i : Inp V} (h : Sized n c i) (hi : J i) :
    ∀ as : List (Act V), results (⟨c, k⟩ : Op V) as = results ⟨c, k'⟩ as := by
  intro as
  refine same_base (Inv := fun c => ∃ i, Sized n c i ∧ J i) hb hb' ?_ ?_ ?_ ?_ as c ⟨i, h, hi⟩
  · rintro c c' m p ⟨i, h, hi⟩ hr
    obtain ⟨i', h1, h2⟩ := receive_sole hn h hr
    exact ⟨i', h2, hJ _ _ _ hi h1⟩
  · rintro c c' m p ⟨i, h, hi⟩ hr
    exact (ctrl_none h hr).elim
  · rintro c l ⟨i, h, hi⟩
    exact ⟨i, ⟨h.data, h.ctrl, h.max, h.len⟩, hi⟩
  · rintro c ready ⟨i, h, hi⟩ hr he
    exact hproc _ i h.data (ready_full h hr he) hi

theorem sized_new (id : Str) {n : Nat} (hn : 0 < n) : Sized n (Core.simple id n : Core V) (Inp.new i1 n) :=
  ⟨rfl, rfl, by simp [Inp.new]; omega, by simp [Inp.new]⟩

/-- Two operators with one buffer. -/
theorem interchangeable_sized {k k' : Kind V} {n : Nat} (id : Str) (hn : 0 < n) (hb : k.isBase = true) (hb' : k'.isBase = true) (J : Inp V → Prop)
    (hJ0 : J (Inp.new i1 n)) (hJ : ∀ i i' m, J i → i.receive m = .ok i' → J i')
    (hproc : ∀ c i, c.dataIn = [(i1, i)] → i.data.length = n → J i → SameProc k k' (Op.process ⟨c, k⟩) (Op.process ⟨c, k'⟩)) :
    Interchangeable (⟨Core.simple id n, k⟩ : Op V) ⟨Core.simple id n, k'⟩ := by
  have hs : ∀ k : Kind V, k.isBase = true → Simple (⟨Core.simple id n, k⟩ : Op V) := by
    intro k hk
    unfold Simple
    cases k <;> simp_all [Kind.isBase]
  exact ⟨hs k hb, hs k' hb', ⟨rfl, rfl, rfl, rfl, rfl⟩, same_sized hn hb hb' J hJ hproc (sized_new id hn) hJ0⟩

/-! ## Equivalence, and connections -/

theorem inter_symm {o o' : Op V} (h : Interchangeable o o') : Interchangeable o' o :=
  ⟨h.simple', h.simple, ⟨h.face.id.symm, h.face.data.symm, h.face.ctrl.symm, h.face.outs.symm, h.face.conns.symm⟩, fun as => (h.answers as).symm⟩

theorem inter_trans {o o' o'' : Op V} (h : Interchangeable o o') (h' : Interchangeable o' o'') : Interchangeable o o'' :=
  ⟨h.simple, h'.simple', ⟨h.face.id.trans h'.face.id, h.face.data.trans h'.face.data, h.face.ctrl.trans h'.face.ctrl, h.face.outs.trans h'.face.outs, h.face.conns.trans h'.face.conns⟩,
    fun as => (h.answers as).trans (h'.answers as)⟩

theorem act_wired (o : Op V) (w : Map (List Conn)) (x : Act V) : act (wired o w) x = (wired (act o x).1 w, (act o x).2) := by
  cases x with
  | recvData p m => simp only [act]; rw [recvData_wired]; cases o.recvData m p <;> rfl
  | recvCtrl p m => simp only [act]; rw [recvCtrl_wired]; cases o.recvCtrl m p <;> rfl
  | execData => simp only [act]; rw [execData_wired]; cases o.execData <;> rfl
  | execCtrl => simp only [act]; rw [execCtrl_wired]; cases o.execCtrl <;> rfl

theorem results_wired (w : Map (List Conn)) (as : List (Act V)) : ∀ o : Op V, results (wired o w) as = results o as := by
  induction as with
  | nil => intro o; rfl
  | cons x as ih => intro o; rw [results, results, act_wired, ih]

theorem inter_wired {o o' : Op V} (h : Interchangeable o o') (w : Map (List Conn)) : Interchangeable (wired o w) (wired o' w) :=
  ⟨h.simple, h.simple', ⟨h.face.id, h.face.data, h.face.ctrl, h.face.outs, rfl⟩, fun as => by rw [results_wired, results_wired]; exact h.answers as⟩

/-! ## Results of single operators -/

section
variable {c : Core V} {i : Inp V}

theorem sole_eq (h : c.dataIn = [(i1, i)]) : c.solePort = .ok i1 := by unfold Core.solePort; rw [h]
theorem port_eq (h : c.dataIn = [(i1, i)]) : c.dataPort i1 = .ok i := by unfold Core.dataPort; rw [h]; rfl

theorem last_eq (h : c.dataIn = [(i1, i)]) {l : List (Msg V)} {x : Msg V} (hd : i.data = l ++ [x]) : c.dataLast i1 = .ok x := by
  unfold Core.dataLast
  rw [h]
  show (match i.data.getLast? with | some m => _ | none => _) = _
  rw [hd, List.getLast?_append]
  rfl

theorem first_eq (h : c.dataIn = [(i1, i)]) {l : List (Msg V)} {x : Msg V} (hd : i.data = x :: l) : c.dataFirst i1 = .ok x := by
  unfold Core.dataFirst
  rw [h]
  show (match i.data.head? with | some m => _ | none => _) = _
  rw [hd]
  rfl

theorem msg_eq (h : c.dataIn = [(i1, i)]) {j : Nat} {x : Msg V} (hd : i.data[j]? = some x) : c.dataMsg i1 j = .ok x := by
  unfold Core.dataMsg
  rw [h]
  show (if i.data = [] then _ else match i.data[j]? with | some m => _ | none => _) = _
  rw [hd, if_neg]
  intro e
  rw [e] at hd
  cases hd

theorem snoc_of_pos {l : List (Msg V)} (h : 0 < l.length) : ∃ ys x, l = ys ++ [x] := by
  rcases List.eq_nil_or_concat l with rfl | ⟨ys, x, rfl⟩
  · cases h
  · exact ⟨ys, x, by simp⟩

end

/-! ## Joins of two streams -/

/-- Two buffers. -/
def Two (c : Core V) : Prop := c.ctrlIn = [] ∧ ∃ a b, c.dataIn = [(i1, a), (i2, b)]

theorem dropOlder_head {i : Inp V} {t : UInt64} {m : Msg V} {ms : List (Msg V)} (h : (i.dropOlder t).data = m :: ms) : ¬ m.time < t := by
  unfold Inp.dropOlder at h
  have : ∀ (l : List (Msg V)) (s : V), (Inp.dropOlder.go i t l s).data = m :: ms → ¬ m.time < t := by
    intro l
    induction l with
    | nil => intro s h; cases h
    | cons x l ih =>
      intro s h
      unfold Inp.dropOlder.go at h
      split at h
      · exact ih _ h
      · cases h; assumption
  exact this _ _ h

/-- A binary operator and a Linear that gives the same value for the two messages. -/
theorem same_linear {op : BinOp} {x y : V} (hv : ∀ a b : V, op.eval a b = some ((Num.ofNat 0 +. a *. x) +. b *. y)) :
    ∀ (as : List (Act V)) (c : Core V), Two c → results (⟨c, .binary op⟩ : Op V) as = results ⟨c, .linear [x, y]⟩ as := by
  intro as
  induction as with
  | nil => intro c _; rfl
  | cons z as ih =>
    intro c hi
    have key : ∃ r c', (act ⟨c, .binary op⟩ z).2 = r ∧ (act ⟨c, .linear [x, y]⟩ z).2 = r ∧ (act ⟨c, .binary op⟩ z).1 = ⟨c', .binary op⟩ ∧
        (act ⟨c, .linear [x, y]⟩ z).1 = ⟨c', .linear [x, y]⟩ ∧ Two c' := by
      obtain ⟨hctrl, a, b, hd⟩ := hi
      cases z with
      | recvData p m =>
        simp only [act, Op.recvData, bind, Except.bind]
        cases hr : c.receiveDataJoin m p with
        | error e => exact ⟨_, c, rfl, rfl, rfl, rfl, hctrl, a, b, hd⟩
        | ok c' =>
          refine ⟨_, c', rfl, rfl, rfl, rfl, ?_⟩
          unfold Core.receiveDataJoin at hr
          split at hr
          · cases hr
          · rw [hd] at hr
            split at hr
            · cases hr
            · rename_i i hf
              cases hr
              refine ⟨hctrl, ?_⟩
              rw [Map.find?_cons] at hf
              split at hf
              · rename_i e
                cases hf
                cases e
                exact ⟨_, _, rfl⟩
              · rw [Map.find?_cons] at hf
                split at hf
                · rename_i e
                  cases hf
                  cases e
                  exact ⟨_, _, rfl⟩
                · cases hf
      | recvCtrl p m =>
        simp only [act, Op.recvCtrl, bind, Except.bind]
        cases hr : c.receiveCtrlBase m p with
        | error e => exact ⟨_, c, rfl, rfl, rfl, rfl, hctrl, a, b, hd⟩
        | ok c' =>
          unfold Core.receiveCtrlBase at hr
          dsimp only at hr
          rw [hctrl] at hr
          cases hr
      | execCtrl => exact ⟨_, c, rfl, rfl, rfl, rfl, hctrl, a, b, hd⟩
      | execData =>
        simp only [act, Op.execData]
        unfold Op.execJoin
        dsimp only
        rw [hd]
        dsimp only
        cases ha : a.data with
        | nil => exact ⟨_, c, rfl, rfl, rfl, rfl, hctrl, a, b, hd⟩
        | cons ma as' =>
          dsimp only
          cases hb : b.data with
          | nil =>
            have : joinLatest [(i1, a), (i2, b)] (i1, ma.time) = none := by simp [joinLatest, ha, hb]
            rw [this]
            exact ⟨_, c, rfl, rfl, rfl, rfl, hctrl, a, b, hd⟩
          | cons mb bs =>
            have hjl : joinLatest [(i1, a), (i2, b)] (i1, ma.time) = some (if ma.time < mb.time then (i2, mb.time) else (i1, ma.time)) := by
              simp [joinLatest, ha, hb]
            rw [hjl]
            obtain ⟨a', b', t, hmap, hta, htb⟩ : ∃ a' b' t, ((if ma.time < mb.time then (i2, mb.time) else (i1, ma.time)).2 = t) ∧
                (([(i1, a), (i2, b)] : Map (Inp V)).map fun (p, i) => (p, if p = (if ma.time < mb.time then (i2, mb.time) else (i1, ma.time)).1 then i else i.dropOlder t)) = [(i1, a'), (i2, b')] ∧
                ((∀ m ms, a'.data = m :: ms → ¬ m.time < t) ∧ (∀ m ms, b'.data = m :: ms → ¬ m.time < t)) := by
              by_cases hlt : ma.time < mb.time
              · simp only [hlt, if_true]
                refine ⟨a.dropOlder mb.time, b, mb.time, rfl, rfl, fun m ms h => dropOlder_head h, fun m ms h => ?_⟩
                rw [hb] at h
                cases h
                exact UInt64.lt_irrefl _
              · simp only [hlt, if_false]
                refine ⟨a, b.dropOlder ma.time, ma.time, rfl, rfl, fun m ms h => ?_, fun m ms h => dropOlder_head h⟩
                rw [ha] at h
                cases h
                exact UInt64.lt_irrefl _
            revert hmap hta
            generalize (if ma.time < mb.time then (i2, mb.time) else (i1, ma.time)) = rt
            rintro rfl hta
            obtain ⟨ref, t⟩ := rt
            dsimp only at hta htb ⊢
            rw [hta]
            have two : ∀ a b : Inp V, Two ({ c with dataIn := [(i1, a), (i2, b)] } : Core V) := fun a b => ⟨hctrl, a, b, rfl⟩
            cases ha' : a'.data with
            | nil =>
              simp only [List.all_cons, ha', Bool.false_and, Bool.false_eq_true, if_false]
              exact ⟨_, _, rfl, rfl, rfl, rfl, two _ _⟩
            | cons m0 r0 =>
              cases hb' : b'.data with
              | nil =>
                simp only [List.all_cons, ha', hb', Bool.and_false, Bool.false_and, Bool.false_eq_true, if_false]
                exact ⟨_, _, rfl, rfl, rfl, rfl, two _ _⟩
              | cons m1 r1 =>
                simp only [List.all_cons, ha', hb', List.all_nil, Bool.and_true, Bool.and_eq_true, Bool.not_eq_true', decide_eq_false_iff_not]
                by_cases hready : ¬ t < m0.time ∧ ¬ t < m1.time
                · rw [if_pos hready, if_pos hready]
                  have e0 : m0.time = t := UInt64.le_antisymm (UInt64.not_lt.1 hready.1) (UInt64.not_lt.1 (htb.1 _ _ ha'))
                  have e1 : m1.time = t := UInt64.le_antisymm (UInt64.not_lt.1 hready.2) (UInt64.not_lt.1 (htb.2 _ _ hb'))
                  have p1 : joinProcess (⟨{ c with dataIn := [(i1, a'), (i2, b')] }, .binary op⟩ : Op V) = .ok (single ⟨m0.time, (Num.ofNat 0 +. m0.value *. x) +. m1.value *. y⟩) := by
                    simp [joinProcess, binaryMessages, Core.dataMsg, Map.find?_cons, ha', hb', bind, Except.bind, hv, i1, i2]
                  have p2 : joinProcess (⟨{ c with dataIn := [(i1, a'), (i2, b')] }, .linear [x, y]⟩ : Op V) = .ok (single ⟨m1.time, (Num.ofNat 0 +. m0.value *. x) +. m1.value *. y⟩) := by
                    simp [joinProcess, linearLoop, ha', hb', bind, Except.bind]
                  rw [p1, p2, e0, e1]
                  dsimp only
                  cases hp : popAll [(i1, a'), (i2, b')] with
                  | error e => exact ⟨_, _, rfl, rfl, rfl, rfl, two _ _⟩
                  | ok popped =>
                    have : popped = [(i1, ({ a' with data := r0, sum := a'.sum -. m0.value } : Inp V)), (i2, { b' with data := r1, sum := b'.sum -. m1.value })] := by
                      simp [popAll, Inp.popSum, ha', hb', bind, Except.bind] at hp
                      exact hp.symm
                    subst this
                    exact ⟨_, _, rfl, rfl, rfl, rfl, two _ _⟩
                · rw [if_neg hready, if_neg hready]
                  exact ⟨_, _, rfl, rfl, rfl, rfl, two _ _⟩
    obtain ⟨r, c', h1, h2, h3, h4, h5⟩ := key
    rw [results, results, h1, h2, h3, h4, ih c' h5]

end Replace
end Rtbot
