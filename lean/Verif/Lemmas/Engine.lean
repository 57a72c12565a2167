import Verif.Lemmas.Frame
import Verif.Spec.Graph

/-! # What a call of `exec` does to the heap

Whatever the outcome, `exec` appends events to the log and every operator ends in the state obtained by performing, in order, the
calls recorded for it. -/

namespace Rtbot
variable {V : Type} [Num V]
open Spec

/-! ## Monad -/

theorem M.bind_def {σ α β : Type} (x : M σ α) (f : α → M σ β) (s : σ) :
    (x >>= f) s = match x s with
      | .ok a s' => f a s'
      | .err e s' => .err e s' := rfl

@[simp] theorem M.pure_def {σ α : Type} (a : α) (s : σ) : (pure a : M σ α) s = .ok a s := rfl
@[simp] theorem M.throw_def {σ α : Type} (e : Err) (s : σ) : (M.throw e : M σ α) s = .err e s := rfl

theorem M.bind_ok {σ α β : Type} {x : M σ α} {f : α → M σ β} {s s' : σ} {b : β} :
    (x >>= f) s = .ok b s' ↔ ∃ a s1, x s = .ok a s1 ∧ f a s1 = .ok b s' := by
  rw [M.bind_def]
  cases x s with
  | ok a s1 => exact ⟨fun h => ⟨a, s1, rfl, h⟩, fun ⟨_, _, h, h'⟩ => by cases h; exact h'⟩
  | err e s1 => exact ⟨fun h => (by cases h), fun ⟨_, _, h, _⟩ => by cases h⟩

/-- Relation kept by a sequential composition. -/
theorem state_bind {σ α β : Type} {R : σ → σ → Prop} (tr : ∀ a b c, R a b → R b c → R a c) {x : M σ α} {f : α → M σ β} {s : σ}
    (hx : R s (x s).state) (hf : ∀ a s', x s = .ok a s' → R s s' → R s' (f a s').state) : R s ((x >>= f) s).state := by
  rw [M.bind_def]
  cases h : x s with
  | ok a s1 => rw [h] at hx; exact tr _ _ _ hx (hf a s1 h hx)
  | err e s1 => rw [h] at hx; exact hx

theorem state_fold {σ α β : Type} {R : σ → σ → Prop} (rf : ∀ a, R a a) (tr : ∀ a b c, R a b → R b c → R a c)
    {f : β → α → M σ β} (l : List α) (b : β) (s : σ)
    (hf : ∀ b x s', x ∈ l → R s s' → R s' (f b x s').state) : R s (M.fold f l b s).state := by
  induction l generalizing b s with
  | nil => exact rf s
  | cons x xs ih =>
    refine state_bind tr (hf b x s (by simp) (rf s)) fun b' s' _ hs => ?_
    exact ih b' s' fun b x s'' hx h => hf b x s'' (by simp [hx]) (tr _ _ _ hs h)

/-! ## Shapes -/

theorem nexts_fresh (o : Op V) : nexts o.fresh = nexts o := by
  obtain ⟨c, k⟩ := o
  cases k <;> rfl

theorem simple_fresh (o : Op V) : Simple o.fresh ↔ Simple o := by
  obtain ⟨c, k⟩ := o
  cases k <;> rfl

theorem nexts_of_fresh {o o' : Op V} (h : o'.fresh = o.fresh) : nexts o' = nexts o := by
  rw [← nexts_fresh, h, nexts_fresh]

theorem simple_of_fresh {o o' : Op V} (h : o'.fresh = o.fresh) : Simple o' ↔ Simple o := by
  rw [← simple_fresh, h, simple_fresh]

theorem outputs_of_fresh {o o' : Op V} (h : o'.fresh = o.fresh) : o'.core.outputs = o.core.outputs :=
  congrArg (fun o => o.core.outputs) h

theorem outIds_of_fresh {o o' : Op V} (h : o'.fresh = o.fresh) : o'.core.outIds = o.core.outIds :=
  congrArg (fun o => o.core.outIds) h

theorem id_of_fresh {o o' : Op V} (h : o'.fresh = o.fresh) : o'.core.id = o.core.id :=
  congrArg (fun o => o.core.id) h

theorem isData_of_fresh {o o' : Op V} (h : o'.fresh = o.fresh) (p : Str) : o'.core.isData p = o.core.isData p := by
  have h1 : freshMap o'.core.dataIn = freshMap o.core.dataIn := congrArg (fun o => o.core.dataIn) h
  have := congrArg (fun m => (Map.find? m p).isSome) h1
  simpa [find?_freshMap, Core.isData, Map.has] using this

theorem isCtrl_of_fresh {o o' : Op V} (h : o'.fresh = o.fresh) (p : Str) : o'.core.isCtrl p = o.core.isCtrl p := by
  have h1 : freshMap o'.core.ctrlIn = freshMap o.core.ctrlIn := congrArg (fun o => o.core.ctrlIn) h
  have := congrArg (fun m => (Map.find? m p).isSome) h1
  simpa [find?_freshMap, Core.isCtrl, Map.has] using this

theorem kind_of_fresh_composite {o o' : Op V} (h : o'.fresh = o.fresh) {i q : Option Nat} (hk : o.kind = .composite i q) :
    o'.kind = .composite i q := by
  have h1 : o'.kind.fresh = o.kind.fresh := congrArg Op.kind h
  rw [hk] at h1
  revert h1
  cases o'.kind <;> simp [Kind.fresh]

theorem kind_of_fresh_pipeline {o o' : Op V} (h : o'.fresh = o.fresh) {i q : Map Nat} {pm : Map Str}
    (hk : o.kind = .pipeline i q pm) : o'.kind = .pipeline i q pm := by
  have h1 : o'.kind.fresh = o.kind.fresh := congrArg Op.kind h
  rw [hk] at h1
  revert h1
  cases o'.kind <;> simp [Kind.fresh]

/-- Every operator has sorted port maps. -/
def HeapWF (h : Nat → Option (Op V)) : Prop := ∀ b o, h b = some o → o.core.WF

/-- Same operators up to run time state. -/
def SameShape (h h' : Nat → Option (Op V)) : Prop := ∀ b, (h' b).map Op.fresh = (h b).map Op.fresh

theorem SameShape.get {h h' : Nat → Option (Op V)} (hs : SameShape h h') {b : Nat} {o : Op V} (ho : h b = some o) :
    ∃ o', h' b = some o' ∧ o'.fresh = o.fresh := by
  have := hs b
  rw [ho] at this
  simpa using this

theorem SameShape.get' {h h' : Nat → Option (Op V)} (hs : SameShape h h') {b : Nat} {o : Op V} (ho : h' b = some o) :
    ∃ o', h b = some o' ∧ o'.fresh = o.fresh := by
  have := hs b
  rw [ho] at this
  simpa using this.symm

theorem SameShape.wf {h h' : Nat → Option (Op V)} (hs : SameShape h h') (hw : HeapWF h) : HeapWF h' := by
  intro b o ho
  obtain ⟨o1, h1, h2⟩ := hs.get' ho
  exact Core.WF.of_fresh (congrArg Op.core h2).symm (hw b o1 h1)

theorem SameShape.refl (h : Nat → Option (Op V)) : SameShape h h := fun _ => rfl

theorem SameShape.trans {h h' h'' : Nat → Option (Op V)} (a : SameShape h h') (b : SameShape h' h'') : SameShape h h'' :=
  fun x => (b x).trans (a x)

theorem SameShape.symm {h h' : Nat → Option (Op V)} (a : SameShape h h') : SameShape h' h := fun x => (a x).symm

theorem SameShape.edge {h h' : Nat → Option (Op V)} (a : SameShape h h') {x y : Nat} : Edge h' x y ↔ Edge h x y := by
  constructor
  · rintro ⟨o, ho, hy⟩
    obtain ⟨o1, h1, h2⟩ := a.get' ho
    exact ⟨o1, h1, by rw [nexts_of_fresh h2]; exact hy⟩
  · rintro ⟨o, ho, hy⟩
    obtain ⟨o1, h1, h2⟩ := a.get ho
    exact ⟨o1, h1, by rw [nexts_of_fresh h2]; exact hy⟩

/-- A set of addresses that contains everything downstream of its elements. -/
def Closed (S : Nat → Prop) (h : Nat → Option (Op V)) : Prop := ∀ a b, S a → Edge h a b → S b

omit [Num V] in
theorem closed_reach (h : Nat → Option (Op V)) (a : Nat) : Closed (Reach h a) h := fun _ _ h1 h2 => .step h1 h2

theorem SameShape.closed {S : Nat → Prop} {h h' : Nat → Option (Op V)} (a : SameShape h h') (c : Closed S h) : Closed S h' :=
  fun x y hx hxy => c x y hx (a.edge.1 hxy)

/-! ## The relation between the states before and after -/

/-- `s'` comes from `s` by calls on operators in `S`, all recorded in the log. -/
structure Steps (S : Nat → Prop) (s s' : St V) : Prop where
  shape : SameShape s.heap s'.heap
  trace : ∃ evs, s'.log = s.log ++ evs ∧ (∀ e ∈ evs, S (addr e)) ∧
    (∀ b o, s.heap b = some o → Simple o → s'.heap b = some (after o (actsOf b evs))) ∧
    (∀ b, (∀ e ∈ evs, addr e ≠ b) → s'.heap b = s.heap b)

theorem after_append (o : Op V) (as bs : List (Act V)) : after o (as ++ bs) = after (after o as) bs := by
  induction as generalizing o with
  | nil => rfl
  | cons a as ih => exact ih _

omit [Num V] in
theorem actsOf_append (b : Nat) (l l' : List (Ev V)) : actsOf b (l ++ l') = actsOf b l ++ actsOf b l' :=
  List.filterMap_append

theorem Steps.refl (S : Nat → Prop) (s : St V) : Steps S s s :=
  ⟨.refl _, [], by simp, by simp, fun b o h _ => h, fun _ _ => rfl⟩

theorem Steps.trans {S : Nat → Prop} {s s' s'' : St V} (h : Steps S s s') (h' : Steps S s' s'') : Steps S s s'' := by
  obtain ⟨sh, evs, l, a, r, u⟩ := h
  obtain ⟨sh', evs', l', a', r', u'⟩ := h'
  refine ⟨sh.trans sh', evs ++ evs', by rw [l', l, List.append_assoc], ?_, ?_, ?_⟩
  · intro e he
    rcases List.mem_append.1 he with h | h
    · exact a e h
    · exact a' e h
  · intro b o ho hs
    have h1 := r b o ho hs
    obtain ⟨o1, h2, h3⟩ := sh.get ho
    rw [h1] at h2; cases h2
    rw [r' b _ h1 ((simple_of_fresh h3).2 hs), actsOf_append, after_append]
  · intro b hb
    rw [u' b fun e he => hb e (by simp [he]), u b fun e he => hb e (by simp [he])]

/-- Changing only the ghost depth. -/
theorem Steps.depth (S : Nat → Prop) (s : St V) (d : Nat) : Steps S s { s with depth := d } :=
  ⟨.refl _, [], by simp, by simp, fun b o h _ => h, fun _ _ => rfl⟩

/-- Logging an event of a forwarding operator. -/
theorem Steps.event {S : Nat → Prop} (s : St V) (e : Ev V) (hS : S (addr e))
    (hn : ∀ o, s.heap (addr e) = some o → Simple o → actOf (addr e) e = none) :
    Steps S s { s with log := s.log ++ [e] } := by
  refine ⟨.refl _, [e], rfl, by simpa using hS, ?_, fun _ _ => rfl⟩
  intro b o ho hs
  have : actsOf b [e] = [] := by
    simp only [actsOf, List.filterMap_cons, List.filterMap_nil]
    by_cases hb : addr e = b
    · subst hb; rw [hn o ho hs]
    · have : actOf b e = none := by
        revert hb
        cases e with
        | emit => intro _; rfl
        | recv f a p c m => cases c <;> simp +contextual [addr, actOf]
        | exec a c => cases c <;> simp +contextual [addr, actOf]
      rw [this]
  rw [this]; exact ho

omit [Num V] in
theorem setOp_heap (s : St V) (a b : Nat) (o : Op V) : (s.setOp a o).heap b = if b = a then some o else s.heap b := rfl

/-- A logged call on a simple operator. -/
theorem Steps.call {S : Nat → Prop} (s : St V) (e : Ev V) (a : Act V) (o o' : Op V) (hS : S (addr e)) (ha : actOf (addr e) e = some a)
    (ho : s.heap (addr e) = some o) (hact : (act o a).1 = o') (hf : o'.fresh = o.fresh) :
    Steps S s (St.setOp { s with log := s.log ++ [e] } (addr e) o') := by
  refine ⟨?_, [e], rfl, by simpa using hS, ?_, ?_⟩
  · intro b
    rw [setOp_heap]
    split
    · rename_i h; subst h; simp [ho, hf]
    · rfl
  · intro b o1 ho1 hs
    rw [setOp_heap]
    split
    · rename_i h; subst h
      rw [ho] at ho1; cases ho1
      simp [actsOf, ha, after, hact]
    · rename_i h
      have : actOf b e = none := by
        revert h
        cases e with
        | emit => intro _; rfl
        | recv f a p c m => cases c <;> simp +contextual [addr, actOf, eq_comm]
        | exec a c => cases c <;> simp +contextual [addr, actOf, eq_comm]
      simp [actsOf, this, after, ho1]
  · intro b hb
    rw [setOp_heap, if_neg]
    intro h
    exact hb e (by simp) h.symm

/-- A change of a forwarding operator that is in `S` and already in the log. -/
theorem Steps.forward {S : Nat → Prop} {s s' : St V} {e : Ev V} (hs : Steps S { s with log := s.log ++ [e] } s')
    (hS : S (addr e)) {o o' : Op V} (ho : s'.heap (addr e) = some o) (hns : ¬ Simple o) (hf : o'.fresh = o.fresh) :
    Steps S s (s'.setOp (addr e) o') := by
  obtain ⟨sh, evs, l, a, r, u⟩ := hs
  have hns' : ∀ b o1, s.heap b = some o1 → Simple o1 → b ≠ addr e := by
    rintro b o1 h1 h2 rfl
    obtain ⟨o2, h3, h4⟩ := sh.get h1
    rw [ho] at h3; cases h3
    exact hns ((simple_of_fresh h4).2 h2)
  refine ⟨?_, e :: evs, ?_, ?_, ?_, ?_⟩
  · intro b
    rw [setOp_heap]
    split
    · rename_i h; subst h
      rw [← sh (addr e), ho]; simp [hf]
    · exact sh b
  · simp [St.setOp, l]
  · intro e' he'
    rcases List.mem_cons.1 he' with h | h
    · rw [h]; exact hS
    · exact a e' h
  · intro b o1 h1 h2
    rw [setOp_heap, if_neg (hns' b o1 h1 h2), r b o1 h1 h2]
    have : actOf b e = none := by
      have := hns' b o1 h1 h2
      revert this
      cases e with
      | emit => intro _; rfl
      | recv f a p c m => cases c <;> simp +contextual [addr, actOf, eq_comm]
      | exec a c => cases c <;> simp +contextual [addr, actOf, eq_comm]
    simp [actsOf, this]
  · intro b hb
    rw [setOp_heap, if_neg (fun h => hb e (by simp) h.symm)]
    exact u b fun e' he' => hb e' (by simp [he'])

/-! ## Unfolding the virtual calls -/

omit [Num V] in
theorem kind_cases (o : Op V) : (∃ i q, o.kind = .composite (some i) q) ∨ (∃ q, o.kind = .composite none q) ∨
    (∃ i q pm, o.kind = .pipeline i q pm) ∨ Simple o := by
  obtain ⟨c, k⟩ := o
  cases k with
  | composite i q => cases i <;> simp
  | pipeline => simp
  | _ => simp [Simple]

/-- Append an event. -/
abbrev St.ev (s : St V) (e : Ev V) : St V := { s with log := s.log ++ [e] }

variable {s : St V} {a : Nat} {o : Op V} {m : Msg V} {p : Str} {fuel : Nat} {frm : Option (Nat × Str)} {ctrl : Bool}

theorem recvData_none (ho : s.heap a = none) :
    recvData (fuel + 1) frm a m p s = .err (.ub .dangling) (s.ev (.recv frm a p false m)) := by
  simp [recvData, logEv, M.bind_def, getOp, ho]

theorem recvData_comp (ho : s.heap a = some o) {i : Nat} {q : Option Nat} (hk : o.kind = .composite (some i) q) :
    recvData (fuel + 1) frm a m p s = recvData fuel none i m p (s.ev (.recv frm a p false m)) := by
  simp [recvData, logEv, M.bind_def, getOp, ho, hk]

theorem recvData_comp' (ho : s.heap a = some o) {q : Option Nat} (hk : o.kind = .composite none q) :
    recvData (fuel + 1) frm a m p s = .err (.exc .runtime) (s.ev (.recv frm a p false m)) := by
  simp [recvData, logEv, M.bind_def, getOp, ho, hk]

theorem recvData_pipe (ho : s.heap a = some o) {inputs outs : Map Nat} {pm : Map Str} (hk : o.kind = .pipeline inputs outs pm) :
    recvData (fuel + 1) frm a m p s =
      match pipelinePort inputs pm p with
      | .error e => .err e (s.ev (.recv frm a p false m))
      | .ok key =>
        match inputs.find? key with
        | none => .err (.exc .outOfRange) (s.ev (.recv frm a p false m))
        | some t =>
          match recvData fuel none t m (split2 key).2 (s.ev (.recv frm a p false m)) with
          | .err e s' => .err e s'
          | .ok _ s' =>
            localRun a (fun o => .ok () { o with core := { o.core with toProcess := setInsert o.core.toProcess key } }) s' := by
  simp only [recvData, logEv, M.bind_def, getOp, ho, hk, M.lift]
  cases pipelinePort inputs pm p with
  | error e => rfl
  | ok key =>
    dsimp only
    cases inputs.find? key with
    | none => rfl
    | some t =>
      simp only [M.bind_def]
      cases recvData fuel none t m (split2 key).2 (s.ev (.recv frm a p false m)) <;> rfl

theorem recvData_simple (ho : s.heap a = some o) (hs : Simple o) :
    recvData (fuel + 1) frm a m p s = localRun a (updWith fun o => o.recvData m p) (s.ev (.recv frm a p false m)) := by
  simp only [recvData, logEv, M.bind_def, getOp, ho]
  cases hk : o.kind <;> simp_all [Simple]

theorem recvCtrl_none (ho : s.heap a = none) :
    recvCtrl (fuel + 1) frm a m p s = .err (.ub .dangling) (s.ev (.recv frm a p true m)) := by
  simp [recvCtrl, logEv, M.bind_def, getOp, ho]

theorem recvCtrl_comp (ho : s.heap a = some o) {i : Nat} {q : Option Nat} (hk : o.kind = .composite (some i) q) :
    recvCtrl (fuel + 1) frm a m p s = recvCtrl fuel none i m p (s.ev (.recv frm a p true m)) := by
  simp [recvCtrl, logEv, M.bind_def, getOp, ho, hk]

theorem recvCtrl_comp' (ho : s.heap a = some o) {q : Option Nat} (hk : o.kind = .composite none q) :
    recvCtrl (fuel + 1) frm a m p s = .err (.exc .runtime) (s.ev (.recv frm a p true m)) := by
  simp [recvCtrl, logEv, M.bind_def, getOp, ho, hk]

theorem recvCtrl_other (ho : s.heap a = some o) (hk : ∀ i q, o.kind ≠ .composite i q) :
    recvCtrl (fuel + 1) frm a m p s = localRun a (updWith fun o => o.recvCtrl m p) (s.ev (.recv frm a p true m)) := by
  simp only [recvCtrl, logEv, M.bind_def, getOp, ho]
  cases hk' : o.kind <;> simp_all

theorem exec_none (ho : s.heap a = none) : exec (fuel + 1) ctrl a s = .err (.ub .dangling) (s.ev (.exec a ctrl)) := by
  simp [exec, logEv, M.bind_def, getOp, ho]

theorem exec_comp (ho : s.heap a = some o) {i : Nat} {q : Option Nat} (hk : o.kind = .composite (some i) q) :
    exec (fuel + 1) ctrl a s = exec fuel ctrl i (s.ev (.exec a ctrl)) := by
  simp [exec, logEv, M.bind_def, getOp, ho, hk]

theorem exec_comp' (ho : s.heap a = some o) {q : Option Nat} (hk : o.kind = .composite none q) :
    exec (fuel + 1) ctrl a s = .err (.exc .runtime) (s.ev (.exec a ctrl)) := by
  simp [exec, logEv, M.bind_def, getOp, ho, hk]

theorem exec_pipe_ctrl (ho : s.heap a = some o) {inputs outs : Map Nat} {pm : Map Str} (hk : o.kind = .pipeline inputs outs pm) :
    exec (fuel + 1) true a s = .ok [] (s.ev (.exec a true)) := by
  simp [exec, logEv, M.bind_def, getOp, ho, hk]
  rfl

/-- Clear the `toProcess` set of the operator at `a`. -/
def clearProcess (o : Op V) : Op V := { o with core := { o.core with toProcess := [] } }

theorem exec_pipe (ho : s.heap a = some o) {inputs outs : Map Nat} {pm : Map Str} (hk : o.kind = .pipeline inputs outs pm) :
    exec (fuel + 1) false a s =
      match M.fold (pipelineStep (exec fuel) inputs) o.core.toProcess [] { s.ev (.exec a false) with depth := s.depth + 1 } with
      | .err e s' => .err e s'
      | .ok r s' =>
        match s'.heap a with
        | none => .err (.ub .dangling) { s' with depth := s.depth }
        | some o1 =>
          if r = [] then .ok [] (St.setOp { s' with depth := s.depth } a (clearProcess o1))
          else match pipelineOutput outs pm (flatten r) [] with
            | .error e => .err e (St.setOp { s' with depth := s.depth } a (clearProcess o1))
            | .ok out => emitOp (exec fuel) fuel a out (St.setOp { s' with depth := s.depth } a (clearProcess o1)) := by
  simp only [exec, logEv, M.bind_def, getOp, ho, hk, M.get, setDepth, Bool.false_eq_true, if_false]
  cases M.fold (pipelineStep (exec fuel) inputs) o.core.toProcess []
      { heap := s.heap, depth := s.depth + 1, log := s.log ++ [Ev.exec a false] } with
  | err e s' => rfl
  | ok r s' =>
    simp only [localRun]
    cases s'.heap a with
    | none => rfl
    | some o1 =>
      simp only
      split
      · rfl
      · simp only [M.bind_def, M.lift]
        cases pipelineOutput outs pm (flatten r) [] <;> rfl

theorem exec_simple (ho : s.heap a = some o) (hs : Simple o) :
    exec (fuel + 1) ctrl a s =
      match (if ctrl then o.execCtrl else o.execData) with
      | .err e o' => .err e (St.setOp (s.ev (.exec a ctrl)) a o')
      | .ok out o' => emitOp (exec fuel) fuel a out (St.setOp (s.ev (.exec a ctrl)) a o') := by
  have : exec (fuel + 1) ctrl a s = (localRun a (if ctrl then Op.execCtrl else Op.execData) >>=
      emitOp (exec fuel) fuel a) (s.ev (.exec a ctrl)) := by
    simp only [exec, logEv, M.bind_def, getOp, ho]
    cases hk : o.kind <;> simp_all [Simple] <;> rfl
  rw [this, M.bind_def]
  simp only [localRun, ho]
  cases ctrl with
  | false => simp only [Bool.false_eq_true, if_false]; cases o.execData <;> rfl
  | true => simp only [if_true]; cases o.execCtrl <;> rfl

/-! ## Receiving -/

omit [Num V] in
theorem edge_mem {h : Nat → Option (Op V)} {a b : Nat} {o : Op V} (ho : h a = some o) (hb : b ∈ nexts o) : Edge h a b := ⟨o, ho, hb⟩

theorem find?_mem {β : Type} {m : Map β} {k : Str} {v : β} (h : m.find? k = some v) : (k, v) ∈ m := by
  induction m with
  | nil => cases h
  | cons e m ih =>
    obtain ⟨k', v'⟩ := e
    rw [Map.find?_cons] at h
    split at h
    · cases h; subst_vars; simp
    · exact List.mem_cons_of_mem _ (ih h)

/-- Invariants under which the engine runs. -/
structure Ctx (S : Nat → Prop) (s : St V) : Prop where
  wf : HeapWF s.heap
  closed : Closed S s.heap

theorem Ctx.step {S : Nat → Prop} {s s' : St V} (h : Ctx S s) (st : Steps S s s') : Ctx S s' :=
  ⟨st.shape.wf h.wf, st.shape.closed h.closed⟩

theorem recv_call {S : Nat → Prop} (s : St V) (c : Ctx S s) (frm : Option (Nat × Str)) (a : Nat) (m : Msg V) (p : Str) (ctrl : Bool)
    (hS : S a) (o : Op V) (ho : s.heap a = some o) :
    Steps S s (localRun a (updWith fun o => if ctrl then o.recvCtrl m p else o.recvData m p)
      { s with log := s.log ++ [.recv frm a p ctrl m] }).state := by
  simp only [localRun, ho, updWith]
  cases ctrl with
  | false =>
    have key := Steps.call (S := S) s (.recv frm a p false m) (.recvData p m) o
    simp only [addr, actOf] at key
    cases h : o.recvData m p with
    | ok o' =>
      simp only [Bool.false_eq_true, if_false, Res.state]
      exact key o' hS (by simp) ho (by simp [act, h]) (recvData_fresh (c.wf a o ho) h)
    | error e =>
      simp only [Bool.false_eq_true, if_false, Res.state]
      exact key o hS (by simp) ho (by simp [act, h]) rfl
  | true =>
    have key := Steps.call (S := S) s (.recv frm a p true m) (.recvCtrl p m) o
    simp only [addr, actOf] at key
    cases h : o.recvCtrl m p with
    | ok o' =>
      simp only [if_true, Res.state]
      exact key o' hS (by simp) ho (by simp [act, h]) (recvCtrl_fresh (c.wf a o ho) h)
    | error e =>
      simp only [if_true, Res.state]
      exact key o hS (by simp) ho (by simp [act, h]) rfl

theorem dangling_event {S : Nat → Prop} (s : St V) (e : Ev V) (hS : S (addr e)) (hn : s.heap (addr e) = none) :
    Steps S s { s with log := s.log ++ [e] } :=
  Steps.event s e hS fun o ho => by rw [hn] at ho; cases ho

omit s a o m p fuel frm ctrl in
theorem recvData_steps (S : Nat → Prop) (fuel : Nat) : ∀ (s : St V) (frm : Option (Nat × Str)) (a : Nat) (m : Msg V) (p : Str),
    Ctx S s → S a → Steps S s (recvData fuel frm a m p s).state := by
  induction fuel with
  | zero => intro s _ _ _ _ _ _; exact Steps.refl S s
  | succ fuel ih =>
    intro s frm a m p c hS
    cases ho : s.heap a with
    | none => rw [recvData_none ho]; exact dangling_event s _ hS ho
    | some o =>
      have fwd : ¬ Simple o → Steps S s (s.ev (.recv frm a p false m)) := fun hn =>
        Steps.event s (.recv frm a p false m) hS fun o' ho' hs => by
          simp only [addr] at ho'; rw [ho] at ho'; cases ho'; exact absurd hs hn
      rcases kind_cases o with ⟨i, q, hk⟩ | ⟨q, hk⟩ | ⟨inputs, outs, pm, hk⟩ | hs
      · have hn : ¬ Simple o := by simp [Simple, hk]
        rw [recvData_comp ho hk]
        refine (fwd hn).trans (ih _ _ _ _ _ (c.step (fwd hn)) (c.closed a i hS (edge_mem ho ?_)))
        simp [nexts, hk]
      · rw [recvData_comp' ho hk]
        exact fwd (by simp [Simple, hk])
      · have hn : ¬ Simple o := by simp [Simple, hk]
        rw [recvData_pipe ho hk]
        split
        · exact fwd hn
        · split
          · exact fwd hn
          · rename_i key _ _ t ht
            have hi := ih (s.ev (.recv frm a p false m)) none t m (split2 key).2 (c.step (fwd hn))
              (c.closed a t hS (edge_mem ho (by
                simp only [nexts, hk, List.mem_append]
                exact Or.inr (List.mem_map.2 ⟨_, find?_mem ht, rfl⟩))))
            split
            · rename_i hr; rw [hr] at hi; exact (fwd hn).trans hi
            · rename_i s1 hr
              rw [hr] at hi
              obtain ⟨o1, h1, h2⟩ := hi.shape.get (show _ = some o from ho)
              simp only [Res.state] at h1
              simp only [localRun, h1]
              exact Steps.forward (e := .recv frm a p false m) hi hS h1 (fun h => hn ((simple_of_fresh h2).1 h)) rfl
      · rw [recvData_simple ho hs]
        exact recv_call s c frm a m p false hS o ho

omit s a o m p fuel frm ctrl in
theorem recvCtrl_steps (S : Nat → Prop) (fuel : Nat) : ∀ (s : St V) (frm : Option (Nat × Str)) (a : Nat) (m : Msg V) (p : Str),
    Ctx S s → S a → Steps S s (recvCtrl fuel frm a m p s).state := by
  induction fuel with
  | zero => intro s _ _ _ _ _ _; exact Steps.refl S s
  | succ fuel ih =>
    intro s frm a m p c hS
    cases ho : s.heap a with
    | none => rw [recvCtrl_none ho]; exact dangling_event s _ hS ho
    | some o =>
      have fwd : ¬ Simple o → Steps S s (s.ev (.recv frm a p true m)) := fun hn =>
        Steps.event s (.recv frm a p true m) hS fun o' ho' hs => by
          simp only [addr] at ho'; rw [ho] at ho'; cases ho'; exact absurd hs hn
      rcases kind_cases o with ⟨i, q, hk⟩ | ⟨q, hk⟩ | ⟨inputs, outs, pm, hk⟩ | hs
      · have hn : ¬ Simple o := by simp [Simple, hk]
        rw [recvCtrl_comp ho hk]
        refine (fwd hn).trans (ih _ _ _ _ _ (c.step (fwd hn)) (c.closed a i hS (edge_mem ho ?_)))
        simp [nexts, hk]
      · rw [recvCtrl_comp' ho hk]
        exact fwd (by simp [Simple, hk])
      · rw [recvCtrl_other ho (by simp [hk])]
        exact recv_call s c frm a m p true hS o ho
      · rw [recvCtrl_other ho (by intro i q hk; simp [Simple, hk] at hs)]
        exact recv_call s c frm a m p true hS o ho

/-! ## Executing -/

theorem deliver_steps {S : Nat → Prop} (fuel : Nat) (src : Nat × Str) (m : Msg V) (c : Conn) (s : St V) (hc : Ctx S s)
    (hS : S c.target) : Steps S s (deliver fuel src m () c s).state := by
  simp only [deliver, M.bind_def, getOp]
  cases s.heap c.target with
  | none => exact Steps.refl S s
  | some t =>
    dsimp only
    split
    · exact recvData_steps S fuel s _ _ _ _ hc hS
    · split
      · exact recvCtrl_steps S fuel s _ _ _ _ hc hS
      · exact Steps.refl S s

/-- What the recursive calls of `exec` are assumed to satisfy. -/
def ExSteps (S : Nat → Prop) (ex : Bool → Nat → M (St V) (ProgMsg V)) : Prop :=
  ∀ (s : St V) ctrl a, Ctx S s → S a → Steps S s (ex ctrl a s).state

theorem trigger_steps {S : Nat → Prop} {ex : Bool → Nat → M (St V) (ProgMsg V)} (hex : ExSteps S ex) (out : ProgMsg V) (c : Conn)
    (s : St V) (hc : Ctx S s) (hS : S c.target) : Steps S s (trigger ex out c s).state := by
  simp only [trigger, M.bind_def, getOp]
  cases s.heap c.target with
  | none => exact Steps.refl S s
  | some t =>
    dsimp only
    split
    · rw [M.bind_def]
      have := hex s false c.target hc hS
      cases h : ex false c.target s with
      | ok r s' => rw [h] at this; exact this
      | err e s' => rw [h] at this; exact this
    · split
      · rw [M.bind_def]
        have := hex s true c.target hc hS
        cases h : ex true c.target s with
        | ok r s' => rw [h] at this; exact this
        | err e s' => rw [h] at this; exact this
      · exact Steps.refl S s

theorem emitMsg_steps {S : Nat → Prop} {ex : Bool → Nat → M (St V) (ProgMsg V)} (hex : ExSteps S ex) (fuel a : Nat) (port : Str)
    (m : Msg V) (s : St V) (hc : Ctx S s) (hS : S a) : Steps S s (emitMsg ex fuel a port m s).state := by
  simp only [emitMsg, M.bind_def, getOp]
  cases ho : s.heap a with
  | none => exact Steps.refl S s
  | some o =>
    simp only [M.get, logEv]
    have h1 : Steps S s { s with log := s.log ++ [.emit s.depth a o.core.id port m] } :=
      Steps.event s (.emit s.depth a o.core.id port m) hS fun _ _ _ => rfl
    cases hp : o.core.outputs.find? port with
    | none => exact h1
    | some conns =>
      dsimp only
      have hcl : ∀ c ∈ conns, S c.target := fun c hcm => hc.closed a c.target hS (edge_mem ho (by
        simp only [nexts, List.mem_append, List.mem_flatMap]
        exact Or.inl ⟨_, find?_mem hp, List.mem_map.2 ⟨c, hcm, rfl⟩⟩))
      refine h1.trans ?_
      refine state_bind (R := Steps S) (fun _ _ _ => Steps.trans) ?_ ?_
      · exact state_fold (R := Steps S) (Steps.refl S) (fun _ _ _ => Steps.trans) conns () _ fun _ c s' hcm hs =>
          deliver_steps fuel _ m c s' ((hc.step h1).step hs) (hcl c hcm)
      · intro _ s2 _ hs2
        exact state_fold (R := Steps S) (Steps.refl S) (fun _ _ _ => Steps.trans) conns _ _ fun out c s' hcm hs =>
          trigger_steps hex out c s' (((hc.step h1).step hs2).step hs) (hcl c hcm)

theorem emitPort_steps {S : Nat → Prop} {ex : Bool → Nat → M (St V) (ProgMsg V)} (hex : ExSteps S ex) (fuel a : Nat) (port : Str)
    (ms : PortMsg V) (s : St V) (hc : Ctx S s) (hS : S a) : Steps S s (emitPort ex fuel a port ms s).state :=
  state_fold (R := Steps S) (Steps.refl S) (fun _ _ _ => Steps.trans) ms _ s fun _ m s' _ hs =>
    state_bind (R := Steps S) (fun _ _ _ => Steps.trans) (emitMsg_steps hex fuel a port m s' (hc.step hs) hS)
      fun _ s'' _ _ => Steps.refl S s''

theorem emitOp_steps {S : Nat → Prop} {ex : Bool → Nat → M (St V) (ProgMsg V)} (hex : ExSteps S ex) (fuel a : Nat)
    (msgs : OpMsg V) (s : St V) (hc : Ctx S s) (hS : S a) : Steps S s (emitOp ex fuel a msgs s).state := by
  refine state_fold (R := Steps S) (Steps.refl S) (fun _ _ _ => Steps.trans) msgs _ s fun out pm s' _ hs => ?_
  simp only [M.bind_def, getOp]
  cases s'.heap a with
  | none => exact Steps.refl S s'
  | some o =>
    dsimp only
    split
    · exact state_bind (R := Steps S) (fun _ _ _ => Steps.trans) (emitPort_steps hex fuel a pm.1 pm.2 s' (hc.step hs) hS)
        fun _ s'' _ _ => Steps.refl S s''
    · exact Steps.refl S s'

theorem pipelineStep_steps {S : Nat → Prop} {ex : Bool → Nat → M (St V) (ProgMsg V)} (hex : ExSteps S ex) (inputs : Map Nat)
    (out : ProgMsg V) (key : Str) (s : St V) (hc : Ctx S s) (hS : ∀ b ∈ inputs.map (·.2), S b) :
    Steps S s (pipelineStep ex inputs out key s).state := by
  unfold pipelineStep
  cases ht : inputs.find? key with
  | none => exact Steps.refl S s
  | some t =>
    exact state_bind (R := Steps S) (fun _ _ _ => Steps.trans) (hex s false t hc (hS t (List.mem_map.2 ⟨_, find?_mem ht, rfl⟩)))
      fun _ s'' _ _ => Steps.refl S s''

omit s a o m p fuel frm ctrl in
theorem exec_steps (S : Nat → Prop) (fuel : Nat) : ExSteps (V := V) S (exec fuel) := by
  induction fuel with
  | zero => intro s _ _ _ _; exact Steps.refl S s
  | succ fuel ih =>
    intro s ctrl a c hS
    cases ho : s.heap a with
    | none => rw [exec_none ho]; exact dangling_event s _ hS ho
    | some o =>
      have fwd : ¬ Simple o → Steps S s (s.ev (.exec a ctrl)) := fun hn =>
        Steps.event s (.exec a ctrl) hS fun o' ho' hs => by
          simp only [addr] at ho'; rw [ho] at ho'; cases ho'; exact absurd hs hn
      rcases kind_cases o with ⟨i, q, hk⟩ | ⟨q, hk⟩ | ⟨inputs, outs, pm, hk⟩ | hs
      · have hn : ¬ Simple o := by simp [Simple, hk]
        rw [exec_comp ho hk]
        refine (fwd hn).trans (ih _ _ _ (c.step (fwd hn)) (c.closed a i hS (edge_mem ho ?_)))
        simp [nexts, hk]
      · rw [exec_comp' ho hk]
        exact fwd (by simp [Simple, hk])
      · have hn : ¬ Simple o := by simp [Simple, hk]
        cases ctrl with
        | true => rw [exec_pipe_ctrl ho hk]; exact fwd hn
        | false =>
          rw [exec_pipe ho hk]
          have hin : ∀ b ∈ inputs.map (·.2), S b := fun b hb =>
            c.closed a b hS (edge_mem ho (by simp only [nexts, hk, List.mem_append]; exact Or.inr hb))
          have h0 : Steps S (s.ev (.exec a false)) { s.ev (.exec a false) with depth := s.depth + 1 } := Steps.depth S _ _
          have c0 := (c.step (fwd hn)).step h0
          have h1 := state_fold (R := Steps S) (Steps.refl S) (fun _ _ _ => Steps.trans)
            (f := pipelineStep (exec fuel) inputs) o.core.toProcess [] _ fun out key s' _ hs =>
              pipelineStep_steps ih inputs out key s' (c0.step hs) hin
          split
          · rename_i hr
            rw [hr] at h1
            exact (fwd hn).trans (h0.trans h1)
          · rename_i r s1 hr
            rw [hr] at h1
            have h2 : Steps S (s.ev (.exec a false)) { s1 with depth := s.depth } := (h0.trans h1).trans (Steps.depth S _ _)
            obtain ⟨o1, ho1, hf1⟩ := h2.shape.get (show _ = some o from ho)
            simp only at ho1
            have hn1 : ¬ Simple o1 := fun h => hn ((simple_of_fresh hf1).1 h)
            rw [ho1]
            have h3 := Steps.forward (e := .exec a false) (o' := clearProcess o1) h2 hS ho1 hn1 rfl
            dsimp only
            split
            · exact h3
            · split
              · exact h3
              · rename_i out _
                exact h3.trans (emitOp_steps ih fuel a out _ (c.step h3) hS)
      · rw [exec_simple ho hs]
        have key := Steps.call (S := S) s (.exec a ctrl) (if ctrl then .execCtrl else .execData) o
          (if ctrl then o.execCtrl else o.execData).state hS (by cases ctrl <;> simp [actOf, addr]) ho
          (by cases ctrl
              · simp only [act, Bool.false_eq_true, if_false]; cases o.execData <;> rfl
              · simp only [act, if_true]; cases o.execCtrl <;> rfl)
          (by cases ctrl
              · exact execData_fresh o
              · exact execCtrl_fresh o)
        split
        · rename_i hx; rw [hx] at key; exact key
        · rename_i out o' hx
          rw [hx] at key
          exact key.trans (emitOp_steps ih fuel a out _ (c.step key) hS)

end Rtbot
