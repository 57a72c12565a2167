import Verif.Lemmas.Engine

/-! # Successful executions as a relation

`Run c s r s'` describes the successful runs of `exec` and of its loops rule by rule; `exec_run` shows that every successful
`exec` is such a run. Properties of successful calls are proved by induction on it. -/

namespace Rtbot
variable {V : Type} [Num V]
open Spec

/-- `exec` and its loops (with the accumulated report). -/
inductive Call (V : Type)
  | exec (ctrl : Bool) (a : Nat)
  | ports (a : Nat) (msgs : OpMsg V) (acc : ProgMsg V)
  | msgs (a : Nat) (p : Str) (ms : PortMsg V) (acc : ProgMsg V)
  | conns (cs : List Conn) (acc : ProgMsg V)
  | keys (inputs : Map Nat) (ks : List Str) (acc : ProgMsg V)

inductive Run : Call V → St V → ProgMsg V → St V → Prop
  | comp {s r s' a o i q ctrl} (ho : s.heap a = some o) (hk : o.kind = .composite (some i) q)
      (h : Run (.exec ctrl i) (s.ev (.exec a ctrl)) r s') : Run (.exec ctrl a) s r s'
  | pipeCtrl {s a o inputs outs pm} (ho : s.heap a = some o) (hk : o.kind = .pipeline inputs outs pm) :
      Run (.exec true a) s [] (s.ev (.exec a true))
  | pipeNone {s s' a o inputs outs pm o1} (ho : s.heap a = some o) (hk : o.kind = .pipeline inputs outs pm)
      (h : Run (.keys inputs o.core.toProcess []) { s.ev (.exec a false) with depth := s.depth + 1 } [] s')
      (ho1 : s'.heap a = some o1) : Run (.exec false a) s [] (St.setOp { s' with depth := s.depth } a (clearProcess o1))
  | pipeSome {s s' a o inputs outs pm o1 r out r' s''} (ho : s.heap a = some o) (hk : o.kind = .pipeline inputs outs pm)
      (h : Run (.keys inputs o.core.toProcess []) { s.ev (.exec a false) with depth := s.depth + 1 } r s') (hr : r ≠ [])
      (ho1 : s'.heap a = some o1) (hout : pipelineOutput outs pm (flatten r) [] = .ok out)
      (h2 : Run (.ports a out []) (St.setOp { s' with depth := s.depth } a (clearProcess o1)) r' s'') :
      Run (.exec false a) s r' s''
  | simple {s a o ctrl out o' r s'} (ho : s.heap a = some o) (hs : Simple o)
      (hx : (if ctrl then o.execCtrl else o.execData) = .ok out o')
      (h : Run (.ports a out []) (St.setOp (s.ev (.exec a ctrl)) a o') r s') : Run (.exec ctrl a) s r s'
  | portsNil {s a acc} : Run (.ports a [] acc) s acc s
  | portsCons {s a o p ms rest acc r s1 r' s2} (ho : s.heap a = some o) (hp : o.core.outIds.contains p = true)
      (h : Run (.msgs a p ms []) s r s1) (h2 : Run (.ports a rest (mergeProg acc r)) s1 r' s2) :
      Run (.ports a ((p, ms) :: rest) acc) s r' s2
  | msgsNil {s a p acc} : Run (.msgs a p [] acc) s acc s
  | msgsNone {s a o p m ms acc r s'} (ho : s.heap a = some o) (hc : o.core.outputs.find? p = none)
      (h : Run (.msgs a p ms (mergeProg acc [(o.core.id, [(p, [m])])])) (s.ev (.emit s.depth a o.core.id p m)) r s') :
      Run (.msgs a p (m :: ms) acc) s r s'
  | msgsSome {s a o p m ms acc cs fuel s1 r s2 r' s3} (ho : s.heap a = some o) (hc : o.core.outputs.find? p = some cs)
      (hd : M.fold (deliver fuel (a, p) m) cs () (s.ev (.emit s.depth a o.core.id p m)) = .ok () s1)
      (h : Run (.conns cs [(o.core.id, [(p, [m])])]) s1 r s2) (h2 : Run (.msgs a p ms (mergeProg acc r)) s2 r' s3) :
      Run (.msgs a p (m :: ms) acc) s r' s3
  | connsNil {s acc} : Run (.conns [] acc) s acc s
  | connsCons {s c cs t acc ctrl r s1 r' s2} (ho : s.heap c.target = some t)
      (hp : if ctrl then t.core.isData c.port = false ∧ t.core.isCtrl c.port = true else t.core.isData c.port = true)
      (h : Run (.exec ctrl c.target) s r s1) (h2 : Run (.conns cs (mergeProg acc r)) s1 r' s2) :
      Run (.conns (c :: cs) acc) s r' s2
  | connsSkip {s c cs t acc r' s2} (ho : s.heap c.target = some t) (hd : t.core.isData c.port = false)
      (hc : t.core.isCtrl c.port = false) (h2 : Run (.conns cs acc) s r' s2) : Run (.conns (c :: cs) acc) s r' s2
  | keysNil {s inputs acc} : Run (.keys inputs [] acc) s acc s
  | keysCons {s inputs k ks t acc r s1 r' s2} (ht : inputs.find? k = some t) (h : Run (.exec false t) s r s1)
      (h2 : Run (.keys inputs ks (mergeProg acc r)) s1 r' s2) : Run (.keys inputs (k :: ks) acc) s r' s2

theorem fold_cons {σ α β : Type} (f : β → α → M σ β) (x : α) (xs : List α) (b : β) (s : σ) :
    M.fold f (x :: xs) b s = match f b x s with
      | .ok b' s' => M.fold f xs b' s'
      | .err e s' => .err e s' := rfl

theorem fold_nil {σ α β : Type} (f : β → α → M σ β) (b : β) (s : σ) : M.fold f [] b s = .ok b s := rfl

variable {ex : Bool → Nat → M (St V) (ProgMsg V)}

theorem trigger_run (hex : ∀ ctrl a s r s', ex ctrl a s = .ok r s' → Run (.exec ctrl a) s r s') (cs : List Conn) :
    ∀ acc s r s', M.fold (trigger ex) cs acc s = .ok r s' → Run (.conns cs acc) s r s' := by
  induction cs with
  | nil => intro acc s r s' h; cases h; exact .connsNil
  | cons c cs ih =>
    intro acc s r s' h
    rw [fold_cons] at h
    split at h
    case h_2 => cases h
    rename_i acc' s1 h1
    simp only [trigger, M.bind_def, getOp] at h1
    split at h1
    case h_2 => cases h1
    rename_i t s0 ht
    split at ht
    case h_2 => cases ht
    rename_i ho
    cases ht
    by_cases hd : t.core.isData c.port = true
    · rw [if_pos hd, M.bind_def] at h1
      split at h1
      · rename_i hx; cases h1
        exact .connsCons (ctrl := false) ho hd (hex _ _ _ _ _ hx) (ih _ _ _ _ h)
      · cases h1
    · rw [if_neg hd] at h1
      have hd : t.core.isData c.port = false := by simpa using hd
      by_cases hc : t.core.isCtrl c.port = true
      · rw [if_pos hc, M.bind_def] at h1
        split at h1
        · rename_i hx; cases h1
          exact .connsCons (ctrl := true) ho ⟨hd, hc⟩ (hex _ _ _ _ _ hx) (ih _ _ _ _ h)
        · cases h1
      · rw [if_neg hc] at h1; cases h1
        exact .connsSkip ho hd (by simpa using hc) (ih _ _ _ _ h)

theorem emitMsg_none {s : St V} {a fuel : Nat} {p : Str} {m : Msg V} {o : Op V} (ho : s.heap a = some o)
    (hc : o.core.outputs.find? p = none) :
    emitMsg ex fuel a p m s = .ok [(o.core.id, [(p, [m])])] (s.ev (.emit s.depth a o.core.id p m)) := by
  simp only [emitMsg, M.bind_def, getOp, ho, M.get, logEv, hc]
  rfl

theorem emitMsg_some {s : St V} {a fuel : Nat} {p : Str} {m : Msg V} {o : Op V} {cs : List Conn} (ho : s.heap a = some o)
    (hc : o.core.outputs.find? p = some cs) :
    emitMsg ex fuel a p m s =
      match M.fold (deliver fuel (a, p) m) cs () (s.ev (.emit s.depth a o.core.id p m)) with
      | .err e s' => .err e s'
      | .ok _ s' => M.fold (trigger ex) cs [(o.core.id, [(p, [m])])] s' := by
  simp only [emitMsg, M.bind_def, getOp, ho, M.get, logEv, hc]
  cases M.fold (deliver fuel (a, p) m) cs () (s.ev (.emit s.depth a o.core.id p m)) <;> rfl

theorem emitPort_run (hex : ∀ ctrl a s r s', ex ctrl a s = .ok r s' → Run (.exec ctrl a) s r s') (fuel a : Nat) (p : Str)
    (ms : PortMsg V) : ∀ acc s r s', M.fold (fun out m => do
      let r ← emitMsg ex fuel a p m
      pure (mergeProg out r)) ms acc s = .ok r s' → Run (.msgs a p ms acc) s r s' := by
  induction ms with
  | nil => intro acc s r s' h; cases h; exact .msgsNil
  | cons m ms ih =>
    intro acc s r s' h
    rw [fold_cons] at h
    split at h
    case h_2 => cases h
    rename_i acc' s1 h1
    rw [M.bind_def] at h1
    split at h1
    case h_2 => cases h1
    rename_i r1 s1' h2
    cases h1
    cases ho : s.heap a with
    | none =>
      simp only [emitMsg, M.bind_def, getOp, ho] at h2
      cases h2
    | some o =>
      cases hc : o.core.outputs.find? p with
      | none =>
        rw [emitMsg_none ho hc] at h2
        cases h2
        exact .msgsNone ho hc (ih _ _ _ _ h)
      | some cs =>
        rw [emitMsg_some ho hc] at h2
        split at h2
        · cases h2
        · rename_i hd
          exact .msgsSome ho hc hd (trigger_run hex cs _ _ _ _ h2) (ih _ _ _ _ h)

theorem emitOp_run (hex : ∀ ctrl a s r s', ex ctrl a s = .ok r s' → Run (.exec ctrl a) s r s') (fuel a : Nat)
    (msgs : OpMsg V) : ∀ acc s r s', M.fold (fun out (pm : Str × PortMsg V) => do
      let o ← getOp a
      if o.core.outIds.contains pm.1 then do
        let r ← emitPort ex fuel a pm.1 pm.2
        pure (mergeProg out r)
      else M.throw (.exc .badPort)) msgs acc s = .ok r s' → Run (.ports a msgs acc) s r s' := by
  induction msgs with
  | nil => intro acc s r s' h; cases h; exact .portsNil
  | cons pm msgs ih =>
    obtain ⟨p, ms⟩ := pm
    intro acc s r s' h
    rw [fold_cons] at h
    split at h
    case h_2 => cases h
    rename_i acc' s1 h1
    simp only [M.bind_def, getOp] at h1
    cases ho : s.heap a with
    | none => rw [ho] at h1; cases h1
    | some o =>
      rw [ho] at h1
      by_cases hp : o.core.outIds.contains p = true
      · simp only [hp, if_true, M.bind_def] at h1
        split at h1
        · rename_i r1 s1' h2; cases h1
          exact .portsCons ho hp (emitPort_run hex fuel a p ms _ _ _ _ h2) (ih _ _ _ _ h)
        · cases h1
      · simp only [hp, Bool.false_eq_true, if_false] at h1; cases h1

theorem pipeline_run (hex : ∀ ctrl a s r s', ex ctrl a s = .ok r s' → Run (.exec ctrl a) s r s') (inputs : Map Nat)
    (ks : List Str) : ∀ acc s r s', M.fold (pipelineStep ex inputs) ks acc s = .ok r s' → Run (.keys inputs ks acc) s r s' := by
  induction ks with
  | nil => intro acc s r s' h; cases h; exact .keysNil
  | cons k ks ih =>
    intro acc s r s' h
    rw [fold_cons] at h
    split at h
    case h_2 => cases h
    rename_i acc' s1 h1
    unfold pipelineStep at h1
    cases ht : inputs.find? k with
    | none => rw [ht] at h1; cases h1
    | some t =>
      rw [ht] at h1
      simp only [M.bind_def] at h1
      split at h1
      · rename_i hx; cases h1
        exact .keysCons ht (hex _ _ _ _ _ hx) (ih _ _ _ _ h)
      · cases h1

/-- Every successful call is a run. -/
theorem exec_run (fuel : Nat) : ∀ ctrl a (s : St V) r s', exec fuel ctrl a s = .ok r s' → Run (.exec ctrl a) s r s' := by
  induction fuel with
  | zero => intro _ _ _ _ _ h; cases h
  | succ fuel ih =>
    intro ctrl a s r s' h
    cases ho : s.heap a with
    | none => rw [exec_none ho] at h; cases h
    | some o =>
      rcases kind_cases o with ⟨i, q, hk⟩ | ⟨q, hk⟩ | ⟨inputs, outs, pm, hk⟩ | hs
      · rw [exec_comp ho hk] at h; exact .comp ho hk (ih _ _ _ _ _ h)
      · rw [exec_comp' ho hk] at h; cases h
      · cases ctrl with
        | true => rw [exec_pipe_ctrl ho hk] at h; cases h; exact .pipeCtrl ho hk
        | false =>
          rw [exec_pipe ho hk] at h
          split at h
          · cases h
          · rename_i r1 s1 h1
            have hrun := pipeline_run ih inputs _ _ _ _ _ h1
            cases ho1 : s1.heap a with
            | none => rw [ho1] at h; cases h
            | some o1 =>
              rw [ho1] at h
              dsimp only at h
              split at h
              · rename_i he; cases h; subst he
                exact .pipeNone ho hk hrun ho1
              · rename_i he
                split at h
                · cases h
                · rename_i out hout
                  exact .pipeSome ho hk hrun he ho1 hout (emitOp_run ih fuel a out _ _ _ _ h)
      · rw [exec_simple ho hs] at h
        split at h
        · cases h
        · rename_i out o' hx
          exact .simple ho hs hx (emitOp_run ih fuel a out _ _ _ _ h)

/-- The addresses a call of the engine starts from. -/
def Call.starts (S : Nat → Prop) : Call V → Prop
  | .exec _ a => S a
  | .ports a _ _ => S a
  | .msgs a _ _ _ => S a
  | .conns cs _ => ∀ c ∈ cs, S c.target
  | .keys inputs _ _ => ∀ e ∈ inputs, S e.2

end Rtbot
