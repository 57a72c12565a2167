import Verif.Lemmas.Program
import Mathlib.Data.Finset.Card
import Mathlib.Data.Fintype.Card

set_option linter.unusedSectionVars false

/-! # Calls on acyclic programs end -/

namespace Rtbot
variable {V : Type} [Num V]
open Spec

/-- The outcome is not `diverge`. -/
def ND {σ α : Type} (r : Res σ α) : Prop := ∀ s, r ≠ .err .diverge s

theorem nd_ok {σ α : Type} (a : α) (s : σ) : ND (.ok a s) := fun _ h => by cases h

theorem nd_err {σ α : Type} {e : Err} (s : σ) (h : e ≠ .diverge) : ND (.err e s : Res σ α) := fun _ h' => by cases h'; exact h rfl

theorem nd_bind {σ α β : Type} {x : M σ α} {f : α → M σ β} {s : σ} (h1 : ND (x s)) (h2 : ∀ a s', x s = .ok a s' → ND (f a s')) :
    ND ((x >>= f) s) := by
  rw [M.bind_def]
  cases h : x s with
  | ok a s' => exact h2 a s' h
  | err e s' => rw [h] at h1; exact fun t ht => h1 s' (by cases ht; rfl)

theorem nd_fold {σ α β : Type} {f : β → α → M σ β} (P : σ → Prop) (l : List α)
    (h1 : ∀ b x s, x ∈ l → P s → ND (f b x s)) (h2 : ∀ b x s, x ∈ l → P s → P (f b x s).state) :
    ∀ b s, P s → ND (M.fold f l b s) := by
  induction l with
  | nil => intro b s _; exact nd_ok _ _
  | cons x l ih =>
    intro b s hs
    rw [fold_cons]
    have n1 := h1 b x s (by simp) hs
    have n2 := h2 b x s (by simp) hs
    cases h : f b x s with
    | ok b' s' =>
      rw [h] at n2
      exact ih (fun b x s hx => h1 b x s (List.mem_cons_of_mem _ hx)) (fun b x s hx => h2 b x s (List.mem_cons_of_mem _ hx)) b' s' n2
    | err e s' => rw [h] at n1; exact fun t ht => n1 s' (by cases ht; rfl)

theorem results_last (o : Op V) (as : List (Act V)) (a : Act V) : (act (after o as) a).2 ∈ results o (as ++ [a]) := by
  induction as generalizing o with
  | nil => simp [after, results]
  | cons x as ih => exact List.mem_cons_of_mem _ (ih _)

/-- The situation during a run that started in `s0`: numbers decrease along edges. -/
structure Going (rank : Nat → Nat) (s0 s : St V) : Prop where
  wf : HeapWF s0.heap
  ends : StepsEnd s0.heap
  down : ∀ a b, Edge s0.heap a b → rank b < rank a
  steps : Steps Any s0 s

variable {rank : Nat → Nat} {s0 s : St V}

theorem Going.next {s' : St V} (g : Going rank s0 s) (h : Steps Any s s') : Going rank s0 s' :=
  ⟨g.wf, g.ends, g.down, g.steps.trans h⟩

theorem Going.ctx (g : Going rank s0 s) : Ctx Any s := ctx_any (g.steps.shape.wf g.wf)

theorem Going.edge (g : Going rank s0 s) {a b : Nat} {o : Op V} (ho : s.heap a = some o) (hb : b ∈ nexts o) : rank b < rank a :=
  g.down a b (g.steps.shape.edge.1 ⟨o, ho, hb⟩)

theorem Going.act (g : Going rank s0 s) {a : Nat} {o : Op V} (ho : s.heap a = some o) (hs : Simple o) (x : Act V) :
    (act o x).2 ≠ .error .diverge := by
  obtain ⟨evs, _, _, h3, _⟩ := g.steps.trace
  obtain ⟨o0, h0, hf⟩ := g.steps.shape.get' ho
  have hs0 : Simple o0 := (simple_of_fresh hf).2 hs
  have := h3 a o0 h0 hs0
  rw [ho] at this
  cases this
  exact g.ends a o0 h0 hs0 (actsOf a evs ++ [x]) _ (results_last o0 _ x)

theorem Going.exec (g : Going rank s0 s) {a : Nat} {o o' : Op V} (ho : s.heap a = some o) (hs : Simple o) {ctrl : Bool} {e : Err}
    (h : (if ctrl then o.execCtrl else o.execData) = .err e o') : e ≠ .diverge := by
  rintro rfl
  cases ctrl with
  | true => exact g.act ho hs .execCtrl (by simp only [if_true] at h; simp [Spec.act, h])
  | false => exact g.act ho hs .execData (by simp only [Bool.false_eq_true, if_false] at h; simp [Spec.act, h])

theorem recvCtrl_nd_local (o : Op V) (m : Msg V) (p : Str) : o.recvCtrl m p ≠ .error .diverge := by
  unfold Op.recvCtrl
  have hi : ∀ (i : Inp V), i.receive m ≠ .error .diverge := by
    intro i h; unfold Inp.receive at h; split at h <;> split at h <;> simp [throwExc, undefined] at h
  have hb : ∀ c : Core V, c.receiveCtrlBase m p ≠ .error .diverge := by
    intro c h
    unfold Core.receiveCtrlBase at h
    simp only [] at h
    split at h
    · simp [throwExc] at h
    · rename_i i hf
      cases hr : i.receive m with
      | ok i' => rw [hr] at h; cases h
      | error e => rw [hr] at h; exact hi i (by rw [hr]; cases h; rfl)
  have hd : ∀ c : Core V, c.receiveCtrlDemux m p ≠ .error .diverge := by
    intro c h
    unfold Core.receiveCtrlDemux at h
    simp only [] at h
    split at h <;> simp [throwExc] at h
  intro h
  cases hk : o.kind <;> rw [hk] at h <;> simp only [] at h
  all_goals
    first
    | (cases hx : o.core.receiveCtrlBase m p with
      | ok c => rw [hx] at h; cases h
      | error e => rw [hx] at h; exact hb o.core (by rw [hx]; cases h; rfl))
    | (cases hx : o.core.receiveCtrlDemux m p with
      | ok c => rw [hx] at h; cases h
      | error e => rw [hx] at h; exact hd o.core (by rw [hx]; cases h; rfl))

theorem localRun_recvCtrl_nd (a : Nat) (m : Msg V) (p : Str) (s : St V) : ND (localRun a (updWith fun o => o.recvCtrl m p) s) := by
  intro t h
  simp only [localRun, updWith] at h
  cases ho : s.heap a with
  | none => rw [ho] at h; cases h
  | some o =>
    rw [ho] at h
    simp only [] at h
    cases hx : o.recvCtrl m p with
    | ok o' => rw [hx] at h; cases h
    | error e => rw [hx] at h; simp only [Res.err.injEq] at h; exact recvCtrl_nd_local o m p (by rw [hx, h.1])

theorem recvData_nd (fuel : Nat) : ∀ (s : St V) frm a m p, Going rank s0 s → rank a < fuel → ND (recvData fuel frm a m p s) := by
  induction fuel with
  | zero => intro s _ _ _ _ _ h; omega
  | succ fuel ih =>
    intro s frm a m p g hr
    cases ho : s.heap a with
    | none => rw [recvData_none ho]; exact nd_err _ (by simp)
    | some o =>
      have fwd : ¬ Simple o → Steps Any s (s.ev (.recv frm a p false m)) := fun hn =>
        Steps.event s (.recv frm a p false m) trivial fun o' ho' hs => by
          simp only [addr] at ho'; rw [ho] at ho'; cases ho'; exact absurd hs hn
      rcases kind_cases o with ⟨i, q, hk⟩ | ⟨q, hk⟩ | ⟨inputs, outs, pm, hk⟩ | hs
      · rw [recvData_comp ho hk]
        refine ih _ _ _ _ _ (g.next (fwd (by simp [Simple, hk]))) ?_
        have := g.edge ho (b := i) (by simp [nexts, hk])
        omega
      · rw [recvData_comp' ho hk]; exact nd_err _ (by simp)
      · have hn : ¬ Simple o := by simp [Simple, hk]
        rw [recvData_pipe ho hk]
        have hpp : ∀ e, pipelinePort inputs pm p = .error e → e ≠ .diverge := by
          rintro e he rfl
          unfold pipelinePort at he
          split at he
          · split at he <;> simp [throwExc] at he
          · split at he <;> simp [throwExc] at he
        split
        · rename_i e he; exact nd_err _ (hpp e he)
        · split
          · exact nd_err _ (by simp)
          · rename_i key _ _ t ht
            have hlt := g.edge ho (b := t) (by
                simp only [nexts, hk, List.mem_append]
                exact Or.inr (List.mem_map.2 ⟨_, find?_mem ht, rfl⟩))
            have hi := ih (s.ev (.recv frm a p false m)) none t m (split2 key).2 (g.next (fwd hn)) (by omega)
            split
            · rename_i e s' he; rw [he] at hi; exact nd_err _ fun h => hi s' (by rw [h])
            · rename_i s' _
              simp only [localRun]
              cases s'.heap a <;> simp only []
              · exact nd_err _ (by simp)
              · exact nd_ok _ _
      · rw [recvData_simple ho hs]
        simp only [localRun, ho, updWith]
        have := g.act ho hs (.recvData p m)
        cases hx : o.recvData m p with
        | ok o' => exact nd_ok _ _
        | error e =>
          refine nd_err _ ?_
          rintro rfl
          exact this (by simp [act, hx])

theorem recvCtrl_nd (fuel : Nat) : ∀ (s : St V) frm a m p, Going rank s0 s → rank a < fuel → ND (recvCtrl fuel frm a m p s) := by
  induction fuel with
  | zero => intro s _ _ _ _ _ h; omega
  | succ fuel ih =>
    intro s frm a m p g hr
    cases ho : s.heap a with
    | none => rw [recvCtrl_none ho]; exact nd_err _ (by simp)
    | some o =>
      have fwd : ¬ Simple o → Steps Any s (s.ev (.recv frm a p true m)) := fun hn =>
        Steps.event s (.recv frm a p true m) trivial fun o' ho' hs => by
          simp only [addr] at ho'; rw [ho] at ho'; cases ho'; exact absurd hs hn
      rcases kind_cases o with ⟨i, q, hk⟩ | ⟨q, hk⟩ | ⟨inputs, outs, pm, hk⟩ | hs
      · rw [recvCtrl_comp ho hk]
        refine ih _ _ _ _ _ (g.next (fwd (by simp [Simple, hk]))) ?_
        have := g.edge ho (b := i) (by simp [nexts, hk])
        omega
      · rw [recvCtrl_comp' ho hk]; exact nd_err _ (by simp)
      · rw [recvCtrl_other ho (by simp [hk])]; exact localRun_recvCtrl_nd _ _ _ _
      · rw [recvCtrl_other ho (by intro i q hk; simp [Simple, hk] at hs)]; exact localRun_recvCtrl_nd _ _ _ _

theorem deliver_nd (fuel : Nat) (src : Nat × Str) (m : Msg V) (c : Conn) (g : Going rank s0 s) (hr : rank c.target < fuel) :
    ND (deliver fuel src m () c s) := by
  simp only [deliver, M.bind_def, getOp]
  cases s.heap c.target with
  | none => exact nd_err _ (by simp)
  | some t =>
    dsimp only
    split
    · exact recvData_nd fuel s _ _ _ _ g hr
    · split
      · exact recvCtrl_nd fuel s _ _ _ _ g hr
      · exact nd_ok _ _

/-- What is assumed of the recursive calls. -/
def ExND (rank : Nat → Nat) (s0 : St V) (k : Nat) (ex : Bool → Nat → M (St V) (ProgMsg V)) : Prop :=
  ExSteps Any ex ∧ ∀ (s : St V) ctrl a, Going rank s0 s → rank a < k → ND (ex ctrl a s)

theorem nd_merge {x : M (St V) (ProgMsg V)} {f : ProgMsg V → ProgMsg V} (h : ND (x s)) : ND ((x >>= fun r => pure (f r)) s) :=
  nd_bind h fun _ _ _ => nd_ok _ _

theorem trigger_nd {k : Nat} {ex : Bool → Nat → M (St V) (ProgMsg V)} (hex : ExND rank s0 k ex) (out : ProgMsg V) (c : Conn)
    (g : Going rank s0 s) (hr : rank c.target < k) : ND (trigger ex out c s) := by
  simp only [trigger, M.bind_def, getOp]
  cases s.heap c.target with
  | none => exact nd_err _ (by simp)
  | some t =>
    dsimp only
    split
    · exact nd_merge (hex.2 s false _ g hr)
    · split
      · exact nd_merge (hex.2 s true _ g hr)
      · exact nd_ok _ _

theorem emitMsg_nd {k : Nat} {ex : Bool → Nat → M (St V) (ProgMsg V)} (hex : ExND rank s0 k ex) (fuel a : Nat) (port : Str)
    (m : Msg V) (g : Going rank s0 s) (hk : rank a ≤ k) (hf : rank a ≤ fuel) : ND (emitMsg ex fuel a port m s) := by
  simp only [emitMsg, M.bind_def, getOp]
  cases ho : s.heap a with
  | none => exact nd_err _ (by simp)
  | some o =>
    simp only [M.get, logEv]
    have h1 : Steps Any s { s with log := s.log ++ [.emit s.depth a o.core.id port m] } :=
      Steps.event s (.emit s.depth a o.core.id port m) trivial fun _ _ _ => rfl
    cases hp : o.core.outputs.find? port with
    | none => exact nd_ok _ _
    | some conns =>
      dsimp only
      have hcl : ∀ c ∈ conns, rank c.target < rank a := fun c hcm => g.edge ho (by
        simp only [nexts, List.mem_append, List.mem_flatMap]
        exact Or.inl ⟨_, find?_mem hp, List.mem_map.2 ⟨c, hcm, rfl⟩⟩)
      refine nd_bind ?_ ?_
      · exact nd_fold (Going rank s0) conns (fun _ c s' hcm g' => deliver_nd fuel _ m c g' (by have := hcl c hcm; omega))
          (fun _ c s' hcm g' => g'.next (deliver_steps fuel _ m c s' g'.ctx trivial)) () _ (g.next h1)
      · intro _ s2 he
        have hd := state_fold (R := Steps Any) (Steps.refl Any) (fun _ _ _ => Steps.trans) conns ()
          { s with log := s.log ++ [.emit s.depth a o.core.id port m] } (f := deliver fuel (a, port) m) fun _ c s' hcm hs =>
          deliver_steps fuel _ m c s' (((g.next h1).next hs).ctx) trivial
        rw [he] at hd
        exact nd_fold (Going rank s0) conns (fun out c s' hcm g' => trigger_nd hex out c g' (by have := hcl c hcm; omega))
          (fun out c s' hcm g' => g'.next (trigger_steps hex.1 out c s' g'.ctx trivial)) _ _ ((g.next h1).next hd)

theorem emitPort_nd {k : Nat} {ex : Bool → Nat → M (St V) (ProgMsg V)} (hex : ExND rank s0 k ex) (fuel a : Nat) (port : Str)
    (ms : PortMsg V) (g : Going rank s0 s) (hk : rank a ≤ k) (hf : rank a ≤ fuel) : ND (emitPort ex fuel a port ms s) :=
  nd_fold (Going rank s0) ms (fun _ m _ _ g' => nd_merge (emitMsg_nd hex fuel a port m g' hk hf))
    (fun _ m s' _ g' => g'.next (state_bind (R := Steps Any) (fun _ _ _ => Steps.trans) (emitMsg_steps hex.1 fuel a port m s' g'.ctx trivial)
      fun _ s'' _ _ => Steps.refl Any s'')) _ _ g

theorem emitOp_nd {k : Nat} {ex : Bool → Nat → M (St V) (ProgMsg V)} (hex : ExND rank s0 k ex) (fuel a : Nat)
    (msgs : OpMsg V) (g : Going rank s0 s) (hk : rank a ≤ k) (hf : rank a ≤ fuel) : ND (emitOp ex fuel a msgs s) := by
  refine nd_fold (Going rank s0) msgs (fun out pm s' _ g' => ?_) (fun out pm s' _ g' => ?_) _ _ g
  · simp only [M.bind_def, getOp]
    cases s'.heap a with
    | none => exact nd_err _ (by simp)
    | some o =>
      dsimp only
      split
      · exact nd_merge (emitPort_nd hex fuel a pm.1 pm.2 g' hk hf)
      · exact nd_err _ (by simp)
  · refine g'.next ?_
    simp only [M.bind_def, getOp]
    cases s'.heap a with
    | none => exact Steps.refl _ s'
    | some o =>
      dsimp only
      split
      · exact state_bind (R := Steps Any) (fun _ _ _ => Steps.trans) (emitPort_steps hex.1 fuel a pm.1 pm.2 s' g'.ctx trivial)
          fun _ s'' _ _ => Steps.refl Any s''
      · exact Steps.refl _ s'

theorem pipelineOutput_nd (outs : Map Nat) (pm : Map Str) (l : List (Str × Str × PortMsg V)) :
    ∀ out, pipelineOutput outs pm l out ≠ .error .diverge := by
  induction l with
  | nil => intro out h; cases h
  | cons e l ih =>
    obtain ⟨id, port, v⟩ := e
    intro out h
    rw [pipelineOutput] at h
    split at h
    · split at h
      · exact ih _ h
      · simp [throwExc] at h
    · exact ih _ h

theorem exec_nd (fuel : Nat) : ∀ (s : St V) ctrl a, Going rank s0 s → rank a < fuel → ND (exec fuel ctrl a s) := by
  induction fuel with
  | zero => intro s _ _ _ h; omega
  | succ fuel ih =>
    have hex : ExND rank s0 fuel (exec (V := V) fuel) := ⟨exec_steps Any fuel, ih⟩
    intro s ctrl a g hr
    cases ho : s.heap a with
    | none => rw [exec_none ho]; exact nd_err _ (by simp)
    | some o =>
      have fwd : ¬ Simple o → Steps Any s (s.ev (.exec a ctrl)) := fun hn =>
        Steps.event s (.exec a ctrl) trivial fun o' ho' hs => by
          simp only [addr] at ho'; rw [ho] at ho'; cases ho'; exact absurd hs hn
      rcases kind_cases o with ⟨i, q, hk⟩ | ⟨q, hk⟩ | ⟨inputs, outs, pm, hk⟩ | hs
      · rw [exec_comp ho hk]
        refine ih _ _ _ (g.next (fwd (by simp [Simple, hk]))) ?_
        have := g.edge ho (b := i) (by simp [nexts, hk])
        omega
      · rw [exec_comp' ho hk]; exact nd_err _ (by simp)
      · have hn : ¬ Simple o := by simp [Simple, hk]
        cases ctrl with
        | true => rw [exec_pipe_ctrl ho hk]; exact nd_ok _ _
        | false =>
          rw [exec_pipe ho hk]
          have hin : ∀ b ∈ inputs.map (·.2), rank b < rank a := fun b hb =>
            g.edge ho (by simp only [nexts, hk, List.mem_append]; exact Or.inr hb)
          have h0 : Steps Any (s.ev (.exec a false)) { s.ev (.exec a false) with depth := s.depth + 1 } := Steps.depth Any _ _
          have g0 := (g.next (fwd hn)).next h0
          have h1 := state_fold (R := Steps Any) (Steps.refl Any) (fun _ _ _ => Steps.trans)
            (f := pipelineStep (exec fuel) inputs) o.core.toProcess [] _ fun out key s' _ hs =>
              pipelineStep_steps (exec_steps Any fuel) inputs out key s' ((g0.next hs).ctx) fun _ _ => trivial
          have n1 := nd_fold (f := pipelineStep (exec fuel) inputs) (Going rank s0) o.core.toProcess (fun out key s' _ g' => by
              unfold pipelineStep
              cases ht : inputs.find? key with
              | none => exact nd_err _ (by simp)
              | some t =>
                refine nd_merge (ih _ _ _ g' ?_)
                have := hin t (List.mem_map.2 ⟨_, find?_mem ht, rfl⟩)
                omega)
            (fun out key s' _ g' => g'.next (pipelineStep_steps (exec_steps Any fuel) inputs out key s' g'.ctx fun _ _ => trivial)) [] _ g0
          split
          · rename_i e s' he
            rw [he] at n1
            exact nd_err _ fun h => n1 s' (by rw [h])
          · rename_i r s1 he
            rw [he] at h1
            have h2 : Steps Any (s.ev (.exec a false)) { s1 with depth := s.depth } := (h0.trans h1).trans (Steps.depth Any _ _)
            obtain ⟨o1, ho1, hf1⟩ := h2.shape.get (show _ = some o from ho)
            simp only at ho1
            have hn1 : ¬ Simple o1 := fun h => hn ((simple_of_fresh hf1).1 h)
            rw [ho1]
            have h3 := Steps.forward (e := .exec a false) (o' := clearProcess o1) h2 trivial ho1 hn1 rfl
            dsimp only
            split
            · exact nd_ok _ _
            · split
              · rename_i e hp
                exact nd_err _ fun h => pipelineOutput_nd outs pm _ _ (by rw [hp, h])
              · rename_i out _
                exact emitOp_nd hex fuel a out (g.next h3) (by omega) (by omega)
      · rw [exec_simple ho hs]
        have key := Steps.call (S := Any) s (.exec a ctrl) (if ctrl then .execCtrl else .execData) o
          (if ctrl then o.execCtrl else o.execData).state trivial (by cases ctrl <;> simp [actOf, addr]) ho
          (by cases ctrl
              · simp only [act, Bool.false_eq_true, if_false]; cases o.execData <;> rfl
              · simp only [act, if_true]; cases o.execCtrl <;> rfl)
          (by cases ctrl
              · exact execData_fresh o
              · exact execCtrl_fresh o)
        split
        · rename_i e o' hx
          exact nd_err _ (g.exec ho hs hx)
        · rename_i out o' hx
          rw [hx] at key
          exact emitOp_nd hex fuel a out (g.next key) (by omega) (by omega)

theorem feed_nd (fuel a : Nat) (p : Str) (m : Msg V) (g : Going rank s0 s) (hr : rank a < fuel) : ND (feed fuel a p m s) := by
  unfold feed
  refine nd_bind (recvData_nd fuel s _ _ _ _ g hr) fun _ s' he => ?_
  have := recvData_steps Any fuel s none a m p g.ctx trivial
  rw [he] at this
  exact exec_nd fuel s' _ _ (g.next this) hr

theorem receiveDebug_nd {fuel : Nat} {P : Prog V} {msgs : OpMsg V} (g : Going rank P.st P.st)
    (hr : ∀ a, P.ops.find? P.entry = some a → rank a < fuel) : ND (P.receiveDebug fuel msgs) := by
  unfold Prog.receiveDebug
  cases ha : P.ops.find? P.entry with
  | none => exact nd_err _ (by simp)
  | some a =>
    have hra := hr a ha
    have : ND (feedAll fuel a msgs P.st) := by
      refine nd_fold (Going rank P.st) msgs (fun out pm s' _ g' => ?_)
        (fun out pm s' _ g' => g'.next (feedPort_steps fuel a pm.1 pm.2 out s' g'.ctx trivial)) _ _ g
      exact nd_fold (Going rank P.st) pm.2 (fun _ m _ _ g' => nd_merge (feed_nd fuel a pm.1 m g' hra))
        (fun _ m s' _ g' => g'.next (state_bind (R := Steps Any) (fun _ _ _ => Steps.trans) (feed_steps fuel a pm.1 m s' g'.ctx trivial)
          fun _ s'' _ _ => Steps.refl Any s'')) _ _ g'
    simp only []
    cases h : feedAll fuel a msgs P.st with
    | ok r s => exact nd_ok _ _
    | err e s => rw [h] at this; exact nd_err _ fun he => this s (by rw [he])

/-! ## Numbering an acyclic graph -/

open Classical in
/-- The number of operators strictly downstream of `a`. -/
noncomputable def downCount (h : Nat → Option (Op V)) (n a : Nat) : Nat :=
  (Finset.univ.filter fun b : Fin n => ∃ c, Edge h a c ∧ Reach h c b).card

theorem downCount_lt {h : Nat → Option (Op V)} {n : Nat} (hn : ∀ a b, Edge h a b → b < n) (hac : Acyclic h)
    {a b : Nat} (he : Edge h a b) : downCount h n b < downCount h n a := by
  classical
  unfold downCount
  apply Finset.card_lt_card
  rw [Finset.ssubset_iff_of_subset]
  · refine ⟨⟨b, hn a b he⟩, ?_, ?_⟩
    · simp only [Finset.mem_filter, Finset.mem_univ, true_and]
      exact ⟨b, he, .refl⟩
    · simp only [Finset.mem_filter, Finset.mem_univ, true_and]
      rintro ⟨c, h1, h2⟩
      exact hac b c h1 h2
  · intro x hx
    simp only [Finset.mem_filter, Finset.mem_univ, true_and] at hx ⊢
    obtain ⟨c, h1, h2⟩ := hx
    refine ⟨b, he, ?_⟩
    have : ∀ y, Reach h c y → Reach h b y := by
      intro y hy
      induction hy with
      | refl => exact .step .refl h1
      | step _ e ih => exact .step ih e
    exact this _ h2

theorem downCount_le (h : Nat → Option (Op V)) (n a : Nat) : downCount h n a ≤ n := by
  classical
  unfold downCount
  exact (Finset.card_le_univ _).trans (by simp)

end Rtbot
