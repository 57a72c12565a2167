import Verif.Lemmas.Terminate

set_option linter.unusedSectionVars false

/-! # More fuel does not change an outcome that is not `diverge` -/

namespace Rtbot
variable {V : Type} [Num V]
open Spec

/-- `y` agrees with `x` wherever `x` does not run out of fuel. -/
def Le {σ α : Type} (x y : M σ α) : Prop := ∀ s, ND (x s) → y s = x s

theorem Le.refl {σ α : Type} (x : M σ α) : Le x x := fun _ _ => rfl

theorem Le.trans {σ α : Type} {x y z : M σ α} (h : Le x y) (h' : Le y z) : Le x z := fun s hs => by
  have := h s hs
  rw [h' s (by rw [this]; exact hs), this]

theorem Le.throw {σ α : Type} (y : M σ α) : Le (M.throw .diverge) y := fun s h => absurd rfl (h s)

theorem Le.bind {σ α β : Type} {x x' : M σ α} {f f' : α → M σ β} (h : Le x x') (hf : ∀ a, Le (f a) (f' a)) :
    Le (x >>= f) (x' >>= f') := by
  intro s hs
  rw [M.bind_def] at hs
  rw [M.bind_def, M.bind_def]
  have h1 : ND (x s) := by
    intro t ht
    rw [ht] at hs
    exact hs t rfl
  rw [h s h1]
  cases hx : x s with
  | ok a s' =>
    rw [hx] at hs
    exact hf a s' hs
  | err e s' => rfl

theorem Le.fold {σ α β : Type} {f f' : β → α → M σ β} (h : ∀ b x, Le (f b x) (f' b x)) (l : List α) : ∀ b, Le (M.fold f l b) (M.fold f' l b) := by
  induction l with
  | nil => intro b; exact Le.refl _
  | cons x l ih => intro b; exact Le.bind (h b x) fun b' => ih b'

theorem recvData_le (fuel : Nat) : ∀ frm a (m : Msg V) p, Le (recvData fuel frm a m p) (recvData (fuel + 1) frm a m p) := by
  induction fuel with
  | zero => intro frm a m p; exact Le.throw _
  | succ fuel ih =>
    intro frm a m p
    unfold recvData
    refine Le.bind (Le.refl _) fun _ => Le.bind (Le.refl _) fun o => ?_
    cases o.kind with
    | composite i q =>
      cases i with
      | none => exact Le.refl _
      | some i => exact ih _ _ _ _
    | pipeline inputs outs pm =>
      refine Le.bind (Le.refl _) fun key => ?_
      cases inputs.find? key with
      | none => exact Le.refl _
      | some t => exact Le.bind (ih _ _ _ _) fun _ => Le.refl _
    | _ => exact Le.refl _

theorem recvCtrl_le (fuel : Nat) : ∀ frm a (m : Msg V) p, Le (recvCtrl fuel frm a m p) (recvCtrl (fuel + 1) frm a m p) := by
  induction fuel with
  | zero => intro frm a m p; exact Le.throw _
  | succ fuel ih =>
    intro frm a m p
    unfold recvCtrl
    refine Le.bind (Le.refl _) fun _ => Le.bind (Le.refl _) fun o => ?_
    cases o.kind with
    | composite i q =>
      cases i with
      | none => exact Le.refl _
      | some i => exact ih _ _ _ _
    | _ => exact Le.refl _

theorem deliver_le (fuel : Nat) (src : Nat × Str) (m : Msg V) (u : Unit) (c : Conn) :
    Le (deliver fuel src m u c) (deliver (fuel + 1) src m u c) := by
  unfold deliver
  refine Le.bind (Le.refl _) fun t => ?_
  split
  · exact recvData_le fuel _ _ _ _
  · split
    · exact recvCtrl_le fuel _ _ _ _
    · exact Le.refl _

variable {ex ex' : Bool → Nat → M (St V) (ProgMsg V)}

theorem trigger_le (h : ∀ c a, Le (ex c a) (ex' c a)) (out : ProgMsg V) (c : Conn) : Le (trigger ex out c) (trigger ex' out c) := by
  unfold trigger
  refine Le.bind (Le.refl _) fun t => ?_
  split
  · exact Le.bind (h _ _) fun _ => Le.refl _
  · split
    · exact Le.bind (h _ _) fun _ => Le.refl _
    · exact Le.refl _

theorem emitOp_le (h : ∀ c a, Le (ex c a) (ex' c a)) (fuel a : Nat) (msgs : OpMsg V) :
    Le (emitOp ex fuel a msgs) (emitOp ex' (fuel + 1) a msgs) := by
  refine Le.fold (fun out pm => Le.bind (Le.refl _) fun o => ?_) msgs []
  split
  · refine Le.bind ?_ fun _ => Le.refl _
    refine Le.fold (fun out m => Le.bind ?_ fun _ => Le.refl _) pm.2 []
    unfold emitMsg
    refine Le.bind (Le.refl _) fun o => Le.bind (Le.refl _) fun s => Le.bind (Le.refl _) fun _ => ?_
    dsimp only
    cases o.core.outputs.find? pm.1 with
    | none => exact Le.refl _
    | some conns =>
      exact Le.bind (Le.fold (fun _ c => deliver_le fuel _ m _ c) conns ()) fun _ =>
        Le.fold (fun out c => trigger_le h out c) conns _
  · exact Le.refl _

theorem exec_le (fuel : Nat) : ∀ ctrl a, Le (exec (V := V) fuel ctrl a) (exec (fuel + 1) ctrl a) := by
  induction fuel with
  | zero => intro ctrl a; exact Le.throw _
  | succ fuel ih =>
    intro ctrl a
    unfold exec
    refine Le.bind (Le.refl _) fun _ => Le.bind (Le.refl _) fun o => ?_
    cases o.kind with
    | composite i q =>
      cases i with
      | none => exact Le.refl _
      | some i => exact ih _ _
    | pipeline inputs outs pm =>
      dsimp only
      split
      · exact Le.refl _
      · refine Le.bind (Le.refl _) fun s => Le.bind (Le.refl _) fun _ => Le.bind ?_ fun r => Le.bind (Le.refl _) fun _ =>
          Le.bind (Le.refl _) fun _ => ?_
        · refine Le.fold (fun out key => ?_) _ _
          unfold pipelineStep
          cases inputs.find? key with
          | none => exact Le.refl _
          | some t => exact Le.bind (ih _ _) fun _ => Le.refl _
        · split
          · exact Le.refl _
          · exact Le.bind (Le.refl _) fun out => emitOp_le ih fuel a out
    | _ => exact Le.bind (Le.refl _) fun out => emitOp_le ih fuel a out

theorem feedAll_le (fuel a : Nat) (msgs : OpMsg V) : Le (feedAll fuel a msgs) (feedAll (fuel + 1) a msgs) := by
  refine Le.fold (fun out pm => Le.fold (fun out m => ?_) pm.2 out) msgs []
  exact Le.bind (Le.bind (recvData_le fuel _ _ _ _) fun _ => exec_le fuel _ _) fun _ => Le.refl _

theorem receiveDebug_le (fuel : Nat) (P : Prog V) (msgs : OpMsg V) (h : ND (P.receiveDebug fuel msgs)) :
    P.receiveDebug (fuel + 1) msgs = P.receiveDebug fuel msgs := by
  unfold Prog.receiveDebug at h ⊢
  cases ha : P.ops.find? P.entry with
  | none => rfl
  | some a =>
    rw [ha] at h
    simp only [] at h ⊢
    rw [feedAll_le fuel a msgs P.st]
    intro s hs
    rw [hs] at h
    exact h _ rfl

theorem receiveDebug_fuel {fuel fuel' : Nat} (hf : fuel ≤ fuel') (P : Prog V) (msgs : OpMsg V) (h : ND (P.receiveDebug fuel msgs)) :
    P.receiveDebug fuel' msgs = P.receiveDebug fuel msgs := by
  induction hf with
  | refl => rfl
  | step hf ih => rw [receiveDebug_le _ P msgs (by rw [ih]; exact h), ih]

theorem receive_fuel {fuel fuel' : Nat} (hf : fuel ≤ fuel') (P : Prog V) (msgs : OpMsg V) (h : ND (P.receiveDebug fuel msgs)) :
    P.receive fuel' msgs = P.receive fuel msgs := by
  unfold Prog.receive
  rw [receiveDebug_fuel hf P msgs h]

end Rtbot
