import Verif.Lemmas.Report

set_option linter.unusedSectionVars false

/-! # What a call does depends only on the operators it can reach

From two states that agree on a set of operators closed under connections, the same call on an operator of the set has the same outcome and leads to states
that agree on the set again. The ghost state has no influence. -/

namespace Rtbot
variable {V : Type} [Num V]
open Spec

/-- The states agree on the operators in `S`. -/
def AgreeOn (S : Nat → Prop) (s s' : St V) : Prop := ∀ b, S b → s.heap b = s'.heap b

/-- The operators in `S` are well-formed and hand messages only to operators in `S`. -/
def GoodOn (S : Nat → Prop) (h : Nat → Option (Op V)) : Prop := ∀ b o, S b → h b = some o → o.core.WF ∧ ∀ c ∈ nexts o, S c

/-- The same outcome, and agreeing states. -/
def Same {α β : Type} (S : Nat → Prop) (Q : α → β → Prop) : Res (St V) α → Res (St V) β → Prop
  | .ok x s, .ok y s' => Q x y ∧ AgreeOn S s s' ∧ GoodOn S s.heap
  | .err e s, .err e' s' => e = e' ∧ AgreeOn S s s' ∧ GoodOn S s.heap
  | _, _ => False

/-- The computations have the same outcomes from agreeing states. -/
def Local {α β : Type} (S : Nat → Prop) (Q : α → β → Prop) (x : M (St V) α) (y : M (St V) β) : Prop :=
  ∀ s s', AgreeOn S s s' → GoodOn S s.heap → Same S Q (x s) (y s')

variable {S : Nat → Prop}

theorem AgreeOn.refl (s : St V) : AgreeOn S s s := fun _ _ => rfl

theorem AgreeOn.symm {s s' : St V} (h : AgreeOn S s s') : AgreeOn S s' s := fun b hb => (h b hb).symm

theorem AgreeOn.trans {s s' s'' : St V} (h : AgreeOn S s s') (h' : AgreeOn S s' s'') : AgreeOn S s s'' := fun b hb => (h b hb).trans (h' b hb)

theorem AgreeOn.good {s s' : St V} (h : AgreeOn S s s') (g : GoodOn S s.heap) : GoodOn S s'.heap := fun b o hb ho => g b o hb (by rw [h b hb]; exact ho)

theorem goodOn_of {h : Nat → Option (Op V)} (hw : HeapWF h) (hc : Closed S h) : GoodOn S h := fun b o hb ho => ⟨hw b o ho, fun c hcm => hc b c hb ⟨o, ho, hcm⟩⟩

theorem GoodOn.closed {h : Nat → Option (Op V)} (g : GoodOn S h) : Closed S h := fun a b ha ⟨o, ho, hb⟩ => (g a o ha ho).2 b hb

theorem Local.bind {α β γ δ : Type} {Q : α → β → Prop} {P : γ → δ → Prop} {x : M (St V) α} {y : M (St V) β} {f : α → M (St V) γ} {g : β → M (St V) δ}
    (h : Local S Q x y) (hf : ∀ a b, Q a b → Local S P (f a) (g b)) : Local S P (x >>= f) (y >>= g) := by
  intro s s' ha hg
  have := h s s' ha hg
  rw [M.bind_def, M.bind_def]
  cases hx : x s <;> cases hy : y s' <;> rw [hx, hy] at this <;> first | exact this.elim | skip
  · exact hf _ _ this.1 _ _ this.2.1 this.2.2
  · exact this

theorem Local.pure {α β : Type} {Q : α → β → Prop} {a : α} {b : β} (h : Q a b) : Local (V := V) S Q (Pure.pure a) (Pure.pure b) :=
  fun _ _ ha hg => ⟨h, ha, hg⟩

theorem Local.throw {α β : Type} {Q : α → β → Prop} (e : Err) : Local S Q (M.throw e : M (St V) α) (M.throw e : M (St V) β) := fun _ _ ha hg => ⟨rfl, ha, hg⟩

theorem Local.lift {α : Type} (x : Except Err α) : Local S Eq (M.lift x : M (St V) α) (M.lift x) := by
  intro s s' ha hg
  cases x
  · exact ⟨rfl, ha, hg⟩
  · exact ⟨rfl, ha, hg⟩

theorem Local.log (e e' : Ev V) : Local S Eq (logEv e) (logEv e') := fun _ _ ha hg => ⟨rfl, ha, hg⟩

theorem Local.depth (d d' : Nat) : Local (V := V) S Eq (setDepth d) (setDepth d') := fun _ _ ha hg => ⟨rfl, ha, hg⟩

theorem Local.get : Local S (fun _ _ => True) (M.get : M (St V) (St V)) M.get := fun _ _ ha hg => ⟨trivial, ha, hg⟩

theorem Local.fold {α β : Type} {f g : β → α → M (St V) β} (l : List α) (h : ∀ b, ∀ x ∈ l, Local S Eq (f b x) (g b x)) :
    ∀ b, Local S Eq (M.fold f l b) (M.fold g l b) := by
  induction l with
  | nil => intro b; exact Local.pure rfl
  | cons x l ih =>
    intro b
    refine Local.bind (h b x (by simp)) fun b' c' hq' => ?_
    cases hq'
    exact ih (fun b y hy => h b y (List.mem_cons_of_mem _ hy)) b'

/-- What is known of an operator found in `S`. -/
def Has (S : Nat → Prop) (o o' : Op V) : Prop := o = o' ∧ o.core.WF ∧ ∀ c ∈ nexts o, S c

theorem Local.getOp {a : Nat} (hS : S a) : Local (V := V) S (Has S) (getOp a) (getOp a) := by
  intro s s' ha hg
  unfold Rtbot.getOp
  rw [← ha a hS]
  cases ho : s.heap a with
  | none => exact ⟨rfl, ha, hg⟩
  | some o => exact ⟨⟨rfl, hg a o hS ho⟩, ha, hg⟩

theorem AgreeOn.set {s s' : St V} (ha : AgreeOn S s s') (a : Nat) (o : Op V) : AgreeOn S (s.setOp a o) (s'.setOp a o) := by
  intro b hb
  rw [setOp_heap, setOp_heap]
  split
  · rfl
  · exact ha b hb

theorem GoodOn.set {s : St V} {a : Nat} {o o' : Op V} (hg : GoodOn S s.heap) (ho : s.heap a = some o) (hf : o'.fresh = o.fresh) :
    GoodOn S (s.setOp a o').heap := by
  intro b n hb hn
  rw [setOp_heap] at hn
  split at hn
  · rename_i h
    subst h
    cases hn
    obtain ⟨h1, h2⟩ := hg b o hb ho
    exact ⟨Core.WF.of_fresh (congrArg Op.core hf) h1, by rw [nexts_of_fresh hf]; exact h2⟩
  · exact hg b n hb hn

theorem Local.run {α : Type} {a : Nat} (hS : S a) {f : Op V → Res (Op V) α} (hf : ∀ o, o.core.WF → (f o).state.fresh = o.fresh) :
    Local S Eq (localRun a f) (localRun a f) := by
  intro s s' ha hg
  unfold localRun
  rw [← ha a hS]
  cases ho : s.heap a with
  | none => exact ⟨rfl, ha, hg⟩
  | some o =>
    have := hf o (hg a o hS ho).1
    dsimp only
    cases hx : f o <;> rw [hx] at this
    · exact ⟨rfl, ha.set a _, hg.set ho this⟩
    · exact ⟨rfl, ha.set a _, hg.set ho this⟩

theorem updWith_fresh {f : Op V → Except Err (Op V)} (hf : ∀ {o o'}, o.core.WF → f o = .ok o' → o'.fresh = o.fresh) (o : Op V) (hw : o.core.WF) :
    (updWith f o).state.fresh = o.fresh := by
  unfold updWith
  cases h : f o with
  | ok o' => exact hf hw h
  | error e => rfl

theorem recvData_local (fuel : Nat) : ∀ (frm frm' : Option (Nat × Str)) (a : Nat) (m : Msg V) (p : Str), S a →
    Local S Eq (recvData fuel frm a m p) (recvData fuel frm' a m p) := by
  induction fuel with
  | zero => intro frm frm' a m p _; exact Local.throw _
  | succ fuel ih =>
    intro frm frm' a m p hS
    unfold recvData
    refine Local.bind (Local.log _ _) fun _ _ _ => Local.bind (Local.getOp hS) ?_
    rintro o _ ⟨rfl, _, hn⟩
    have hsimple : Local S Eq (localRun a (updWith fun o => o.recvData m p)) (localRun a (updWith fun o => o.recvData m p)) :=
      Local.run hS (updWith_fresh fun hw h => recvData_fresh hw h)
    cases hk : o.kind <;> (try dsimp only) <;> first | exact hsimple | skip
    · rename_i i q
      cases i with
      | none => exact Local.throw _
      | some i => exact ih _ _ _ _ _ (hn i (by simp [nexts, hk]))
    · rename_i ins outs pm
      refine Local.bind (Local.lift _) ?_
      rintro key _ rfl
      cases ht : ins.find? key with
      | none => exact Local.throw _
      | some t =>
        dsimp only
        have ht' : S t := hn t (by simp only [nexts, hk, List.mem_append]; exact Or.inr (List.mem_map.2 ⟨_, find?_mem ht, rfl⟩))
        refine Local.bind (ih _ _ _ _ _ ht') fun _ _ _ => ?_
        exact Local.run hS fun o _ => rfl

theorem recvCtrl_local (fuel : Nat) : ∀ (frm frm' : Option (Nat × Str)) (a : Nat) (m : Msg V) (p : Str), S a →
    Local S Eq (recvCtrl fuel frm a m p) (recvCtrl fuel frm' a m p) := by
  induction fuel with
  | zero => intro frm frm' a m p _; exact Local.throw _
  | succ fuel ih =>
    intro frm frm' a m p hS
    unfold recvCtrl
    refine Local.bind (Local.log _ _) fun _ _ _ => Local.bind (Local.getOp hS) ?_
    rintro o _ ⟨rfl, _, hn⟩
    have hsimple : Local S Eq (localRun a (updWith fun o => o.recvCtrl m p)) (localRun a (updWith fun o => o.recvCtrl m p)) :=
      Local.run hS (updWith_fresh fun hw h => recvCtrl_fresh hw h)
    cases hk : o.kind <;> (try dsimp only) <;> first | exact hsimple | skip
    rename_i i q
    cases i with
    | none => exact Local.throw _
    | some i => exact ih _ _ _ _ _ (hn i (by simp [nexts, hk]))

theorem deliver_local (fuel : Nat) (src src' : Nat × Str) (m : Msg V) (u : Unit) (c : Conn) (hS : S c.target) :
    Local S Eq (deliver fuel src m u c) (deliver fuel src' m u c) := by
  unfold deliver
  refine Local.bind (Local.getOp hS) ?_
  rintro t _ ⟨rfl, _, _⟩
  split
  · exact recvData_local fuel _ _ _ _ _ hS
  · split
    · exact recvCtrl_local fuel _ _ _ _ _ hS
    · exact Local.pure rfl

/-- Executing operators in `S` has the same outcome. -/
def ExLocal (S : Nat → Prop) (ex : Bool → Nat → M (St V) (ProgMsg V)) : Prop := ∀ ctrl a, S a → Local S Eq (ex ctrl a) (ex ctrl a)

variable {ex : Bool → Nat → M (St V) (ProgMsg V)}

theorem trigger_local (hex : ExLocal S ex) (out : ProgMsg V) (c : Conn) (hS : S c.target) : Local S Eq (trigger ex out c) (trigger ex out c) := by
  unfold trigger
  refine Local.bind (Local.getOp hS) ?_
  rintro t _ ⟨rfl, _, _⟩
  split
  · exact Local.bind (hex _ _ hS) fun r r' hr => by cases hr; exact Local.pure rfl
  · split
    · exact Local.bind (hex _ _ hS) fun r r' hr => by cases hr; exact Local.pure rfl
    · exact Local.pure rfl

theorem emitMsg_local (hex : ExLocal S ex) (fuel a : Nat) (port : Str) (m : Msg V) (hS : S a) :
    Local S Eq (emitMsg ex fuel a port m) (emitMsg ex fuel a port m) := by
  unfold emitMsg
  refine Local.bind (Local.getOp hS) ?_
  rintro o _ ⟨rfl, _, hn⟩
  refine Local.bind Local.get fun t t' _ => Local.bind (Local.log _ _) fun _ _ _ => ?_
  dsimp only
  cases hf : o.core.outputs.find? port with
  | none => exact Local.pure rfl
  | some conns =>
    dsimp only
    have hc : ∀ c ∈ conns, S c.target := fun c hc => hn _ (by
      simp only [nexts, List.mem_append, List.mem_flatMap]
      exact Or.inl ⟨_, find?_mem hf, List.mem_map.2 ⟨c, hc, rfl⟩⟩)
    refine Local.bind (Local.fold conns (fun u c hcm => deliver_local fuel _ _ m u c (hc c hcm)) ()) fun _ _ _ => ?_
    exact Local.fold conns (fun b c hcm => trigger_local hex b c (hc c hcm)) _

theorem emitOp_local (hex : ExLocal S ex) (fuel a : Nat) (msgs : OpMsg V) (hS : S a) : Local S Eq (emitOp ex fuel a msgs) (emitOp ex fuel a msgs) := by
  unfold emitOp
  refine Local.fold msgs (fun b pm _ => ?_) _
  refine Local.bind (Local.getOp hS) ?_
  rintro o _ ⟨rfl, _, hn⟩
  split
  · refine Local.bind (Q := Eq) ?_ fun r r' hr => by cases hr; exact Local.pure rfl
    refine Local.fold pm.2 (fun b m _ => ?_) _
    exact Local.bind (emitMsg_local hex fuel a pm.1 m hS) fun r r' hr => by cases hr; exact Local.pure rfl
  · exact Local.throw _

theorem exec_local (fuel : Nat) : ExLocal (V := V) S (exec fuel) := by
  induction fuel with
  | zero => intro ctrl a _; exact Local.throw _
  | succ fuel ih =>
    intro ctrl a hS
    unfold exec
    refine Local.bind (Local.log _ _) fun _ _ _ => Local.bind (Local.getOp hS) ?_
    rintro o _ ⟨rfl, _, hn⟩
    have hsimple : Local S Eq (do
        let out ← localRun a (if ctrl then Op.execCtrl else Op.execData)
        emitOp (exec (V := V) fuel) fuel a out) (do
        let out ← localRun a (if ctrl then Op.execCtrl else Op.execData)
        emitOp (exec fuel) fuel a out) := by
      refine Local.bind (Local.run hS fun o _ => ?_) ?_
      · cases ctrl
        · exact execData_fresh o
        · exact execCtrl_fresh o
      · rintro out _ rfl
        exact emitOp_local ih fuel a out hS
    cases hk : o.kind <;> (try dsimp only) <;> first | exact hsimple | skip
    · rename_i i q
      cases i with
      | none => exact Local.throw _
      | some i => exact ih _ _ (hn i (by simp [nexts, hk]))
    · rename_i ins outs pm
      cases ctrl with
      | true => exact Local.pure rfl
      | false =>
        simp only [Bool.false_eq_true, if_false]
        refine Local.bind Local.get fun t t' _ => Local.bind (Local.depth _ _) fun _ _ _ => ?_
        refine Local.bind (Q := Eq) (Local.fold _ (fun b key _ => ?_) _) ?_
        · unfold pipelineStep
          cases ht : ins.find? key with
          | none => exact Local.throw _
          | some t =>
            dsimp only
            have ht' : S t := hn t (by simp only [nexts, hk, List.mem_append]; exact Or.inr (List.mem_map.2 ⟨_, find?_mem ht, rfl⟩))
            exact Local.bind (ih _ _ ht') fun r r' hr => by cases hr; exact Local.pure rfl
        · rintro r _ rfl
          refine Local.bind (Local.depth _ _) fun _ _ _ => Local.bind (Local.run hS fun o _ => rfl) fun _ _ _ => ?_
          split
          · exact Local.pure rfl
          · refine Local.bind (Local.lift _) ?_
            rintro out _ rfl
            exact emitOp_local ih fuel a out hS

theorem feed_local (fuel a : Nat) (p : Str) (m : Msg V) (hS : S a) : Local S Eq (feed fuel a p m) (feed fuel a p m) := by
  unfold feed
  exact Local.bind (recvData_local fuel _ _ _ _ _ hS) fun _ _ _ => exec_local fuel _ _ hS

end Rtbot
