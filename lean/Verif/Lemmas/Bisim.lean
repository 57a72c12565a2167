import Verif.Lemmas.Create

set_option linter.unusedSectionVars false

/-! # Two heaps whose operators behave alike

`T ready o o'` relates an operator to its twin; when `ready` the twins give the same results when executed. Receiving a message makes twins
ready, whatever they were before. Operators are only executed after they have received a message. -/

namespace Rtbot
variable {V : Type} [Num V]
open Spec

/-- Outcomes of receiving on twins. -/
def RecvLike (T : Prop → Op V → Op V → Prop) (r r' : Except Err (Op V)) : Prop :=
  match r, r' with
  | .ok n, .ok n' => T True n n'
  | .error e, .error e' => e = e'
  | _, _ => False

/-- Outcomes of executing twins. -/
def ExecLike (T : Prop → Op V → Op V → Prop) (r r' : Res (Op V) (OpMsg V)) : Prop :=
  match r, r' with
  | .ok x n, .ok x' n' => x = x' ∧ T True n n'
  | .err e n, .err e' n' => e = e' ∧ T True n n'
  | _, _ => False

/-- The relation is kept by all methods. -/
structure Twins (T : Prop → Op V → Op V → Prop) : Prop where
  weaken : ∀ {p q : Prop} {o o'}, (q → p) → T p o o' → T q o o'
  fresh : ∀ {p o o'}, T p o o' → o'.fresh = o.fresh
  recvData : ∀ {p o o'}, T p o o' → ∀ m q, RecvLike T (o.recvData m q) (o'.recvData m q)
  recvCtrl : ∀ {p o o'}, T p o o' → ∀ m q, RecvLike T (o.recvCtrl m q) (o'.recvCtrl m q)
  execData : ∀ {o o'}, T True o o' → ExecLike T o.execData o'.execData
  execCtrl : ∀ {o o'}, T True o o' → ExecLike T o.execCtrl o'.execCtrl

variable {T : Prop → Op V → Op V → Prop} {h0 : Nat → Option (Op V)}

/-- Both cells are empty, or they hold twins. -/
inductive Both (T : Op V → Op V → Prop) : Option (Op V) → Option (Op V) → Prop
  | none : Both T none none
  | some {o o' : Op V} : T o o' → Both T (some o) (some o')

theorem Both.mono {T T' : Op V → Op V → Prop} (h : ∀ o o', T o o' → T' o o') {x y : Option (Op V)} (hb : Both T x y) : Both T' x y := by
  cases hb with
  | none => exact .none
  | some hh => exact .some (h _ _ hh)

/-- The states hold twins everywhere, ready ones in `D`, and have the shape `h0`. -/
structure Linked (T : Prop → Op V → Op V → Prop) (h0 : Nat → Option (Op V)) (D : Nat → Prop) (s s' : St V) : Prop where
  cells : ∀ a, Both (T (D a)) (s.heap a) (s'.heap a)
  shape : SameShape h0 s.heap

theorem Linked.weaken (hT : Twins T) {D D' : Nat → Prop} {s s' : St V} (h : Linked T h0 D s s') (hd : ∀ a, D' a → D a) : Linked T h0 D' s s' :=
  ⟨fun a => (h.cells a).mono fun _ _ ht => hT.weaken (hd a) ht, h.shape⟩

/-- No operator is ready. -/
def Nowhere : Nat → Prop := fun _ => False

theorem Linked.start (hT : Twins T) {D : Nat → Prop} {s s' : St V} (h : Linked T h0 D s s') : Linked T h0 Nowhere s s' := h.weaken hT fun _ h => h.elim

/-- Outcomes from linked states. -/
def ResLike {α β : Type} (T : Prop → Op V → Op V → Prop) (h0 : Nat → Option (Op V)) (D : Nat → Prop) (Q : α → β → Prop) :
    Res (St V) α → Res (St V) β → Prop
  | .ok a t, .ok b t' => Q a b ∧ Linked T h0 D t t'
  | .err e t, .err e' t' => e = e' ∧ Linked T h0 Nowhere t t'
  | _, _ => False

/-- The computations give alike outcomes from linked states. -/
def Alike {α β : Type} (T : Prop → Op V → Op V → Prop) (h0 : Nat → Option (Op V)) (D D' : Nat → Prop) (Q : α → β → Prop) (x : M (St V) α)
    (y : M (St V) β) : Prop := ∀ s s', Linked T h0 D s s' → ResLike T h0 D' Q (x s) (y s')

theorem ResLike.weaken {α β : Type} (hT : Twins T) {D D' : Nat → Prop} {Q : α → β → Prop} (hd : ∀ a, D' a → D a) {r : Res (St V) α} {r' : Res (St V) β}
    (h : ResLike T h0 D Q r r') : ResLike T h0 D' Q r r' := by
  cases r <;> cases r' <;> first | exact h.elim | exact h | skip
  exact ⟨h.1, h.2.weaken hT hd⟩

theorem Alike.bind {α β γ δ : Type} {D D1 D2 : Nat → Prop} {Q : α → β → Prop} {P : γ → δ → Prop} {x : M (St V) α} {y : M (St V) β} {f : α → M (St V) γ}
    {g : β → M (St V) δ} (h : Alike T h0 D D1 Q x y) (hf : ∀ a b, Q a b → Alike T h0 D1 D2 P (f a) (g b)) : Alike T h0 D D2 P (x >>= f) (y >>= g) := by
  intro s s' hl
  have := h s s' hl
  rw [M.bind_def, M.bind_def]
  cases hx : x s <;> cases hy : y s' <;> rw [hx, hy] at this <;> first | exact this.elim | skip
  · exact hf _ _ this.1 _ _ this.2
  · exact this

theorem Alike.pure {α β : Type} {D : Nat → Prop} {Q : α → β → Prop} {a : α} {b : β} (h : Q a b) : Alike T h0 D D Q (Pure.pure a) (Pure.pure b) :=
  fun _ _ hl => ⟨h, hl⟩

theorem Alike.throw {α β : Type} (hT : Twins T) {D D' : Nat → Prop} {Q : α → β → Prop} (e : Err) :
    Alike T h0 D D' Q (M.throw e : M (St V) α) (M.throw e : M (St V) β) := fun _ _ hl => ⟨rfl, hl.start hT⟩

theorem Alike.log {D : Nat → Prop} (e e' : Ev V) : Alike T h0 D D Eq (logEv e) (logEv e') := fun _ _ hl => ⟨rfl, hl.cells, hl.shape⟩

theorem Alike.get {D : Nat → Prop} : Alike T h0 D D (fun _ _ => True) (M.get : M (St V) (St V)) M.get := fun _ _ hl => ⟨trivial, hl⟩

theorem Alike.fold {α β γ : Type} {D : Nat → Prop} {Q : β → γ → Prop} {f : β → α → M (St V) β} {g : γ → α → M (St V) γ} (l : List α)
    (h : ∀ b c, ∀ x ∈ l, Q b c → Alike T h0 D D Q (f b x) (g c x)) : ∀ b c, Q b c → Alike T h0 D D Q (M.fold f l b) (M.fold g l c) := by
  induction l with
  | nil => intro b c hq; exact Alike.pure hq
  | cons x l ih =>
    intro b c hq
    exact Alike.bind (h b c x (by simp) hq) fun b' c' hq' => ih (fun b c y hy => h b c y (List.mem_cons_of_mem _ hy)) b' c' hq'

/-- What is known of the operators found at an address. -/
def Found (h0 : Nat → Option (Op V)) (a : Nat) (o o' : Op V) : Prop := ∃ o0, h0 a = some o0 ∧ o.fresh = o0.fresh ∧ o'.fresh = o0.fresh

theorem Alike.getOp (hT : Twins T) {D : Nat → Prop} (a : Nat) : Alike T h0 D D (Found h0 a) (getOp a) (getOp a) := by
  intro s s' hl
  unfold Rtbot.getOp
  have := hl.cells a
  cases hs : s.heap a <;> cases hs' : s'.heap a <;> rw [hs, hs'] at this
  · exact ⟨rfl, hl.start hT⟩
  · cases this
  · cases this
  · cases this with
    | some ht =>
      obtain ⟨o0, h1, h2⟩ := hl.shape.get' hs
      exact ⟨⟨o0, h1, h2.symm, (hT.fresh ht).trans h2.symm⟩, hl⟩

/-- Overwriting a cell on both sides. -/
theorem Linked.set {D : Nat → Prop} {s s' : St V} (hl : Linked T h0 D s s') {a : Nat} {o n n' : Op V} (ho : s.heap a = some o)
    (hf : n.fresh = o.fresh) (ht : T True n n') (hT : Twins T) : Linked T h0 (fun b => D b ∨ b = a) (s.setOp a n) (s'.setOp a n') := by
  constructor
  · intro b
    rw [setOp_heap, setOp_heap]
    by_cases hb : b = a
    · rw [if_pos hb, if_pos hb]
      exact .some (hT.weaken (fun _ => trivial) ht)
    · rw [if_neg hb, if_neg hb]
      exact (hl.cells b).mono fun _ _ h => hT.weaken (fun h => h.resolve_right hb) h
  · intro b
    rw [setOp_heap]
    by_cases hb : b = a
    · rw [if_pos hb, ← hl.shape b, hb, ho]
      simp [hf]
    · rw [if_neg hb]
      exact hl.shape b

variable (hT : Twins T) (hw : HeapWF h0) (hs : ∀ a o, h0 a = some o → Simple o) (hc : ConnsOK h0)
include hT hw hs

theorem Alike.recv {D : Nat → Prop} (a : Nat) {f : Op V → Except Err (Op V)} (hf : ∀ {p o o'}, T p o o' → RecvLike T (f o) (f o'))
    (hfr : ∀ {o o'}, o.core.WF → f o = .ok o' → o'.fresh = o.fresh) :
    Alike T h0 D (fun b => D b ∨ b = a) Eq (localRun a (updWith f)) (localRun a (updWith f)) := by
  intro s s' hl
  unfold localRun
  have := hl.cells a
  cases ho : s.heap a <;> cases ho' : s'.heap a <;> rw [ho, ho'] at this
  · exact ⟨rfl, hl.start hT⟩
  · cases this
  · cases this
  · rename_i o o'
    cases this with
    | some ht =>
      have hr := hf ht
      dsimp only [updWith]
      have hrestore : ∀ (s : St V) (a : Nat) (o : Op V), s.heap a = some o → ∀ b, (s.setOp a o).heap b = s.heap b := by
        intro s a o h b
        rw [setOp_heap]
        split
        · rename_i hb; rw [hb, h]
        · rfl
      cases hn : f o <;> cases hn' : f o' <;> rw [hn, hn'] at hr <;> first | exact hr.elim | skip
      · refine ⟨hr, fun b => ?_, fun b => ?_⟩
        · rw [hrestore s a o ho, hrestore s' a o' ho']
          exact (hl.start hT).cells b
        · rw [hrestore s a o ho]
          exact hl.shape b
      · exact ⟨rfl, hl.set ho (hfr (hl.shape.wf hw a o ho) hn) hr hT⟩

theorem recvData_alike {D : Nat → Prop} (fuel : Nat) (frm : Option (Nat × Str)) (a : Nat) (m : Msg V) (p : Str) :
    Alike T h0 D (fun b => D b ∨ b = a) Eq (recvData fuel frm a m p) (recvData fuel frm a m p) := by
  cases fuel with
  | zero => exact Alike.throw hT _
  | succ fuel =>
    intro s s' hl
    have := hl.cells a
    cases ho : s.heap a <;> cases ho' : s'.heap a <;> rw [ho, ho'] at this
    · rw [recvData_none ho, recvData_none ho']
      exact ⟨rfl, (hl.start hT).cells, hl.shape⟩
    · cases this
    · cases this
    · rename_i o o'
      cases this with
      | some ht =>
        obtain ⟨o0, h1, h2⟩ := hl.shape.get' ho
        have hso := (simple_of_fresh h2).1 (hs a o0 h1)
        have hso' := (simple_of_fresh (hT.fresh ht)).2 hso
        rw [recvData_simple ho hso, recvData_simple ho' hso']
        exact Alike.recv hT hw hs a (f := fun o => o.recvData m p) (fun ht => hT.recvData ht m p) (fun hw h => recvData_fresh hw h) _ _
          ⟨hl.cells, hl.shape⟩

theorem recvCtrl_alike {D : Nat → Prop} (fuel : Nat) (frm : Option (Nat × Str)) (a : Nat) (m : Msg V) (p : Str) :
    Alike T h0 D (fun b => D b ∨ b = a) Eq (recvCtrl fuel frm a m p) (recvCtrl fuel frm a m p) := by
  cases fuel with
  | zero => exact Alike.throw hT _
  | succ fuel =>
    intro s s' hl
    have := hl.cells a
    cases ho : s.heap a <;> cases ho' : s'.heap a <;> rw [ho, ho'] at this
    · rw [recvCtrl_none ho, recvCtrl_none ho']
      exact ⟨rfl, (hl.start hT).cells, hl.shape⟩
    · cases this
    · cases this
    · rename_i o o'
      cases this with
      | some ht =>
        obtain ⟨o0, h1, h2⟩ := hl.shape.get' ho
        have hso := (simple_of_fresh h2).1 (hs a o0 h1)
        have hso' := (simple_of_fresh (hT.fresh ht)).2 hso
        have hk : ∀ {o : Op V}, Simple o → ∀ i q, o.kind ≠ .composite i q := by
          intro o h i q hk
          unfold Simple at h
          rw [hk] at h
          exact h
        rw [recvCtrl_other ho (hk hso), recvCtrl_other ho' (hk hso')]
        exact Alike.recv hT hw hs a (f := fun o => o.recvCtrl m p) (fun ht => hT.recvCtrl ht m p) (fun hw h => recvCtrl_fresh hw h) _ _
          ⟨hl.cells, hl.shape⟩

/-- A delivery over an existing connection makes its target ready. -/
theorem deliver_alike {D : Nat → Prop} (fuel : Nat) (src : Nat × Str) (m : Msg V) (u : Unit) (c : Conn)
    (hport : ∃ t, h0 c.target = some t ∧ (c.port ∈ t.core.dataIn.keys ∨ c.port ∈ t.core.ctrlIn.keys)) :
    Alike T h0 D (fun b => D b ∨ b = c.target) Eq (deliver fuel src m u c) (deliver fuel src m u c) := by
  unfold deliver
  refine Alike.bind (Alike.getOp hT _) fun o o' ⟨o0, h1, h2, h3⟩ => ?_
  obtain ⟨t, h4, h5⟩ := hport
  rw [h4] at h1
  cases h1
  rw [isData_of_fresh h2, isData_of_fresh h3, isCtrl_of_fresh h2, isCtrl_of_fresh h3]
  split
  · exact recvData_alike hT hw hs fuel _ _ _ _
  · rename_i hd
    split
    · exact recvCtrl_alike hT hw hs fuel _ _ _ _
    · rename_i hc
      rcases h5 with h5 | h5
      · exact absurd ((Map.has_iff _ _).2 h5) hd
      · exact absurd ((Map.has_iff _ _).2 h5) hc

theorem delivers_alike (fuel : Nat) (src : Nat × Str) (m : Msg V) (cs : List Conn) : ∀ {D : Nat → Prop} (u : Unit),
    (∀ c ∈ cs, ∃ t, h0 c.target = some t ∧ (c.port ∈ t.core.dataIn.keys ∨ c.port ∈ t.core.ctrlIn.keys)) →
    Alike T h0 D (fun b => D b ∨ ∃ c ∈ cs, b = c.target) Eq (M.fold (deliver fuel src m) cs u) (M.fold (deliver fuel src m) cs u) := by
  induction cs with
  | nil => intro D u _ s s' hl; exact ⟨rfl, hl.weaken hT fun a h => h.elim id fun ⟨c, hc, _⟩ => by cases hc⟩
  | cons c cs ih =>
    intro D u hp
    refine Alike.bind (deliver_alike hT hw hs fuel src m u c (hp c (by simp))) fun u' u'' hu => ?_
    cases hu
    intro s s' hl
    refine (ih u' (fun c' hc' => hp c' (List.mem_cons_of_mem _ hc')) s s' hl).weaken hT fun a h => ?_
    rcases h with h | ⟨c', hc', h⟩
    · exact Or.inl (Or.inl h)
    · rcases List.mem_cons.1 hc' with rfl | hc'
      · exact Or.inl (Or.inr h)
      · exact Or.inr ⟨c', hc', h⟩

/-- Executing ready operators gives alike outcomes. -/
def ExAlike (T : Prop → Op V → Op V → Prop) (h0 : Nat → Option (Op V)) (ex : Bool → Nat → M (St V) (ProgMsg V)) : Prop :=
  ∀ (D : Nat → Prop) ctrl a, D a → Alike T h0 D D Eq (ex ctrl a) (ex ctrl a)

variable {ex : Bool → Nat → M (St V) (ProgMsg V)}

theorem trigger_alike (hex : ExAlike T h0 ex) {D : Nat → Prop} (out : ProgMsg V) (c : Conn) (hd : D c.target) :
    Alike T h0 D D Eq (trigger ex out c) (trigger ex out c) := by
  unfold trigger
  refine Alike.bind (Alike.getOp hT _) fun o o' ⟨o0, h1, h2, h3⟩ => ?_
  rw [isData_of_fresh h2, isData_of_fresh h3, isCtrl_of_fresh h2, isCtrl_of_fresh h3]
  split
  · exact Alike.bind (hex D _ _ hd) fun r r' hr => by cases hr; exact Alike.pure rfl
  · split
    · exact Alike.bind (hex D _ _ hd) fun r r' hr => by cases hr; exact Alike.pure rfl
    · exact Alike.pure rfl

include hc in
theorem emitMsg_alike (hex : ExAlike T h0 ex) {D : Nat → Prop} (fuel a : Nat) (port : Str) (m : Msg V) :
    Alike T h0 D D Eq (emitMsg ex fuel a port m) (emitMsg ex fuel a port m) := by
  unfold emitMsg
  refine Alike.bind (Alike.getOp hT _) fun o o' ⟨o0, h1, h2, h3⟩ => Alike.bind Alike.get fun t t' _ => Alike.bind (Alike.log _ _) fun _ _ _ => ?_
  rw [id_of_fresh h2, id_of_fresh h3, outputs_of_fresh h2, outputs_of_fresh h3]
  dsimp only
  cases hf : o0.core.outputs.find? port with
  | none => exact Alike.pure rfl
  | some conns =>
    dsimp only
    have hp := (hc a o0 h1 port conns (find?_mem hf)).2
    intro s s' hl
    refine ResLike.weaken hT (D := fun b => D b ∨ ∃ c ∈ conns, b = c.target) (fun a h => Or.inl h) ?_
    refine Alike.bind (delivers_alike hT hw hs fuel (a, port) m conns () hp) (fun _ _ _ => ?_) s s' hl
    exact Alike.fold conns (fun b b' c hcm hb => by cases hb; exact trigger_alike hT hw hs hex b c (Or.inr ⟨c, hcm, rfl⟩)) _ _ rfl

include hc in
theorem emitOp_alike (hex : ExAlike T h0 ex) {D : Nat → Prop} (fuel a : Nat) (msgs : OpMsg V) :
    Alike T h0 D D Eq (emitOp ex fuel a msgs) (emitOp ex fuel a msgs) := by
  unfold emitOp
  refine Alike.fold msgs (fun b b' pm _ hb => ?_) _ _ rfl
  cases hb
  refine Alike.bind (Alike.getOp hT _) fun o o' ⟨o0, h1, h2, h3⟩ => ?_
  rw [outIds_of_fresh h2, outIds_of_fresh h3]
  split
  · refine Alike.bind (D1 := D) (Q := Eq) ?_ fun r r' hr => by cases hr; exact Alike.pure rfl
    refine Alike.fold pm.2 (fun b b' m _ hb => ?_) _ _ rfl
    cases hb
    exact Alike.bind (emitMsg_alike hT hw hs hc hex fuel a pm.1 m) fun r r' hr => by cases hr; exact Alike.pure rfl
  · exact Alike.throw hT _

include hc in
theorem exec_alike (fuel : Nat) : ExAlike T h0 (exec fuel) := by
  induction fuel with
  | zero => intro D ctrl a _; exact Alike.throw hT _
  | succ fuel ih =>
    intro D ctrl a hd s s' hl
    have := hl.cells a
    cases ho : s.heap a <;> cases ho' : s'.heap a <;> rw [ho, ho'] at this
    · rw [exec_none ho, exec_none ho']
      exact ⟨rfl, (hl.start hT).cells, hl.shape⟩
    · cases this
    · cases this
    · rename_i o o'
      cases this with
      | some ht =>
        obtain ⟨o0, h1, h2⟩ := hl.shape.get' ho
        have hso := (simple_of_fresh h2).1 (hs a o0 h1)
        have hso' := (simple_of_fresh (hT.fresh ht)).2 hso
        rw [exec_simple ho hso, exec_simple ho' hso']
        have ht' : T True o o' := hT.weaken (fun _ => hd) ht
        have hlike : ExecLike T (if ctrl then o.execCtrl else o.execData) (if ctrl then o'.execCtrl else o'.execData) := by
          cases ctrl
          · exact hT.execData ht'
          · exact hT.execCtrl ht'
        have hfr : (if ctrl then o.execCtrl else o.execData).state.fresh = o.fresh := by
          cases ctrl
          · exact execData_fresh o
          · exact execCtrl_fresh o
        cases hx : (if ctrl then o.execCtrl else o.execData) <;> cases hy : (if ctrl then o'.execCtrl else o'.execData) <;> rw [hx, hy] at hlike <;>
          rw [hx] at hfr <;> first | exact hlike.elim | skip
        · obtain ⟨hxy, hn⟩ := hlike
          cases hxy
          have hlog : Linked T h0 D (s.ev (.exec a ctrl)) (s'.ev (.exec a ctrl)) := ⟨hl.cells, hl.shape⟩
          have hl' := (Linked.set (o := o) hlog ho hfr hn hT).weaken hT (D' := D) fun b h => Or.inl h
          exact emitOp_alike hT hw hs hc ih fuel a _ _ _ hl'
        · obtain ⟨hxy, hn⟩ := hlike
          cases hxy
          have hlog : Linked T h0 D (s.ev (.exec a ctrl)) (s'.ev (.exec a ctrl)) := ⟨hl.cells, hl.shape⟩
          exact ⟨rfl, (Linked.set (o := o) hlog ho hfr hn hT).start hT⟩

include hc in
theorem feed_alike (fuel a : Nat) (p : Str) (m : Msg V) : Alike T h0 Nowhere Nowhere Eq (feed fuel a p m) (feed fuel a p m) := by
  intro s s' hl
  refine ResLike.weaken hT (D := fun b => Nowhere b ∨ b = a) (fun a h => Or.inl h) ?_
  exact Alike.bind (recvData_alike hT hw hs fuel none a m p) (fun _ _ _ => exec_alike hT hw hs hc fuel _ false a (Or.inr rfl)) s s' hl

include hc in
theorem feedAll_alike (fuel a : Nat) (msgs : OpMsg V) : Alike T h0 Nowhere Nowhere Eq (feedAll fuel a msgs) (feedAll fuel a msgs) := by
  unfold feedAll
  refine Alike.fold msgs (fun b b' pm _ hb => ?_) _ _ rfl
  cases hb
  refine Alike.fold pm.2 (fun b b' m _ hb => ?_) _ _ rfl
  cases hb
  exact Alike.bind (feed_alike hT hw hs hc fuel a pm.1 m) fun r r' hr => by cases hr; exact Alike.pure rfl

/-- Programs that are equal but for twins. -/
structure ProgLike (T : Prop → Op V → Op V → Prop) (h0 : Nat → Option (Op V)) (P Q : Prog V) : Prop where
  json : P.json = Q.json
  ops : P.ops = Q.ops
  entry : P.entry = Q.entry
  filter : P.filter = Q.filter
  st : Linked T h0 Nowhere P.st Q.st

/-- The same answer and programs alike afterwards. -/
def AnswerLike {α : Type} (T : Prop → Op V → Op V → Prop) (h0 : Nat → Option (Op V)) (r r' : Res (Prog V) α) : Prop :=
  match r, r' with
  | .ok x P, .ok y Q => x = y ∧ ProgLike T h0 P Q
  | .err e P, .err e' Q => e = e' ∧ ProgLike T h0 P Q
  | _, _ => False

include hc in
theorem receiveDebug_alike (fuel : Nat) {P Q : Prog V} (h : ProgLike T h0 P Q) (msgs : OpMsg V) :
    AnswerLike T h0 (P.receiveDebug fuel msgs) (Q.receiveDebug fuel msgs) := by
  unfold Prog.receiveDebug
  rw [← h.ops, ← h.entry]
  cases ha : P.ops.find? P.entry with
  | none => exact ⟨rfl, h⟩
  | some a =>
    dsimp only
    have := feedAll_alike hT hw hs hc fuel a msgs _ _ h.st
    cases hx : feedAll fuel a msgs P.st <;> cases hy : feedAll fuel a msgs Q.st <;> rw [hx, hy] at this <;> first | exact this.elim | skip
    · exact ⟨this.1, h.json, rfl, rfl, h.filter, this.2⟩
    · exact ⟨this.1, h.json, rfl, rfl, h.filter, this.2⟩

include hc in
theorem receive_alike (fuel : Nat) {P Q : Prog V} (h : ProgLike T h0 P Q) (msgs : OpMsg V) :
    AnswerLike T h0 (P.receive fuel msgs) (Q.receive fuel msgs) := by
  have := receiveDebug_alike hT hw hs hc fuel h msgs
  unfold Prog.receive
  cases hx : P.receiveDebug fuel msgs <;> cases hy : Q.receiveDebug fuel msgs <;> rw [hx, hy] at this <;> first | exact this.elim | skip
  · obtain ⟨h1, h2⟩ := this
    cases h1
    refine ⟨?_, h2⟩
    rw [h2.filter]
  · exact this

end Rtbot
