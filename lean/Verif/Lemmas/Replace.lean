import Verif.Spec.Replace
import Verif.Lemmas.Copy

set_option linter.unusedSectionVars false

/-! # Replacing operators by interchangeable ones does not change what a program does -/

namespace Rtbot
namespace Replace
variable {V : Type} [Num V]
open Spec

/-- Interchangeable operators at the addresses `D`, the same operator elsewhere. -/
def Like (D : Nat → Prop) (a : Nat) (o o' : Op V) : Prop := (¬ D a ∧ o = o') ∨ (D a ∧ Interchangeable o o')

variable {D : Nat → Prop} {a : Nat}

theorem face_refl (o : Op V) : SameFace o o := ⟨rfl, rfl, rfl, rfl, rfl⟩

theorem Like.face {o o' : Op V} (h : Like D a o o') : SameFace o o' := by
  rcases h with ⟨_, rfl⟩ | ⟨_, h⟩
  · exact face_refl _
  · exact h.face

theorem has_keys {β γ : Type} {m : Map β} {n : Map γ} (h : m.keys = n.keys) (p : Str) : m.has p = n.has p := by
  have key : ∀ {δ : Type} (m : Map δ), m.has p = m.keys.any fun k => k == p := by
    intro δ m
    induction m with
    | nil => rfl
    | cons e m ih =>
      have h1 : Map.keys (e :: m) = e.1 :: Map.keys m := rfl
      rw [h1, List.any_cons, ← ih]
      unfold Map.has
      rw [Map.find?_cons]
      by_cases h2 : e.1 = p
      · rw [if_pos h2, h2]; simp
      · rw [if_neg h2]; simp [h2]
  rw [key, key, h]

theorem Like.isData {o o' : Op V} (h : Like D a o o') (p : Str) : o.core.isData p = o'.core.isData p := has_keys h.face.data p
theorem Like.isCtrl {o o' : Op V} (h : Like D a o o') (p : Str) : o.core.isCtrl p = o'.core.isCtrl p := has_keys h.face.ctrl p

/-- What operators look like from outside never changes. -/
theorem face_of_fresh {o n o' n' : Op V} (h : SameFace o o') (hn : n.fresh = o.fresh) (hn' : n'.fresh = o'.fresh) : SameFace n n' := by
  have keys : ∀ {m m' : Map (Inp V)}, freshMap m = freshMap m' → m.keys = m'.keys := by
    intro m m' h
    have : ∀ m : Map (Inp V), (freshMap m).keys = m.keys := by
      intro m
      induction m with
      | nil => rfl
      | cons e m ih => exact congrArg (e.1 :: ·) ih
    rw [← this m, h, this]
  have c1 : n.core.fresh = o.core.fresh := congrArg Op.core hn
  have c2 : n'.core.fresh = o'.core.fresh := congrArg Op.core hn'
  exact ⟨(congrArg Core.id c1).trans (h.id.trans (congrArg Core.id c2).symm),
    (keys (congrArg Core.dataIn c1)).trans (h.data.trans (keys (congrArg Core.dataIn c2)).symm),
    (keys (congrArg Core.ctrlIn c1)).trans (h.ctrl.trans (keys (congrArg Core.ctrlIn c2)).symm),
    (congrArg Core.outIds c1).trans (h.outs.trans (congrArg Core.outIds c2).symm),
    (congrArg Core.outputs c1).trans (h.conns.trans (congrArg Core.outputs c2).symm)⟩

/-- The relation between states that is kept. -/
structure Ok (D : Nat → Prop) (s s' : St V) : Prop where
  rel : ∀ a, Option.Rel (Like D a) (s.heap a) (s'.heap a)
  wf : HeapWF s.heap
  wf' : HeapWF s'.heap

/-- The same outcome. -/
def ResOk {α : Type} (D : Nat → Prop) : Res (St V) α → Res (St V) α → Prop
  | .ok x s, .ok x' s' => x = x' ∧ Ok D s s'
  | .err e s, .err e' s' => e = e' ∧ Ok D s s'
  | _, _ => False

/-- The computations have the same outcome. -/
def Mv {α : Type} (D : Nat → Prop) (x y : M (St V) α) : Prop := ∀ s s', Ok D s s' → ResOk D (x s) (y s')

theorem mv_bind {α β : Type} {x y : M (St V) α} {f g : α → M (St V) β} (h : Mv D x y) (hf : ∀ a, Mv D (f a) (g a)) : Mv D (x >>= f) (y >>= g) := by
  intro s s' hs
  have := h s s' hs
  rw [M.bind_def, M.bind_def]
  cases hx : x s <;> cases hy : y s' <;> rw [hx, hy] at this <;> first | exact this.elim | skip
  · obtain ⟨rfl, h2⟩ := this
    exact hf _ _ _ h2
  · exact this

theorem mv_pure {α : Type} (a : α) : Mv D (Pure.pure a : M (St V) α) (Pure.pure a) := fun _ _ hs => ⟨rfl, hs⟩
theorem mv_throw {α : Type} (e : Err) : Mv D (M.throw e : M (St V) α) (M.throw e) := fun _ _ hs => ⟨rfl, hs⟩
theorem mv_log (e e' : Ev V) : Mv D (logEv e) (logEv e') := fun _ _ hs => ⟨rfl, ⟨hs.rel, hs.wf, hs.wf'⟩⟩
theorem mv_depth (d d' : Nat) : Mv D (setDepth d : M (St V) Unit) (setDepth d') := fun _ _ hs => ⟨rfl, ⟨hs.rel, hs.wf, hs.wf'⟩⟩

theorem mv_lift {α : Type} (r : Except Err α) : Mv D (M.lift r : M (St V) α) (M.lift r) := by
  intro s s' hs
  cases r <;> exact ⟨rfl, hs⟩

theorem mv_state {α : Type} {f g : St V → M (St V) α} (h : ∀ s s', Mv D (f s) (g s')) : Mv D ((M.get : M (St V) (St V)) >>= f) (M.get >>= g) :=
  fun s s' hs => h s s' s s' hs

theorem mv_fold {α β : Type} {f g : β → α → M (St V) β} (l : List α) (h : ∀ b x, Mv D (f b x) (g b x)) : ∀ b, Mv D (M.fold f l b) (M.fold g l b) := by
  induction l with
  | nil => intro b; exact mv_pure b
  | cons x l ih => intro b; exact mv_bind (h b x) fun b' => ih b'

/-- What is found at an address. -/
theorem Ok.cases {s s' : St V} (hs : Ok D s s') (a : Nat) : (s.heap a = none ∧ s'.heap a = none) ∨ ∃ o o', s.heap a = some o ∧ s'.heap a = some o' ∧ Like D a o o' ∧ o.core.WF ∧ o'.core.WF := by
  have := hs.rel a
  cases h1 : s.heap a <;> cases h2 : s'.heap a <;> rw [h1, h2] at this
  · exact .inl ⟨rfl, rfl⟩
  · cases this
  · cases this
  · cases this with
    | some hl => exact .inr ⟨_, _, rfl, rfl, hl, hs.wf _ _ h1, hs.wf' _ _ h2⟩

/-- The computations have the same outcome when the operators at `a` are `o` and `o'`. -/
def At {α : Type} (D : Nat → Prop) (a : Nat) (o o' : Op V) (x y : M (St V) α) : Prop := ∀ s s', Ok D s s' → s.heap a = some o → s'.heap a = some o' → ResOk D (x s) (y s')

theorem mv_at {α : Type} {a : Nat} {f g : Op V → M (St V) α} (h : ∀ o o', Like D a o o' → o.core.WF → o'.core.WF → At D a o o' (f o) (g o')) :
    Mv D (getOp a >>= f) (getOp a >>= g) := by
  intro s s' hs
  rw [M.bind_def, M.bind_def]
  unfold getOp
  rcases hs.cases a with ⟨h1, h2⟩ | ⟨o, o', h1, h2, hl, hw, hw'⟩
  · rw [h1, h2]
    exact ⟨rfl, hs⟩
  · rw [h1, h2]
    exact h o o' hl hw hw' s s' hs h1 h2

theorem at_mv {α : Type} {a : Nat} {o o' : Op V} {x y : M (St V) α} (h : Mv D x y) : At D a o o' x y := fun s s' hs _ _ => h s s' hs

theorem mv_get {α : Type} {a : Nat} {f g : Op V → M (St V) α} (h : ∀ o o', Like D a o o' → Mv D (f o) (g o')) : Mv D (getOp a >>= f) (getOp a >>= g) :=
  mv_at fun o o' hl _ _ => at_mv (h o o' hl)

theorem at_bind {α β : Type} {a : Nat} {o o' : Op V} {x y : M (St V) α} {f g : α → M (St V) β} (h : At D a o o' x y) (hf : ∀ r, Mv D (f r) (g r)) :
    At D a o o' (x >>= f) (y >>= g) := by
  intro s s' hs ho ho'
  have := h s s' hs ho ho'
  rw [M.bind_def, M.bind_def]
  cases hx : x s <;> cases hy : y s' <;> rw [hx, hy] at this <;> first | exact this.elim | skip
  · obtain ⟨rfl, h2⟩ := this
    exact hf _ _ _ h2
  · exact this

/-- Overwriting an operator. -/
theorem Ok.set {s s' : St V} (hs : Ok D s s') {a : Nat} {n n' : Op V} (hl : Like D a n n') (hw : n.core.WF) (hw' : n'.core.WF) : Ok D (s.setOp a n) (s'.setOp a n') := by
  refine ⟨fun b => ?_, fun b p hp => ?_, fun b p hp => ?_⟩
  · rw [setOp_heap, setOp_heap]
    split
    · rename_i e
      subst e
      exact .some hl
    · exact hs.rel b
  · rw [setOp_heap] at hp
    split at hp
    · cases hp; exact hw
    · exact hs.wf b p hp
  · rw [setOp_heap] at hp
    split at hp
    · cases hp; exact hw'
    · exact hs.wf' b p hp

/-- The same result of a method. -/
def StepOk {α : Type} (D : Nat → Prop) (a : Nat) : Res (Op V) α → Res (Op V) α → Prop
  | .ok x n, .ok x' n' => x = x' ∧ Like D a n n' ∧ n.core.WF ∧ n'.core.WF
  | .err e n, .err e' n' => e = e' ∧ Like D a n n' ∧ n.core.WF ∧ n'.core.WF
  | _, _ => False

theorem run {α : Type} {o o' : Op V} {f : Op V → Res (Op V) α} (h : StepOk D a (f o) (f o')) : At D a o o' (localRun a f) (localRun a f) := by
  intro s s' hs ho ho'
  unfold localRun
  rw [ho, ho']
  dsimp only
  cases hx : f o <;> cases hy : f o' <;> rw [hx, hy] at h <;> first | exact h.elim | skip
  · exact ⟨h.1, hs.set h.2.1 h.2.2.1 h.2.2.2⟩
  · exact ⟨h.1, hs.set h.2.1 h.2.2.1 h.2.2.2⟩

/-- One call. -/
theorem Like.act {o o' : Op V} (h : Like D a o o') (hw : o.core.WF) (hw' : o'.core.WF) (x : Act V) :
    (act o x).2 = (act o' x).2 ∧ Like D a (act o x).1 (act o' x).1 ∧ (act o x).1.core.WF ∧ (act o' x).1.core.WF := by
  have f1 := act_fresh o hw x
  have f2 := act_fresh o' hw' x
  have w1 := Core.WF.of_fresh (congrArg Op.core f1) hw
  have w2 := Core.WF.of_fresh (congrArg Op.core f2) hw'
  rcases h with ⟨hd, rfl⟩ | ⟨hd, h⟩
  · exact ⟨rfl, .inl ⟨hd, rfl⟩, w1, w1⟩
  · refine ⟨(List.cons.inj (h.answers [x])).1, .inr ⟨hd, (simple_of_fresh f1).2 h.simple, (simple_of_fresh f2).2 h.simple', face_of_fresh h.face f1 f2, fun as => ?_⟩, w1, w2⟩
    exact (List.cons.inj (h.answers (x :: as))).2

theorem Like.recvData {o o' : Op V} (h : Like D a o o') (hw : o.core.WF) (hw' : o'.core.WF) (m : Msg V) (p : Str) :
    StepOk D a (updWith (fun o : Op V => o.recvData m p) o) (updWith (fun o : Op V => o.recvData m p) o') := by
  have := h.act hw hw' (.recvData p m)
  simp only [Spec.act] at this
  unfold updWith
  dsimp only
  cases hx : o.recvData m p <;> cases hy : o'.recvData m p <;> rw [hx, hy] at this <;> obtain ⟨h1, h2⟩ := this <;> cases h1
  · exact ⟨rfl, h2⟩
  · exact ⟨rfl, h2⟩

theorem Like.recvCtrl {o o' : Op V} (h : Like D a o o') (hw : o.core.WF) (hw' : o'.core.WF) (m : Msg V) (p : Str) :
    StepOk D a (updWith (fun o : Op V => o.recvCtrl m p) o) (updWith (fun o : Op V => o.recvCtrl m p) o') := by
  have := h.act hw hw' (.recvCtrl p m)
  simp only [Spec.act] at this
  unfold updWith
  dsimp only
  cases hx : o.recvCtrl m p <;> cases hy : o'.recvCtrl m p <;> rw [hx, hy] at this <;> obtain ⟨h1, h2⟩ := this <;> cases h1
  · exact ⟨rfl, h2⟩
  · exact ⟨rfl, h2⟩

theorem Like.exec {o o' : Op V} (h : Like D a o o') (hw : o.core.WF) (hw' : o'.core.WF) (c : Bool) :
    StepOk D a ((if c = true then Op.execCtrl else Op.execData) o) ((if c = true then Op.execCtrl else Op.execData) o') := by
  cases c
  · have := h.act hw hw' .execData
    simp only [Spec.act] at this
    simp only [Bool.false_eq_true, if_false]
    cases hx : o.execData <;> cases hy : o'.execData <;> rw [hx, hy] at this <;> obtain ⟨h1, h2⟩ := this <;> cases h1
    · exact ⟨rfl, h2⟩
    · exact ⟨rfl, h2⟩
  · have := h.act hw hw' .execCtrl
    simp only [Spec.act] at this
    simp only [if_true]
    cases hx : o.execCtrl <;> cases hy : o'.execCtrl <;> rw [hx, hy] at this <;> obtain ⟨h1, h2⟩ := this <;> cases h1
    · exact ⟨rfl, h2⟩
    · exact ⟨rfl, h2⟩

theorem wf_mark {o : Op V} (hw : o.core.WF) (l : List Str) : ({ o with core := { o.core with toProcess := l } } : Op V).core.WF :=
  Core.WF.of_fresh (c := o.core) rfl hw

/-- Marking a port of a Pipeline, or taking the marks away. -/
theorem mv_mark (hd : ¬ D a) (g : List Str → List Str) :
    Mv D (localRun a fun o : Op V => .ok () { o with core := { o.core with toProcess := g o.core.toProcess } })
      (localRun a fun o : Op V => .ok () { o with core := { o.core with toProcess := g o.core.toProcess } }) := by
  intro s s' hs
  rcases hs.cases a with ⟨h1, h2⟩ | ⟨o, o', h1, h2, hl, hw, hw'⟩
  · unfold localRun
    rw [h1, h2]
    exact ⟨rfl, hs⟩
  · rcases hl with ⟨_, rfl⟩ | ⟨h, _⟩
    · refine run (D := D) (a := a) ?_ s s' hs h1 h2
      exact ⟨rfl, .inl ⟨hd, rfl⟩, wf_mark hw _, wf_mark hw _⟩
    · exact absurd h hd

/-! ## The calls between operators -/

/-- What `recvData` does with the operator it has read. -/
def recvBody (fuel : Nat) (a : Nat) (m : Msg V) (p : Str) (o : Op V) : M (St V) Unit :=
  match o.kind with
  | .composite (some i) _ => recvData fuel none i m p
  | .composite none _ => M.throw (.exc .runtime)
  | .pipeline inputs _ pm => do
    let key ← M.lift (pipelinePort inputs pm p)
    match inputs.find? key with
    | none => M.throw (.exc .outOfRange)
    | some t => do
      recvData fuel none t m (split2 key).2
      localRun a fun o => .ok () { o with core := { o.core with toProcess := setInsert o.core.toProcess key } }
  | _ => localRun a (updWith fun o => o.recvData m p)

theorem recvBody_simple {o : Op V} (h : Simple o) (fuel : Nat) (a : Nat) (m : Msg V) (p : Str) : recvBody fuel a m p o = localRun a (updWith fun o => o.recvData m p) := by
  unfold Simple at h
  unfold recvBody
  cases hk : o.kind <;> rw [hk] at h <;> first | rfl | exact h.elim

/-- What `recvCtrl` does with the operator it has read. -/
def ctrlBody (fuel : Nat) (a : Nat) (m : Msg V) (p : Str) (o : Op V) : M (St V) Unit :=
  match o.kind with
  | .composite (some i) _ => recvCtrl fuel none i m p
  | .composite none _ => M.throw (.exc .runtime)
  | _ => localRun a (updWith fun o => o.recvCtrl m p)

theorem ctrlBody_simple {o : Op V} (h : Simple o) (fuel : Nat) (a : Nat) (m : Msg V) (p : Str) : ctrlBody fuel a m p o = localRun a (updWith fun o => o.recvCtrl m p) := by
  unfold Simple at h
  unfold ctrlBody
  cases hk : o.kind <;> rw [hk] at h <;> first | rfl | exact h.elim

/-- What `exec` does with the operator it has read. -/
def execBody (fuel : Nat) (ctrl : Bool) (a : Nat) (o : Op V) : M (St V) (ProgMsg V) :=
  match o.kind with
  | .composite (some i) _ => exec fuel ctrl i
  | .composite none _ => M.throw (.exc .runtime)
  | .pipeline inputs outputs pm =>
    if ctrl then pure []
    else do
      let s ← M.get
      setDepth (s.depth + 1)
      let r ← M.fold (pipelineStep (exec fuel) inputs) o.core.toProcess []
      setDepth s.depth
      localRun a fun o => .ok () { o with core := { o.core with toProcess := [] } }
      if r = [] then pure []
      else do
        let out ← M.lift (pipelineOutput outputs pm (flatten r) [])
        emitOp (exec fuel) fuel a out
  | _ => do
    let out ← localRun a (if ctrl then Op.execCtrl else Op.execData)
    emitOp (exec fuel) fuel a out

theorem execBody_simple {o : Op V} (h : Simple o) (fuel : Nat) (ctrl : Bool) (a : Nat) :
    execBody fuel ctrl a o = (localRun a (if ctrl = true then Op.execCtrl else Op.execData) >>= fun out => emitOp (exec fuel) fuel a out) := by
  unfold Simple at h
  unfold execBody
  cases hk : o.kind <;> rw [hk] at h <;> first | rfl | exact h.elim

theorem recvData_mv (fuel : Nat) : ∀ (frm frm' : Option (Nat × Str)) (a : Nat) (m : Msg V) (p : Str), Mv D (recvData fuel frm a m p) (recvData fuel frm' a m p) := by
  induction fuel with
  | zero => intro frm frm' a m p; exact mv_throw _
  | succ fuel ih =>
    intro frm frm' a m p
    refine mv_bind (mv_log _ _) fun _ => mv_at (f := recvBody fuel a m p) (g := recvBody fuel a m p) fun o o' hl hw hw' => ?_
    rcases hl with ⟨hd, rfl⟩ | ⟨hd, hi⟩
    · by_cases hs : Simple o
      · rw [recvBody_simple hs]
        exact run (Like.recvData (.inl ⟨hd, rfl⟩) hw hw m p)
      · unfold recvBody
        cases hk : o.kind <;> first | (exact absurd (by unfold Simple; rw [hk]; trivial) hs) | skip
        · rename_i i q
          cases i with
          | none => exact at_mv (mv_throw _)
          | some i => exact at_mv (ih none none i m p)
        · refine at_mv (mv_bind (mv_lift _) fun key => ?_)
          split
          · exact mv_throw _
          · exact mv_bind (ih none none _ m _) fun _ => mv_mark hd fun l => setInsert l key
    · rw [recvBody_simple hi.simple, recvBody_simple hi.simple']
      exact run (Like.recvData (.inr ⟨hd, hi⟩) hw hw' m p)

theorem recvCtrl_mv (fuel : Nat) : ∀ (frm frm' : Option (Nat × Str)) (a : Nat) (m : Msg V) (p : Str), Mv D (recvCtrl fuel frm a m p) (recvCtrl fuel frm' a m p) := by
  induction fuel with
  | zero => intro frm frm' a m p; exact mv_throw _
  | succ fuel ih =>
    intro frm frm' a m p
    refine mv_bind (mv_log _ _) fun _ => mv_at (f := ctrlBody fuel a m p) (g := ctrlBody fuel a m p) fun o o' hl hw hw' => ?_
    rcases hl with ⟨hd, rfl⟩ | ⟨hd, hi⟩
    · have hstep := run (Like.recvCtrl (D := D) (a := a) (.inl ⟨hd, rfl⟩) hw hw m p)
      unfold ctrlBody
      split
      · exact at_mv (ih none none _ m p)
      · exact at_mv (mv_throw _)
      · exact hstep
    · rw [ctrlBody_simple hi.simple, ctrlBody_simple hi.simple']
      exact run (Like.recvCtrl (.inr ⟨hd, hi⟩) hw hw' m p)

theorem deliver_mv (fuel : Nat) (src : Nat × Str) (m : Msg V) (u : Unit) (c : Conn) : Mv D (deliver fuel src m u c) (deliver fuel src m u c) := by
  unfold deliver
  refine mv_get fun o o' hl => ?_
  rw [hl.isData, hl.isCtrl]
  split
  · exact recvData_mv fuel _ _ _ _ _
  · split
    · exact recvCtrl_mv fuel _ _ _ _ _
    · exact mv_pure _

/-- Executing has the same outcome. -/
def Ex (D : Nat → Prop) (ex : Bool → Nat → M (St V) (ProgMsg V)) : Prop := ∀ c a, Mv D (ex c a) (ex c a)

theorem trigger_mv {ex : Bool → Nat → M (St V) (ProgMsg V)} (hex : Ex D ex) (out : ProgMsg V) (c : Conn) : Mv D (trigger ex out c) (trigger ex out c) := by
  unfold trigger
  refine mv_get fun o o' hl => ?_
  rw [hl.isData, hl.isCtrl]
  split
  · exact mv_bind (hex _ _) fun _ => mv_pure _
  · split
    · exact mv_bind (hex _ _) fun _ => mv_pure _
    · exact mv_pure _

theorem emitMsg_mv {ex : Bool → Nat → M (St V) (ProgMsg V)} (hex : Ex D ex) (fuel : Nat) (a : Nat) (port : Str) (m : Msg V) :
    Mv D (emitMsg ex fuel a port m) (emitMsg ex fuel a port m) := by
  unfold emitMsg
  refine mv_get fun o o' hl => mv_state fun s s' => mv_bind (mv_log _ _) fun _ => ?_
  rw [hl.face.id, hl.face.conns]
  dsimp only
  split
  · exact mv_pure _
  · exact mv_bind (mv_fold _ (fun u c => deliver_mv fuel _ m u c) ()) fun _ => mv_fold _ (fun out c => trigger_mv hex out c) _

theorem emitOp_mv {ex : Bool → Nat → M (St V) (ProgMsg V)} (hex : Ex D ex) (fuel : Nat) (a : Nat) (msgs : OpMsg V) :
    Mv D (emitOp ex fuel a msgs) (emitOp ex fuel a msgs) := by
  refine mv_fold msgs (fun out pm => mv_get fun o o' hl => ?_) []
  rw [hl.face.outs]
  split
  · exact mv_bind (mv_fold pm.2 (fun _ m => mv_bind (emitMsg_mv hex fuel a pm.1 m) fun _ => mv_pure _) []) fun _ => mv_pure _
  · exact mv_throw _

theorem exec_mv (fuel : Nat) : Ex (V := V) D (exec fuel) := by
  induction fuel with
  | zero => intro c a; exact mv_throw _
  | succ fuel ih =>
    intro c a
    refine mv_bind (mv_log _ _) fun _ => mv_at (f := execBody fuel c a) (g := execBody fuel c a) fun o o' hl hw hw' => ?_
    rcases hl with ⟨hd, rfl⟩ | ⟨hd, hi⟩
    · by_cases hs : Simple o
      · rw [execBody_simple hs]
        exact at_bind (run (Like.exec (.inl ⟨hd, rfl⟩) hw hw c)) fun out => emitOp_mv ih fuel a out
      · unfold execBody
        cases hk : o.kind <;> first | (exact absurd (by unfold Simple; rw [hk]; trivial) hs) | skip
        · rename_i i q
          cases i with
          | none => exact at_mv (mv_throw _)
          | some i => exact at_mv (ih c i)
        · dsimp only
          split
          · exact at_mv (mv_pure _)
          · refine at_mv (mv_state fun s s' => mv_bind (mv_depth _ _) fun _ => mv_bind (mv_fold _ (fun out key => ?_) _) fun r => mv_bind (mv_depth _ _) fun _ =>
              mv_bind (mv_mark hd fun _ => []) fun _ => ?_)
            · unfold pipelineStep
              split
              · exact mv_throw _
              · exact mv_bind (ih false _) fun _ => mv_pure _
            · split
              · exact mv_pure _
              · exact mv_bind (mv_lift _) fun out => emitOp_mv ih fuel a out
    · rw [execBody_simple hi.simple, execBody_simple hi.simple']
      exact at_bind (run (Like.exec (.inr ⟨hd, hi⟩) hw hw' c)) fun out => emitOp_mv ih fuel a out

theorem feedAll_mv (fuel : Nat) (a : Nat) (msgs : OpMsg V) : Mv D (feedAll fuel a msgs) (feedAll fuel a msgs) :=
  mv_fold msgs (fun out pm => mv_fold pm.2 (fun _ m => mv_bind (mv_bind (recvData_mv fuel none none a m pm.1) fun _ => exec_mv fuel false a) fun _ => mv_pure _) out) []

end Replace
end Rtbot
