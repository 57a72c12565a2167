import Verif.Lemmas.Replace

/-! # Runs on related messages

Two programs whose operators are related, and that are fed related messages, report related messages. -/

namespace Rtbot
namespace Mapped
variable {V : Type} [Num V]
open Spec

/-- Maps with the same keys and related values. -/
def MapRel {α β : Type} (R : α → β → Prop) (m : Map α) (m' : Map β) : Prop := List.Forall₂ (fun e e' => e.1 = e'.1 ∧ R e.2 e'.2) m m'

section maps
variable {α β : Type} {R : α → β → Prop}

theorem MapRel.find {m : Map α} {m' : Map β} (h : MapRel R m m') (k : Str) : Option.Rel R (m.find? k) (m'.find? k) := by
  induction h with
  | nil => exact .none
  | cons he _ ih =>
    rw [Map.find?_cons, Map.find?_cons, ← he.1]
    split
    · exact .some he.2
    · exact ih

theorem MapRel.keys {m : Map α} {m' : Map β} (h : MapRel R m m') : m.keys = m'.keys := by
  induction h with
  | nil => rfl
  | cons he _ ih => exact congrArg₂ List.cons he.1 ih

theorem MapRel.has {m : Map α} {m' : Map β} (h : MapRel R m m') (k : Str) : m.has k = m'.has k := Replace.has_keys h.keys k

theorem MapRel.put {m : Map α} {m' : Map β} (h : MapRel R m m') (k : Str) {x : α} {y : β} (hx : R x y) : MapRel R (m.put k x) (m'.put k y) := by
  induction h with
  | nil => exact .cons ⟨rfl, hx⟩ .nil
  | @cons e e' m m' he hm ih =>
    obtain ⟨k1, v1⟩ := e
    obtain ⟨k2, v2⟩ := e'
    obtain ⟨rfl, hv⟩ := he
    unfold Map.put
    split
    · exact .cons ⟨rfl, hx⟩ hm
    · split
      · exact .cons ⟨rfl, hx⟩ (.cons ⟨rfl, hv⟩ hm)
      · exact .cons ⟨rfl, hv⟩ ih

theorem MapRel.emplace {m : Map α} {m' : Map β} (h : MapRel R m m') (k : Str) {x : α} {y : β} (hx : R x y) : MapRel R (m.emplace k x) (m'.emplace k y) := by
  unfold Map.emplace
  rw [h.has]
  split
  · exact h
  · exact h.put k hx

end maps

/-- Related results, or the same error. -/
def ExRel {α : Type} (R : α → α → Prop) : Except Err α → Except Err α → Prop
  | .ok x, .ok y => R x y
  | .error e, .error e' => e = e'
  | _, _ => False

/-- The same with the operator afterwards. -/
def StepRel {σ α : Type} (T : σ → σ → Prop) (R : α → α → Prop) : Res σ α → Res σ α → Prop
  | .ok x n, .ok y n' => R x y ∧ T n n'
  | .err e n, .err e' n' => e = e' ∧ T n n'
  | _, _ => False

/-- Related messages by port. -/
abbrev OpRel (Q : Msg V → Msg V → Prop) : OpMsg V → OpMsg V → Prop := MapRel (List.Forall₂ Q)

/-- Related reports. -/
abbrev ProgRel (Q : Msg V → Msg V → Prop) : ProgMsg V → ProgMsg V → Prop := MapRel (OpRel Q)

/-- How the messages and the operators of two runs correspond. -/
structure Law (Q : Msg V → Msg V → Prop) (T : Op V → Op V → Prop) : Prop where
  face : ∀ {o o'}, T o o' → SameFace o o' ∧ o.core.toProcess = o'.core.toProcess
  kinds : ∀ {o o'}, T o o' → (Simple o ∧ Simple o') ∨ (¬ Simple o ∧ o.kind = o'.kind)
  mark : ∀ {o o'} (l : List Str), T o o' → T { o with core := { o.core with toProcess := l } } { o' with core := { o'.core with toProcess := l } }
  data : ∀ {o o' m m'} (p : Str), T o o' → Simple o → Q m m' → ExRel T (o.recvData m p) (o'.recvData m' p)
  ctrl : ∀ {o o' m m'} (p : Str), T o o' → Q m m' → ExRel T (o.recvCtrl m p) (o'.recvCtrl m' p)
  execData : ∀ {o o'}, T o o' → Simple o → StepRel T (OpRel Q) o.execData o'.execData
  execCtrl : ∀ {o o'}, T o o' → Simple o → StepRel T (OpRel Q) o.execCtrl o'.execCtrl

/-! ## Merging of reports -/

section
variable {Q : Msg V → Msg V → Prop} {T : Op V → Op V → Prop}

theorem mergeOp_rel {x x' : OpMsg V} (hx : OpRel Q x x') : ∀ {out out' : OpMsg V}, OpRel Q out out' → OpRel Q (mergeOp out x) (mergeOp out' x') := by
  induction hx with
  | nil => intro out out' h; exact h
  | @cons e e' x x' he _ ih =>
    intro out out' h
    obtain ⟨p, ms⟩ := e
    obtain ⟨p', ms'⟩ := e'
    obtain ⟨rfl, hms⟩ := he
    unfold mergeOp
    refine ih (h.put p ?_)
    dsimp only at hms ⊢
    have := h.find p
    cases h1 : out.find? p <;> cases h2 : out'.find? p <;> rw [h1, h2] at this <;> cases this
    · exact hms
    · rename_i hl
      exact List.rel_append hl hms

theorem mergeProg_rel {x x' : ProgMsg V} (hx : ProgRel Q x x') : ∀ {out out' : ProgMsg V}, ProgRel Q out out' → ProgRel Q (mergeProg out x) (mergeProg out' x') := by
  induction hx with
  | nil => intro out out' h; exact h
  | @cons e e' x x' he _ ih =>
    intro out out' h
    obtain ⟨p, ms⟩ := e
    obtain ⟨p', ms'⟩ := e'
    obtain ⟨rfl, hms⟩ := he
    unfold mergeProg
    refine ih (h.put p (mergeOp_rel hms ?_))
    dsimp only
    have := h.find p
    cases h1 : out.find? p <;> cases h2 : out'.find? p <;> rw [h1, h2] at this <;> cases this
    · exact .nil
    · rename_i hl
      exact hl

theorem flatten_rel {r r' : ProgMsg V} (h : ProgRel Q r r') : List.Forall₂ (fun e e' => e.1 = e'.1 ∧ e.2.1 = e'.2.1 ∧ List.Forall₂ Q e.2.2 e'.2.2) (flatten r) (flatten r') := by
  unfold flatten
  induction h with
  | nil => exact .nil
  | @cons e e' r r' he _ ih =>
    obtain ⟨id, x⟩ := e
    obtain ⟨id', x'⟩ := e'
    obtain ⟨rfl, hx⟩ := he
    rw [List.flatMap_cons, List.flatMap_cons]
    refine List.rel_append ?_ ih
    dsimp only at hx ⊢
    induction hx with
    | nil => exact .nil
    | cons h1 _ ih2 => exact .cons ⟨rfl, h1.1, h1.2⟩ ih2

theorem pipelineOutput_rel {outputs : Map Nat} {pm : Map Str} {l l' : List (Str × Str × PortMsg V)}
    (h : List.Forall₂ (fun e e' => e.1 = e'.1 ∧ e.2.1 = e'.2.1 ∧ List.Forall₂ Q e.2.2 e'.2.2) l l') :
    ∀ {out out' : OpMsg V}, OpRel Q out out' → ExRel (OpRel Q) (pipelineOutput outputs pm l out) (pipelineOutput outputs pm l' out') := by
  induction h with
  | nil => intro out out' h; exact h
  | @cons e e' l l' he _ ih =>
    intro out out' h
    obtain ⟨id, p, v⟩ := e
    obtain ⟨id', p', v'⟩ := e'
    obtain ⟨h1, h2, hv⟩ := he
    dsimp only at h1 h2 hv
    subst h1
    subst h2
    unfold pipelineOutput
    dsimp only
    split
    · split
      · exact ih (h.emplace _ hv)
      · rfl
    · exact ih h

/-! ## Computations -/

/-- Related heaps. -/
def Ok (T : Op V → Op V → Prop) (s s' : St V) : Prop := ∀ a, Option.Rel T (s.heap a) (s'.heap a)

/-- Related outcomes. -/
def Mv {α : Type} (T : Op V → Op V → Prop) (R : α → α → Prop) (x y : M (St V) α) : Prop := ∀ s s', Ok T s s' → StepRel (Ok T) R (x s) (y s')

variable {α β : Type} {R : α → α → Prop} {R' : β → β → Prop}

theorem mv_bind {x y : M (St V) α} {f g : α → M (St V) β} (h : Mv T R x y) (hf : ∀ a b, R a b → Mv T R' (f a) (g b)) : Mv T R' (x >>= f) (y >>= g) := by
  intro s s' hs
  have := h s s' hs
  rw [M.bind_def, M.bind_def]
  cases hx : x s <;> cases hy : y s' <;> rw [hx, hy] at this <;> first | exact this.elim | skip
  · exact hf _ _ this.1 _ _ this.2
  · exact this

theorem mv_pure {a b : α} (h : R a b) : Mv T R (Pure.pure a : M (St V) α) (Pure.pure b) := fun _ _ hs => ⟨h, hs⟩
theorem mv_throw (e : Err) : Mv T R (M.throw e : M (St V) α) (M.throw e) := fun _ _ hs => ⟨rfl, hs⟩
theorem mv_log (e e' : Ev V) : Mv T (fun _ _ => True) (logEv e) (logEv e') := fun _ _ hs => ⟨trivial, hs⟩
theorem mv_depth (d d' : Nat) : Mv T (fun _ _ => True) (setDepth d : M (St V) Unit) (setDepth d') := fun _ _ hs => ⟨trivial, hs⟩

theorem mv_lift {r r' : Except Err α} (h : ExRel R r r') : Mv T R (M.lift r : M (St V) α) (M.lift r') := by
  intro s s' hs
  cases r <;> cases r' <;> first | exact h.elim | exact ⟨h, hs⟩

theorem mv_state {f g : St V → M (St V) α} (h : ∀ s s', Mv T R (f s) (g s')) : Mv T R ((M.get : M (St V) (St V)) >>= f) (M.get >>= g) :=
  fun s s' hs => h s s' s s' hs

theorem mv_fold {γ : Type} {S : γ → γ → Prop} {f g : β → γ → M (St V) β} {l l' : List γ} (hl : List.Forall₂ S l l') (h : ∀ b b' x x', R' b b' → S x x' → Mv T R' (f b x) (g b' x')) :
    ∀ {b b'}, R' b b' → Mv T R' (M.fold f l b) (M.fold g l' b') := by
  induction hl with
  | nil => intro b b' hb; exact mv_pure hb
  | cons hx _ ih => intro b b' hb; exact mv_bind (h _ _ _ _ hb hx) fun _ _ hc => ih hc

theorem same (l : List α) : List.Forall₂ Eq l l := List.forall₂_same.2 fun _ _ => rfl

theorem mv_get {a : Nat} {f g : Op V → M (St V) α} (h : ∀ o o', T o o' → Mv T R (f o) (g o')) : Mv T R (getOp a >>= f) (getOp a >>= g) := by
  intro s s' hs
  rw [M.bind_def, M.bind_def]
  unfold getOp
  have := hs a
  cases h1 : s.heap a <;> cases h2 : s'.heap a <;> rw [h1, h2] at this <;> cases this
  · exact ⟨rfl, hs⟩
  · rename_i o o' hl
    exact h o o' hl s s' hs

theorem mv_get_at {a : Nat} {f g : Op V → M (St V) α} (h : ∀ o o', T o o' → ∀ s s', Ok T s s' → s.heap a = some o → s'.heap a = some o' → StepRel (Ok T) R (f o s) (g o' s')) :
    Mv T R (getOp a >>= f) (getOp a >>= g) := by
  intro s s' hs
  rw [M.bind_def, M.bind_def]
  unfold getOp
  have := hs a
  cases h1 : s.heap a <;> cases h2 : s'.heap a <;> rw [h1, h2] at this <;> cases this
  · exact ⟨rfl, hs⟩
  · rename_i o o' hl
    exact h o o' hl s s' hs h1 h2

theorem Ok.set {s s' : St V} (hs : Ok T s s') {a : Nat} {n n' : Op V} (hl : T n n') : Ok T (s.setOp a n) (s'.setOp a n') := by
  intro b
  rw [setOp_heap, setOp_heap]
  split
  · exact .some hl
  · exact hs b

theorem run_at {a : Nat} {o o' : Op V} {f g : Op V → Res (Op V) α} (h : StepRel T R (f o) (g o')) {s s' : St V} (hs : Ok T s s') (h1 : s.heap a = some o) (h2 : s'.heap a = some o') :
    StepRel (Ok T) R (localRun a f s) (localRun a g s') := by
  unfold localRun
  rw [h1, h2]
  dsimp only
  cases hx : f o <;> cases hy : g o' <;> rw [hx, hy] at h <;> first | exact h.elim | exact ⟨h.1, hs.set h.2⟩

theorem upd_rel {o o' : Op V} {f g : Op V → Except Err (Op V)} (ht : T o o') (h : ExRel T (f o) (g o')) : StepRel T (fun _ _ => True) (updWith f o) (updWith g o') := by
  unfold updWith
  cases hx : f o <;> cases hy : g o' <;> rw [hx, hy] at h <;> first | exact h.elim | skip
  · exact ⟨h, ht⟩
  · exact ⟨trivial, h⟩

theorem mv_mark (L : Law Q T) (a : Nat) (g : List Str → List Str) :
    Mv T (fun _ _ => True) (localRun a fun o : Op V => .ok () { o with core := { o.core with toProcess := g o.core.toProcess } })
      (localRun a fun o : Op V => .ok () { o with core := { o.core with toProcess := g o.core.toProcess } }) := by
  intro s s' hs
  have := hs a
  cases h1 : s.heap a <;> cases h2 : s'.heap a <;> rw [h1, h2] at this <;> cases this
  · unfold localRun
    rw [h1, h2]
    exact ⟨rfl, hs⟩
  · rename_i o o' hl
    unfold localRun
    rw [h1, h2]
    refine ⟨trivial, hs.set ?_⟩
    rw [(L.face hl).2]
    exact L.mark _ hl

/-! ## The calls between operators -/

open Replace in
theorem recvData_mv (L : Law Q T) (fuel : Nat) : ∀ (frm frm' : Option (Nat × Str)) (a : Nat) {m m' : Msg V} (p : Str), Q m m' →
    Mv T (fun _ _ => True) (recvData fuel frm a m p) (recvData fuel frm' a m' p) := by
  induction fuel with
  | zero => intro frm frm' a m m' p _; exact mv_throw _
  | succ fuel ih =>
    intro frm frm' a m m' p hq
    refine mv_bind (mv_log _ _) fun _ _ _ => mv_get_at (f := recvBody fuel a m p) (g := recvBody fuel a m' p) fun o o' hl s s' hs h1 h2 => ?_
    rcases L.kinds hl with ⟨k1, k2⟩ | ⟨hn, hk'⟩
    · rw [recvBody_simple k1, recvBody_simple k2]
      exact run_at (upd_rel hl (L.data p hl k1 hq)) hs h1 h2
    · suffices Mv T (fun _ _ => True) (recvBody fuel a m p o) (recvBody fuel a m' p o') from this s s' hs
      unfold recvBody
      rw [← hk']
      cases hk : o.kind <;> first | (exact absurd (by unfold Simple; rw [hk]; trivial) hn) | skip
      · rename_i i q
        cases i with
        | none => exact mv_throw _
        | some i => exact ih none none i p hq
      · refine mv_bind (R := Eq) (mv_lift ?_) ?_
        · cases pipelinePort _ _ p <;> rfl
        · rintro key _ rfl
          split
          · exact mv_throw _
          · exact mv_bind (ih none none _ _ hq) fun _ _ _ => mv_mark L a fun l => setInsert l key

open Replace in
theorem recvCtrl_mv (L : Law Q T) (fuel : Nat) : ∀ (frm frm' : Option (Nat × Str)) (a : Nat) {m m' : Msg V} (p : Str), Q m m' →
    Mv T (fun _ _ => True) (recvCtrl fuel frm a m p) (recvCtrl fuel frm' a m' p) := by
  induction fuel with
  | zero => intro frm frm' a m m' p _; exact mv_throw _
  | succ fuel ih =>
    intro frm frm' a m m' p hq
    refine mv_bind (mv_log _ _) fun _ _ _ => mv_get_at (f := ctrlBody fuel a m p) (g := ctrlBody fuel a m' p) fun o o' hl s s' hs h1 h2 => ?_
    rcases L.kinds hl with ⟨k1, k2⟩ | ⟨hn, hk'⟩
    · rw [ctrlBody_simple k1, ctrlBody_simple k2]
      exact run_at (upd_rel hl (L.ctrl p hl hq)) hs h1 h2
    · have hstep := run_at (upd_rel (f := fun o => o.recvCtrl m p) (g := fun o => o.recvCtrl m' p) hl (L.ctrl p hl hq)) hs h1 h2
      unfold ctrlBody
      rw [← hk']
      cases hk : o.kind <;> first | (exact absurd (by unfold Simple; rw [hk]; trivial) hn) | skip
      · rename_i i q
        cases i with
        | none => exact mv_throw (T := T) (R := fun _ _ => True) _ s s' hs
        | some i => exact ih none none i p hq s s' hs
      · exact hstep

theorem deliver_mv (L : Law Q T) (fuel : Nat) (src src' : Nat × Str) {m m' : Msg V} (hq : Q m m') (u u' : Unit) (c : Conn) :
    Mv T (fun _ _ => True) (deliver fuel src m u c) (deliver fuel src' m' u' c) := by
  unfold deliver
  refine mv_get fun o o' hl => ?_
  have hf := (L.face hl).1
  unfold Core.isData Core.isCtrl
  rw [Replace.has_keys hf.data, Replace.has_keys hf.ctrl]
  split
  · exact recvData_mv L fuel _ _ _ _ hq
  · split
    · exact recvCtrl_mv L fuel _ _ _ _ hq
    · exact mv_pure trivial

/-- Executing has related outcomes. -/
def Ex (Q : Msg V → Msg V → Prop) (T : Op V → Op V → Prop) (ex : Bool → Nat → M (St V) (ProgMsg V)) : Prop := ∀ c a, Mv T (ProgRel Q) (ex c a) (ex c a)

theorem trigger_mv (L : Law Q T) {ex : Bool → Nat → M (St V) (ProgMsg V)} (hex : Ex Q T ex) {out out' : ProgMsg V} (ho : ProgRel Q out out') (c : Conn) :
    Mv T (ProgRel Q) (trigger ex out c) (trigger ex out' c) := by
  unfold trigger
  refine mv_get fun o o' hl => ?_
  have hf := (L.face hl).1
  unfold Core.isData Core.isCtrl
  rw [Replace.has_keys hf.data, Replace.has_keys hf.ctrl]
  split
  · exact mv_bind (hex _ _) fun _ _ hr => mv_pure (mergeProg_rel hr ho)
  · split
    · exact mv_bind (hex _ _) fun _ _ hr => mv_pure (mergeProg_rel hr ho)
    · exact mv_pure ho

theorem emitMsg_mv (L : Law Q T) {ex : Bool → Nat → M (St V) (ProgMsg V)} (hex : Ex Q T ex) (fuel : Nat) (a : Nat) (port : Str) {m m' : Msg V} (hq : Q m m') :
    Mv T (ProgRel Q) (emitMsg ex fuel a port m) (emitMsg ex fuel a port m') := by
  unfold emitMsg
  refine mv_get fun o o' hl => mv_state fun s s' => mv_bind (mv_log _ _) fun _ _ _ => ?_
  have hf := (L.face hl).1
  rw [hf.id, hf.conns]
  have h0 : ProgRel Q [(o'.core.id, [(port, [m])])] [(o'.core.id, [(port, [m'])])] := .cons ⟨rfl, .cons ⟨rfl, .cons hq .nil⟩ .nil⟩ .nil
  dsimp only
  split
  · exact mv_pure h0
  · rename_i conns _
    exact mv_bind (mv_fold (same conns) (fun u u' c c' _ e => by subst e; exact deliver_mv L fuel _ _ hq u u' c) trivial) fun _ _ _ =>
      mv_fold (same conns) (fun out out' c c' ho e => by subst e; exact trigger_mv L hex ho c) h0

theorem emitOp_mv (L : Law Q T) {ex : Bool → Nat → M (St V) (ProgMsg V)} (hex : Ex Q T ex) (fuel : Nat) (a : Nat) {msgs msgs' : OpMsg V} (h : OpRel Q msgs msgs') :
    Mv T (ProgRel Q) (emitOp ex fuel a msgs) (emitOp ex fuel a msgs') := by
  refine mv_fold h (fun out out' pm pm' ho hp => mv_get fun o o' hl => ?_) .nil
  rw [(L.face hl).1.outs, ← hp.1]
  split
  · exact mv_bind (mv_fold hp.2 (fun _ _ m m' hr hq => mv_bind (emitMsg_mv L hex fuel a pm.1 hq) fun _ _ hr' => mv_pure (mergeProg_rel hr' hr)) .nil) fun _ _ hr => mv_pure (mergeProg_rel hr ho)
  · exact mv_throw _

open Replace in
theorem exec_mv (L : Law Q T) (fuel : Nat) : Ex (V := V) Q T (exec fuel) := by
  induction fuel with
  | zero => intro c a; exact mv_throw _
  | succ fuel ih =>
    intro c a
    refine mv_bind (mv_log _ _) fun _ _ _ => mv_get_at (f := execBody fuel c a) (g := execBody fuel c a) fun o o' hl s s' hs h1 h2 => ?_
    rcases L.kinds hl with ⟨k1, k2⟩ | ⟨hn, hk'⟩
    · rw [execBody_simple k1, execBody_simple k2]
      have hstep : StepRel (Ok T) (OpRel Q) (localRun a (if c = true then Op.execCtrl else Op.execData) s) (localRun a (if c = true then Op.execCtrl else Op.execData) s') := by
        refine run_at (T := T) ?_ hs h1 h2
        cases c
        · exact L.execData hl k1
        · exact L.execCtrl hl k1
      rw [M.bind_def, M.bind_def]
      revert hstep
      cases localRun a _ s <;> cases localRun a _ s' <;> intro hstep <;> first | exact hstep.elim | skip
      · exact emitOp_mv L ih fuel a hstep.1 _ _ hstep.2
      · exact hstep
    · suffices Mv T (ProgRel Q) (execBody fuel c a o) (execBody fuel c a o') from this s s' hs
      unfold execBody
      rw [← hk']
      cases hk : o.kind <;> first | (exact absurd (by unfold Simple; rw [hk]; trivial) hn) | skip
      · rename_i i q
        cases i with
        | none => exact mv_throw _
        | some i => exact ih c i
      · dsimp only
        split
        · exact mv_pure .nil
        · rw [(L.face hl).2]
          refine mv_state fun s s' => mv_bind (mv_depth _ _) fun _ _ _ => mv_bind (R := ProgRel Q) (mv_fold (same _) (fun out out' key key' ho e => ?_) .nil) fun r r' hr =>
            mv_bind (mv_depth _ _) fun _ _ _ => mv_bind (mv_mark L a fun _ => []) fun _ _ _ => ?_
          · subst e
            unfold pipelineStep
            split
            · exact mv_throw _
            · exact mv_bind (ih false _) fun _ _ hr => mv_pure (mergeProg_rel hr ho)
          · have hnil : r = [] ↔ r' = [] := by cases hr <;> simp
            by_cases h0 : r = []
            · rw [if_pos h0, if_pos (hnil.1 h0)]
              exact mv_pure .nil
            · rw [if_neg h0, if_neg fun e => h0 (hnil.2 e)]
              exact mv_bind (mv_lift (pipelineOutput_rel (flatten_rel hr) .nil)) fun _ _ ho => emitOp_mv L ih fuel a ho

theorem feedAll_mv (L : Law Q T) (fuel : Nat) (a : Nat) {msgs msgs' : OpMsg V} (h : OpRel Q msgs msgs') : Mv T (ProgRel Q) (feedAll fuel a msgs) (feedAll fuel a msgs') := by
  refine mv_fold h (fun out out' pm pm' ho hp => ?_) .nil
  obtain ⟨p, ms⟩ := pm
  obtain ⟨p', ms'⟩ := pm'
  obtain ⟨rfl, hms⟩ := hp
  unfold feedPort
  dsimp only at hms ⊢
  refine mv_fold hms (fun _ _ m m' hr hq => mv_bind (mv_bind (recvData_mv L fuel none none a p hq) fun _ _ _ => exec_mv L fuel false a) fun r r' hr' => mv_pure ?_) ho
  have hnil : r = [] ↔ r' = [] := by cases hr' <;> simp
  by_cases h0 : r = []
  · rw [if_pos h0, if_pos (hnil.1 h0)]
    exact hr
  · rw [if_neg h0, if_neg fun e => h0 (hnil.2 e)]
    exact mergeProg_rel hr' hr

/-! ## Programs -/

theorem filterPorts_rel (id : Str) {r r' : OpMsg V} (h : OpRel Q r r') (ps : List Str) : ∀ {out out' : ProgMsg V}, ProgRel Q out out' →
    ProgRel Q (filterPorts id r ps out) (filterPorts id r' ps out') := by
  induction ps with
  | nil => intro out out' ho; exact ho
  | cons p ps ih =>
    intro out out' ho
    unfold filterPorts
    have h1 := h.find p
    have h2 := ho.find id
    cases e1 : r.find? p <;> cases e2 : r'.find? p <;> rw [e1, e2] at h1 <;> cases h1
    · exact ih ho
    · rename_i a b hm
      cases e3 : out.find? id <;> cases e4 : out'.find? id <;> rw [e3, e4] at h2 <;> cases h2
      · exact ih (ho.emplace id (.cons ⟨rfl, hm⟩ .nil))
      · rename_i hx
        exact ih (ho.put id (mergeOp_rel (x := [(p, a)]) (x' := [(p, b)]) (.cons ⟨rfl, hm⟩ .nil) hx))

theorem filterReport_rel {r r' : ProgMsg V} (h : ProgRel Q r r') (f : Map (List Str)) : ∀ {out out' : ProgMsg V}, ProgRel Q out out' →
    ProgRel Q (filterReport r f out) (filterReport r' f out') := by
  induction f with
  | nil => intro out out' ho; exact ho
  | cons e f ih =>
    intro out out' ho
    obtain ⟨id, ports⟩ := e
    unfold filterReport
    have h1 := h.find id
    cases e1 : r.find? id <;> cases e2 : r'.find? id <;> rw [e1, e2] at h1 <;> cases h1
    · exact ih ho
    · rename_i hm
      exact ih (filterPorts_rel id hm ports ho)

/-- The programs have the same tables and related operators. -/
structure ProgOk (T : Op V → Op V → Prop) (P P' : Prog V) : Prop where
  ops : P.ops = P'.ops
  entry : P.entry = P'.entry
  filter : P.filter = P'.filter
  st : Ok T P.st P'.st

theorem receiveDebug_rel (L : Law Q T) {P P' : Prog V} (h : ProgOk T P P') (fuel : Nat) {msgs msgs' : OpMsg V} (hm : OpRel Q msgs msgs') :
    StepRel (ProgOk T) (ProgRel Q) (P.receiveDebug fuel msgs) (P'.receiveDebug fuel msgs') := by
  unfold Prog.receiveDebug
  rw [h.ops, h.entry]
  cases P'.ops.find? P'.entry with
  | none => exact ⟨rfl, h⟩
  | some a =>
    have := feedAll_mv L fuel a hm _ _ h.st
    dsimp only
    cases hx : feedAll fuel a msgs P.st <;> cases hy : feedAll fuel a msgs' P'.st <;> rw [hx, hy] at this <;> first | exact this.elim | skip
    · exact ⟨this.1, rfl, rfl, h.filter, this.2⟩
    · exact ⟨this.1, rfl, rfl, h.filter, this.2⟩

theorem receive_rel (L : Law Q T) {P P' : Prog V} (h : ProgOk T P P') (fuel : Nat) {msgs msgs' : OpMsg V} (hm : OpRel Q msgs msgs') :
    StepRel (ProgOk T) (ProgRel Q) (P.receive fuel msgs) (P'.receive fuel msgs') := by
  have := receiveDebug_rel L h fuel hm
  unfold Prog.receive
  cases hx : P.receiveDebug fuel msgs <;> cases hy : P'.receiveDebug fuel msgs' <;> rw [hx, hy] at this <;> first | exact this.elim | skip
  · refine ⟨?_, this.2⟩
    rw [this.2.filter]
    split
    · exact this.1
    · exact filterReport_rel this.1 _ .nil
  · exact this

theorem debugRun_rel (L : Law Q T) (fuel : Nat) {calls calls' : List (OpMsg V)} (hc : List.Forall₂ (OpRel Q) calls calls') : ∀ {P P' : Prog V}, ProgOk T P P' →
    ExRel (List.Forall₂ (ProgRel Q)) (answer (debugRun fuel calls P)) (answer (debugRun fuel calls' P')) := by
  induction hc with
  | nil => intro P P' _; exact .nil
  | @cons msgs msgs' calls calls' hm _ ih =>
    intro P P' h
    have := receiveDebug_rel L h fuel hm
    unfold debugRun
    cases hx : P.receiveDebug fuel msgs <;> cases hy : P'.receiveDebug fuel msgs' <;> rw [hx, hy] at this <;> first | exact this.elim | skip
    · have h2 := ih this.2
      dsimp only
      revert h2
      cases debugRun fuel calls _ <;> cases debugRun fuel calls' _ <;> intro h2 <;> first | exact h2.elim | exact .cons this.1 h2 | exact h2
    · exact this.1

theorem receiveRun_rel (L : Law Q T) (fuel : Nat) {calls calls' : List (OpMsg V)} (hc : List.Forall₂ (OpRel Q) calls calls') : ∀ {P P' : Prog V}, ProgOk T P P' →
    ExRel (List.Forall₂ (ProgRel Q)) (answer (receiveRun fuel calls P)) (answer (receiveRun fuel calls' P')) := by
  induction hc with
  | nil => intro P P' _; exact .nil
  | @cons msgs msgs' calls calls' hm _ ih =>
    intro P P' h
    have := receive_rel L h fuel hm
    unfold receiveRun
    cases hx : P.receive fuel msgs <;> cases hy : P'.receive fuel msgs' <;> rw [hx, hy] at this <;> first | exact this.elim | skip
    · have h2 := ih this.2
      dsimp only
      revert h2
      cases receiveRun fuel calls _ <;> cases receiveRun fuel calls' _ <;> intro h2 <;> first | exact h2.elim | exact .cons this.1 h2 | exact h2
    · exact this.1

end
end Mapped
end Rtbot
