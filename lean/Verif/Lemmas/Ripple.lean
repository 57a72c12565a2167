import Verif.Lemmas.Selector

/-! # Running a program step by step, with frames

As `Lemmas/Wave`, for arbitrary heaps: every lemma says which operators a step leaves alone. -/

namespace Rtbot.Ripple
open Spec Wave Selector
variable {V : Type} [Num V]

/-- Nothing but the operators in `S` changes; the operator at address 0 emits `L` on its port. -/
structure Fr (S : List Nat) (L : List (Msg V)) (s s' : St V) : Prop where
  same : ∀ b, b ∉ S → s'.heap b = s.heap b
  depth : s'.depth = s.depth
  log : ∃ evs, s'.log = s.log ++ evs ∧ emittedBy 0 o1 evs = L

omit [Num V] in
theorem Fr.refl (s : St V) : Fr [] [] s s := ⟨fun _ _ => rfl, rfl, [], by simp, rfl⟩

omit [Num V] in
theorem Fr.trans {S S' : List Nat} {L L' : List (Msg V)} {s s' s'' : St V} (h : Fr S L s s') (h' : Fr S' L' s' s'') : Fr (S ++ S') (L ++ L') s s'' := by
  obtain ⟨e, he, hL⟩ := h.log
  obtain ⟨e', he', hL'⟩ := h'.log
  refine ⟨fun b hb => ?_, h'.depth.trans h.depth, e ++ e', ?_, ?_⟩
  · rw [List.mem_append, not_or] at hb
    rw [h'.same b hb.2, h.same b hb.1]
  · rw [he', he, List.append_assoc]
  · rw [← hL, ← hL']
    exact List.filterMap_append

omit [Num V] in
theorem Fr.mono {S S' : List Nat} {L : List (Msg V)} {s s' : St V} (h : Fr S L s s') (hS : S ⊆ S') : Fr S' L s s' := ⟨fun b hb => h.same b fun hb' => hb (hS hb'), h.depth, h.log⟩

def Ex (f : Nat) (c : Bool) (a : Nat) (s s' : St V) : Prop := ∃ r, exec f c a s = .ok r s'
def Dl (f : Nat) (src : Nat × Str) (m : Msg V) (cs : List Conn) (s s' : St V) : Prop := M.fold (deliver f src m) cs () s = .ok () s'
def Tr (f : Nat) (cs : List Conn) (s s' : St V) : Prop := ∀ out, ∃ r, M.fold (trigger (exec f)) cs out s = .ok r s'

theorem Dl.nil {f : Nat} {src : Nat × Str} {m : Msg V} (s : St V) : Dl f src m [] s s := rfl
theorem Dl.cons {f : Nat} {src : Nat × Str} {m : Msg V} {c : Conn} {cs : List Conn} {s s1 s2 : St V} (h : Dl f src m [c] s s1) (h2 : Dl f src m cs s1 s2) : Dl f src m (c :: cs) s s2 := by
  have h1 : deliver f src m () c s = .ok () s1 := by
    unfold Dl at h
    rw [fold_cons] at h
    cases hd : deliver f src m () c s with
    | ok x s' => rw [hd] at h; cases h; rfl
    | err e s' => rw [hd] at h; cases h
  exact fold_step h1 h2

theorem Tr.nil {f : Nat} (s : St V) : Tr f [] s s := fun out => ⟨out, rfl⟩

theorem Tr.data {f : Nat} {b : Nat} {q : Str} {cs : List Conn} {s s1 s2 : St V} {o : Op V} (h : s.heap b = some o) (hd : o.core.isData q = true) (he : Ex f false b s s1) (ht : Tr f cs s1 s2) :
    Tr f (⟨b, q⟩ :: cs) s s2 := by
  intro out
  obtain ⟨r, hr⟩ := he
  obtain ⟨r', hr'⟩ := ht (mergeProg out r)
  refine ⟨r', fold_step (b' := mergeProg out r) (s' := s1) ?_ hr'⟩
  unfold trigger
  rw [M.bind_def]
  unfold getOp
  rw [h]
  dsimp only
  rw [if_pos hd, M.bind_def, hr]
  rfl

theorem Tr.ctrl {f : Nat} {b : Nat} {q : Str} {cs : List Conn} {s s1 s2 : St V} {o : Op V} (h : s.heap b = some o) (hd : o.core.isData q = false) (hc : o.core.isCtrl q = true)
    (he : Ex f true b s s1) (ht : Tr f cs s1 s2) : Tr f (⟨b, q⟩ :: cs) s s2 := by
  intro out
  obtain ⟨r, hr⟩ := he
  obtain ⟨r', hr'⟩ := ht (mergeProg out r)
  refine ⟨r', fold_step (b' := mergeProg out r) (s' := s1) ?_ hr'⟩
  unfold trigger
  rw [M.bind_def]
  unfold getOp
  rw [h]
  dsimp only
  rw [if_neg (by simp [hd]), if_pos hc, M.bind_def, hr]
  rfl

omit [Num V] in
/-- One operator and the log change. -/
def put (s : St V) (a : Nat) (o : Op V) (evs : List (Ev V)) : St V := ⟨fun b => if b = a then some o else s.heap b, s.depth, s.log ++ evs⟩

omit [Num V] in
theorem putFr {s : St V} {a : Nat} {o : Op V} {evs : List (Ev V)} {L : List (Msg V)} (h : emittedBy 0 o1 evs = L) : Fr [a] L s (put s a o evs) :=
  ⟨fun b hb => by
    show (if b = a then some o else s.heap b) = s.heap b
    rw [if_neg (by simpa using hb)], rfl, evs, rfl, h⟩

omit [Num V] in
theorem putAt {s : St V} {a : Nat} {o : Op V} {evs : List (Ev V)} : (put s a o evs).heap a = some o := by
  show (if a = a then some o else s.heap a) = some o
  rw [if_pos rfl]

omit [Num V] in
theorem put_ev {s : St V} {a : Nat} {o : Op V} {evs : List (Ev V)} {e : Ev V} : (put s a o evs).ev e = put s a o (evs ++ [e]) := by
  unfold put St.ev
  rw [← List.append_assoc]

theorem recv_data {s : St V} {b f : Nat} {o o' : Op V} {m : Msg V} {q : Str} {frm : Option (Nat × Str)} (h : s.heap b = some o) (hk : Own o) (hr : o.recvData m q = .ok o') :
    recvData (f + 1) frm b m q s = .ok () (put s b o' [.recv frm b q false m]) := by
  obtain ⟨hk1, hk2⟩ := hk
  have hheap : ({ s with log := s.log ++ [.recv frm b q false m] } : St V).heap b = some o := h
  have key : localRun b (updWith fun o => o.recvData m q) { s with log := s.log ++ [.recv frm b q false m] } = .ok () (put s b o' [.recv frm b q false m]) := by
    unfold localRun updWith
    rw [hheap]
    dsimp only
    rw [hr]
    rfl
  have h1 : recvData (f + 1) frm b m q s = (match o.kind with
    | .composite (some i) _ => recvData f none i m q
    | .composite none _ => M.throw (.exc .runtime)
    | .pipeline inputs _ pm => do
      let key ← M.lift (pipelinePort inputs pm q)
      match inputs.find? key with
      | none => M.throw (.exc .outOfRange)
      | some t => do
        recvData f none t m (split2 key).2
        localRun b fun o => .ok () { o with core := { o.core with toProcess := setInsert o.core.toProcess key } }
    | _ => localRun b (updWith fun o => o.recvData m q) : M (St V) Unit) { s with log := s.log ++ [.recv frm b q false m] } := by
    conv_lhs => unfold recvData
    rw [M.bind_def, show logEv (.recv frm b q false m) s = .ok () { s with log := s.log ++ [.recv frm b q false m] } from rfl]
    dsimp only
    rw [M.bind_def]
    unfold getOp
    rw [hheap]
    dsimp only
    cases o.kind <;> rfl
  rw [h1]
  cases hkk : o.kind with
  | composite i q => exact absurd hkk (hk1 i q)
  | pipeline i q pm => exact absurd hkk (hk2 i q pm)
  | _ => exact key

theorem recv_ctrl {s : St V} {b f : Nat} {o o' : Op V} {m : Msg V} {q : Str} {frm : Option (Nat × Str)} (h : s.heap b = some o) (hk : Own o) (hr : o.recvCtrl m q = .ok o') :
    recvCtrl (f + 1) frm b m q s = .ok () (put s b o' [.recv frm b q true m]) := by
  obtain ⟨hk1, hk2⟩ := hk
  have hheap : ({ s with log := s.log ++ [.recv frm b q true m] } : St V).heap b = some o := h
  have key : localRun b (updWith fun o => o.recvCtrl m q) { s with log := s.log ++ [.recv frm b q true m] } = .ok () (put s b o' [.recv frm b q true m]) := by
    unfold localRun updWith
    rw [hheap]
    dsimp only
    rw [hr]
    rfl
  have h1 : recvCtrl (f + 1) frm b m q s = (match o.kind with
    | .composite (some i) _ => recvCtrl f none i m q
    | .composite none _ => M.throw (.exc .runtime)
    | _ => localRun b (updWith fun o => o.recvCtrl m q) : M (St V) Unit) { s with log := s.log ++ [.recv frm b q true m] } := by
    conv_lhs => unfold recvCtrl
    rw [M.bind_def, show logEv (.recv frm b q true m) s = .ok () { s with log := s.log ++ [.recv frm b q true m] } from rfl]
    dsimp only
    rw [M.bind_def]
    unfold getOp
    rw [hheap]
    dsimp only
    cases o.kind <;> rfl
  rw [h1]
  cases hkk : o.kind with
  | composite i q => exact absurd hkk (hk1 i q)
  | pipeline i q pm => exact absurd hkk (hk2 i q pm)
  | _ => exact key

/-- One message is handed over. -/
theorem dl_data {s : St V} {b f : Nat} {o o' : Op V} {m : Msg V} {q : Str} {src : Nat × Str} (h : s.heap b = some o) (hk : Own o) (hd : o.core.isData q = true) (hr : o.recvData m q = .ok o') :
    ∃ s1, Dl (f + 1) src m [⟨b, q⟩] s s1 ∧ Fr [b] [] s s1 ∧ s1.heap b = some o' := by
  refine ⟨_, fold_step (s' := (put s b o' [.recv (some src) b q false m])) ?_ (fold_nil _ _ _), putFr rfl, putAt⟩
  unfold deliver
  rw [M.bind_def]
  unfold getOp
  rw [h]
  dsimp only
  rw [if_pos hd]
  exact recv_data h hk hr

theorem dl_ctrl {s : St V} {b f : Nat} {o o' : Op V} {m : Msg V} {q : Str} {src : Nat × Str} (h : s.heap b = some o) (hk : Own o) (hd : o.core.isData q = false) (hc : o.core.isCtrl q = true)
    (hr : o.recvCtrl m q = .ok o') : ∃ s1, Dl (f + 1) src m [⟨b, q⟩] s s1 ∧ Fr [b] [] s s1 ∧ s1.heap b = some o' := by
  refine ⟨_, fold_step (s' := (put s b o' [.recv (some src) b q true m])) ?_ (fold_nil _ _ _), putFr rfl, putAt⟩
  unfold deliver
  rw [M.bind_def]
  unfold getOp
  rw [h]
  dsimp only
  rw [if_neg (by simp [hd]), if_pos hc]
  exact recv_ctrl h hk hr

theorem ex_own {s : St V} {a f : Nat} {o o' : Op V} {ctrl : Bool} {out : OpMsg V} (h : s.heap a = some o) (hk : Own o) (hr : (if ctrl then o.execCtrl else o.execData) = .ok out o') :
    exec (f + 1) ctrl a s = emitOp (exec f) f a out (put s a o' [.exec a ctrl]) := by
  obtain ⟨hk1, hk2⟩ := hk
  have hheap : ({ s with log := s.log ++ [.exec a ctrl] } : St V).heap a = some o := h
  have key : ((do let out ← localRun a (if ctrl then Op.execCtrl else Op.execData); emitOp (exec f) f a out) : M (St V) (ProgMsg V)) { s with log := s.log ++ [.exec a ctrl] } =
      emitOp (exec f) f a out (put s a o' [.exec a ctrl]) := by
    rw [M.bind_def]
    have : localRun a (if ctrl then Op.execCtrl else Op.execData) { s with log := s.log ++ [.exec a ctrl] } = .ok out (put s a o' [.exec a ctrl]) := by
      unfold localRun
      rw [hheap]
      dsimp only
      have hr' : (if ctrl then Op.execCtrl else Op.execData) o = .ok out o' := by
        cases ctrl <;> exact hr
      rw [hr']
      rfl
    rw [this]
  have h1 : exec (f + 1) ctrl a s = (match o.kind with
    | .composite (some i) _ => exec f ctrl i
    | .composite none _ => M.throw (.exc .runtime)
    | .pipeline inputs outputs pm =>
      if ctrl then pure []
      else do
        let s ← M.get
        setDepth (s.depth + 1)
        let r ← M.fold (pipelineStep (exec f) inputs) o.core.toProcess []
        setDepth s.depth
        localRun a fun o => .ok () { o with core := { o.core with toProcess := [] } }
        if r = [] then pure []
        else do
          let out ← M.lift (pipelineOutput outputs pm (flatten r) [])
          emitOp (exec f) f a out
    | _ => do
      let out ← localRun a (if ctrl then Op.execCtrl else Op.execData)
      emitOp (exec f) f a out : M (St V) (ProgMsg V)) { s with log := s.log ++ [.exec a ctrl] } := by
    conv_lhs => unfold exec
    rw [M.bind_def, show logEv (.exec a ctrl) s = .ok () { s with log := s.log ++ [.exec a ctrl] } from rfl]
    dsimp only
    rw [M.bind_def]
    unfold getOp
    rw [hheap]
    dsimp only
    cases o.kind <;> rfl
  rw [h1]
  cases hkk : o.kind with
  | composite i q => exact absurd hkk (hk1 i q)
  | pipeline i q pm => exact absurd hkk (hk2 i q pm)
  | _ => exact key

/-- An operator that emits nothing. -/
theorem ex_quiet {s : St V} {a f : Nat} {o o' : Op V} {ctrl : Bool} (h : s.heap a = some o) (hk : Own o) (hr : (if ctrl then o.execCtrl else o.execData) = .ok [] o') :
    ∃ s1, Ex (f + 1) ctrl a s s1 ∧ Fr [a] [] s s1 ∧ s1.heap a = some o' :=
  ⟨_, ⟨[], by rw [ex_own h hk hr]; rfl⟩, putFr rfl, putAt⟩

theorem ex_still {s : St V} {a f : Nat} {o o' : Op V} (h : s.heap a = some o) (hk : Own o) (hr : o.execData = .ok [] o') : ∃ s1, Ex (f + 1) false a s s1 ∧ Fr [a] [] s s1 ∧ s1.heap a = some o' :=
  ex_quiet h hk hr

/-- An operator that emits one message to connected operators. -/
theorem ex_one {s : St V} {a f : Nat} {o o' : Op V} {ctrl : Bool} {p : Str} {m : Msg V} {cs : List Conn} (ha : a ≠ 0) (h : s.heap a = some o) (hk : Own o)
    (hr : (if ctrl then o.execCtrl else o.execData) = .ok [(p, [m])] o') (hp : o'.core.outIds.contains p = true) (hc : o'.core.outputs.find? p = some cs) :
    ∃ s1, Fr [a] [] s s1 ∧ s1.heap a = some o' ∧ ∀ s2 s3, Dl f (a, p) m cs s1 s2 → Tr f cs s2 s3 → Ex (f + 1) ctrl a s s3 := by
  refine ⟨(put s a o' ([.exec a ctrl] ++ [.emit s.depth a o'.core.id p m])), ?_, putAt, fun s2 s3 h2 h3 => ?_⟩
  · exact putFr (by simp [emittedBy, ha])
  · obtain ⟨r, hr3⟩ := h3 [(o'.core.id, [(p, [m])])]
    have hheap : (put s a o' [.exec a ctrl]).heap a = some o' := putAt
    unfold Ex
    rw [ex_own h hk hr]
    refine emitOp_single (r := r) hheap hp ?_
    rw [emitMsg_some hheap hc]
    have e : (put s a o' [.exec a ctrl]).ev (.emit (put s a o' [.exec a ctrl]).depth a o'.core.id p m) =
        (put s a o' ([.exec a ctrl] ++ [.emit s.depth a o'.core.id p m])) := put_ev
    rw [e, h2]
    exact hr3

/-- The last operator. -/
theorem ex_last {s : St V} {f : Nat} {o o' : Op V} {ctrl : Bool} {m : Msg V} (h : s.heap 0 = some o) (hk : Own o)
    (hr : (if ctrl then o.execCtrl else o.execData) = .ok [(o1, [m])] o') (hp : o'.core.outIds.contains o1 = true) (hc : o'.core.outputs.find? o1 = none) :
    ∃ s1, Ex (f + 1) ctrl 0 s s1 ∧ Fr [0] [m] s s1 ∧ s1.heap 0 = some o' := by
  refine ⟨(put s 0 o' ([.exec 0 ctrl] ++ [.emit s.depth 0 o'.core.id o1 m])), ?_, ?_, putAt⟩
  · have hheap : (put s 0 o' [.exec 0 ctrl]).heap 0 = some o' := putAt
    unfold Ex
    rw [ex_own h hk hr]
    have := emitMsg_none (ex := exec f) (fuel := f) (m := m) hheap hc
    exact emitOp_single hheap hp (this.trans (congrArg _ put_ev))
  · exact putFr (by simp [emittedBy])

/-- An operator that emits the same message on two ports. -/
theorem ex_two {s : St V} {a f : Nat} {o o' : Op V} {ctrl : Bool} {p q : Str} {m : Msg V} {cs ds : List Conn} (ha : a ≠ 0) (h : s.heap a = some o) (hk : Own o)
    (hr : (if ctrl then o.execCtrl else o.execData) = .ok [(p, [m]), (q, [m])] o') (hp : o'.core.outIds.contains p = true) (hc : o'.core.outputs.find? p = some cs)
    (hq : o'.core.outIds.contains q = true) (hd : o'.core.outputs.find? q = some ds) :
    ∃ s1, Fr [a] [] s s1 ∧ s1.heap a = some o' ∧ ∀ s2 s3, Dl f (a, p) m cs s1 s2 → Tr f cs s2 s3 → s3.heap a = some o' →
      ∃ s4, Fr [] [] s3 s4 ∧ ∀ s5 s6, Dl f (a, q) m ds s4 s5 → Tr f ds s5 s6 → Ex (f + 1) ctrl a s s6 := by
  refine ⟨(put s a o' ([.exec a ctrl] ++ [.emit s.depth a o'.core.id p m])), ?_, putAt, fun s2 s3 h2 h3 ho3 => ?_⟩
  · exact putFr (by simp [emittedBy, ha])
  · refine ⟨s3.ev (.emit s3.depth a o'.core.id q m), ⟨fun _ _ => rfl, rfl, [.emit s3.depth a o'.core.id q m], rfl, by simp [emittedBy, ha]⟩, fun s5 s6 h5 h6 => ?_⟩
    obtain ⟨r, hr3⟩ := h3 [(o'.core.id, [(p, [m])])]
    obtain ⟨r', hr6⟩ := h6 [(o'.core.id, [(q, [m])])]
    have hheap : (put s a o' [.exec a ctrl]).heap a = some o' := putAt
    have e : (put s a o' [.exec a ctrl]).ev (.emit (put s a o' [.exec a ctrl]).depth a o'.core.id p m) =
        (put s a o' ([.exec a ctrl] ++ [.emit s.depth a o'.core.id p m])) := put_ev
    have e1 : emitMsg (exec f) f a p m (put s a o' [.exec a ctrl]) = .ok r s3 := by
      rw [emitMsg_some hheap hc, e, h2]
      exact hr3
    have e2 : emitMsg (exec f) f a q m s3 = .ok r' s6 := by
      rw [emitMsg_some ho3 hd, h5]
      exact hr6
    have entry : ∀ (out : ProgMsg V) (x : Str) (s s' : St V) (r : ProgMsg V), s.heap a = some o' → o'.core.outIds.contains x = true → emitMsg (exec f) f a x m s = .ok r s' →
        (do
          let o ← getOp a
          if o.core.outIds.contains x then do
            let r ← emitPort (exec f) f a x [m]
            pure (mergeProg out r)
          else M.throw (.exc .badPort) : M (St V) (ProgMsg V)) s = .ok (mergeProg out (mergeProg [] r)) s' := by
      intro out x s s' r h1 h2 h3
      simp only [M.bind_def, getOp, h1, h2, if_true, emitPort, fold_cons, fold_nil, h3]
      rfl
    refine ⟨mergeProg (mergeProg [] (mergeProg [] r)) (mergeProg [] r'), ?_⟩
    rw [ex_own h hk hr]
    unfold emitOp
    exact fold_step (entry [] p _ _ _ hheap hp e1) (fold_step (entry _ q _ _ _ ho3 hq e2) (fold_nil _ _ _))

/-! ### Operators with one port and room for one message -/

/-- Nothing to do. -/
def Idle (s : St V) (a : Nat) (id : Str) (w : Map (List Conn)) (K : Kind V) : Prop := ∃ i, One i ∧ s.heap a = some (qop id w K [] i)

/-- A message to be processed. -/
def Pend (s : St V) (a : Nat) (id : Str) (w : Map (List Conn)) (K : Kind V) (m : Msg V) : Prop := ∃ i, Got m i ∧ s.heap a = some (qop id w K [i1] i)

/-- The kind makes `m'` of `m`. -/
def Makes (K : Kind V) (m m' : Msg V) (K' : Kind V) : Prop := Base K ∧ ∀ id w i, Got m i → (qop id w K [i1] i).execData = .ok (single m') (qop id w K' [] i)

/-- The kind makes nothing of `m`. -/
def Stops (K : Kind V) (m : Msg V) : Prop := Base K ∧ ∀ id w i, Got m i → (qop id w K [i1] i).execData = .ok [] (qop id w K [] i)

theorem dl_idle {s : St V} {b f : Nat} {id : Str} {w : Map (List Conn)} {K : Kind V} {src : Nat × Str} (hK : Base K) (h : Idle s b id w K) (m : Msg V) :
    ∃ s1, Dl (f + 1) src m [⟨b, i1⟩] s s1 ∧ Fr [b] [] s s1 ∧ Pend s1 b id w K m := by
  obtain ⟨i, hi, hh⟩ := h
  obtain ⟨i', h1, h2⟩ := q_recv (id := id) (w := w) hK hi m
  obtain ⟨s1, k1, k2, k3⟩ := dl_data (f := f) (src := src) hh (hK.2.2 _) (by rfl) h1
  exact ⟨s1, k1, k2, i', h2, k3⟩

theorem ex_makes {s : St V} {a f : Nat} {id : Str} {w : Map (List Conn)} {K K' : Kind V} {m m' : Msg V} {cs : List Conn} (ha : a ≠ 0) (hK : Makes K m m' K') (h : Pend s a id w K m) (hw : w.find? o1 = some cs) :
    ∃ s1, Fr [a] [] s s1 ∧ Idle s1 a id w K' ∧ ∀ s2 s3, Dl f (a, o1) m' cs s1 s2 → Tr f cs s2 s3 → Ex (f + 1) false a s s3 := by
  obtain ⟨i, hi, hh⟩ := h
  obtain ⟨s1, k1, k2, k3⟩ := ex_one (f := f) (ctrl := false) (p := o1) (m := m') (cs := cs) ha hh (hK.1.2.2 _) (hK.2 id w i hi) (by rfl) hw
  exact ⟨s1, k1, ⟨i, hi.one, k2⟩, k3⟩

theorem ex_stops {s : St V} {a f : Nat} {id : Str} {w : Map (List Conn)} {K : Kind V} {m : Msg V} (hK : Stops K m) (h : Pend s a id w K m) :
    ∃ s1, Ex (f + 1) false a s s1 ∧ Fr [a] [] s s1 ∧ Idle s1 a id w K := by
  obtain ⟨i, hi, hh⟩ := h
  obtain ⟨s1, k1, k2, k3⟩ := ex_quiet (f := f) (ctrl := false) hh (hK.1.2.2 _) (hK.2 id w i hi)
  exact ⟨s1, k1, k2, i, hi.one, k3⟩

omit [Num V] in
theorem Idle.frame {s s' : St V} {a : Nat} {id : Str} {w : Map (List Conn)} {K : Kind V} {S : List Nat} {L : List (Msg V)} (h : Idle s a id w K) (hf : Fr S L s s') (ha : a ∉ S) : Idle s' a id w K := by
  obtain ⟨i, h1, h2⟩ := h
  exact ⟨i, h1, (hf.same a ha).trans h2⟩

omit [Num V] in
theorem Pend.frame {s s' : St V} {a : Nat} {id : Str} {w : Map (List Conn)} {K : Kind V} {m : Msg V} {S : List Nat} {L : List (Msg V)} (h : Pend s a id w K m) (hf : Fr S L s s') (ha : a ∉ S) :
    Pend s' a id w K m := by
  obtain ⟨i, h1, h2⟩ := h
  exact ⟨i, h1, (hf.same a ha).trans h2⟩

theorem Pend.tr {f : Nat} {b : Nat} {cs : List Conn} {s s1 s2 : St V} {id : Str} {w : Map (List Conn)} {K : Kind V} {m : Msg V} (h : Pend s b id w K m) (he : Ex f false b s s1) (ht : Tr f cs s1 s2) :
    Tr f (⟨b, i1⟩ :: cs) s s2 := by
  obtain ⟨i, _, hh⟩ := h
  exact Tr.data hh (by rfl) he ht

section kinds
theorem base_of {K : Kind V} (h1 : ∀ (c : Core V) m p, (⟨c, K⟩ : Op V).recvData m p = (c.receiveDataBase m p >>= fun c => Except.ok (⟨c, K⟩ : Op V)))
    (h2 : ∀ c : Core V, (⟨c, K⟩ : Op V).execData = (⟨c, K⟩ : Op V).execBase) (h3 : ∀ c : Core V, Own (⟨c, K⟩ : Op V)) : Base K := by
  refine ⟨fun c m p => ?_, h2, h3⟩
  rw [h1]
  cases c.receiveDataBase m p <;> rfl

theorem base_add (v : V) : Base (.add v : Kind V) := base_of (fun _ _ _ => rfl) (fun _ => rfl) fun c => ⟨fun _ _ h => (by cases h), fun _ _ _ h => (by cases h)⟩
theorem base_scale (v : V) : Base (.scale v : Kind V) := base_of (fun _ _ _ => rfl) (fun _ => rfl) fun c => ⟨fun _ _ h => (by cases h), fun _ _ _ h => (by cases h)⟩
theorem base_power (v : V) : Base (.power v : Kind V) := base_of (fun _ _ _ => rfl) (fun _ => rfl) fun c => ⟨fun _ _ h => (by cases h), fun _ _ _ h => (by cases h)⟩
theorem base_shift (d : UInt64) (n : Int) : Base (.timeShift d n : Kind V) := base_of (fun _ _ _ => rfl) (fun _ => rfl) fun c => ⟨fun _ _ h => (by cases h), fun _ _ _ h => (by cases h)⟩
theorem base_cumSum (v : V) : Base (.cumSum v : Kind V) := base_of (fun _ _ _ => rfl) (fun _ => rfl) fun c => ⟨fun _ _ h => (by cases h), fun _ _ _ h => (by cases h)⟩
theorem base_diff (x : Bool) : Base (.difference x : Kind V) := base_of (fun _ _ _ => rfl) (fun _ => rfl) fun c => ⟨fun _ _ h => (by cases h), fun _ _ _ h => (by cases h)⟩
theorem base_output (pm : Map Str) : Base (.output pm : Kind V) := base_of (fun _ _ _ => rfl) (fun _ => rfl) fun c => ⟨fun _ _ h => (by cases h), fun _ _ _ h => (by cases h)⟩

theorem makes_add (v : V) (m : Msg V) : Makes (.add v) m ⟨m.time, m.value +. v⟩ (.add v) := ⟨base_add v, fun _ _ _ hi => q_exec (base_add v) hi (last_got hi _)⟩
theorem makes_scale (v : V) (m : Msg V) : Makes (.scale v) m ⟨m.time, m.value *. v⟩ (.scale v) := ⟨base_scale v, fun _ _ _ hi => q_exec (base_scale v) hi (last_got hi _)⟩
theorem makes_power (v : V) (m : Msg V) : Makes (.power v) m ⟨m.time, Num.pow m.value v⟩ (.power v) := ⟨base_power v, fun _ _ _ hi => q_exec (base_power v) hi (last_got hi _)⟩
theorem makes_constant (v : V) (m : Msg V) : Makes (.constant v) m ⟨m.time, v⟩ (.constant v) := ⟨base_constant v, fun _ _ _ hi => exec_constant hi⟩
theorem makes_cumSum (v : V) (m : Msg V) : Makes (.cumSum v) m ⟨m.time, v +. m.value⟩ (.cumSum (v +. m.value)) := ⟨base_cumSum v, fun _ _ _ hi => q_exec (base_cumSum v) hi (last_got hi _)⟩
theorem makes_count (n : UInt64) (m : Msg V) : Makes (.count n) m ⟨m.time, ofTime (n + 1)⟩ (.count (n + 1)) := ⟨base_count n, fun _ _ _ hi => exec_count hi⟩
theorem makes_shift (m : Msg V) : Makes (.timeShift 1 1) m ⟨m.time + 1, m.value⟩ (.timeShift 1 1) := by
  refine ⟨base_shift 1 1, fun _ _ _ hi => q_exec (base_shift 1 1) hi ((last_got hi _).trans ?_)⟩
  have : timeShiftTime 1 1 m.time = m.time + 1 := rfl
  rw [this]
theorem makes_filter {fo : FilterOp} {v : V} {m : Msg V} (h : fo.eval m.value v = true) : Makes (.filter fo v) m m (.filter fo v) :=
  ⟨base_filter fo v, fun id w i hi => by rw [exec_filter hi, if_pos h]⟩
theorem stops_filter {fo : FilterOp} {v : V} {m : Msg V} (h : fo.eval m.value v = false) : Stops (.filter fo v) m :=
  ⟨base_filter fo v, fun id w i hi => by rw [exec_filter hi, if_neg (by simp [h])]⟩
theorem makes_output (m : Msg V) : Makes (.output [(i1, o1)]) m m (.output [(i1, o1)]) := by
  refine ⟨base_output _, fun id w i hi => q_exec (base_output _) hi ?_⟩
  show procOutput (qop id w (.output [(i1, o1)]) [i1] i).core [(i1, o1)] = _
  unfold procOutput
  have hm : Core.dataLast (qop id w (.output [(i1, o1)] : Kind V) [i1] i).core i1 = .ok m := by
    show (match i.data.getLast? with | some m => Except.ok m | none => .ok Msg.zero) = _
    rw [hi.2]
    rfl
  show (List.foldlM _ [] [i1] >>= _) = _
  rw [List.foldlM_cons, hm]
  rfl
end kinds

end Rtbot.Ripple
