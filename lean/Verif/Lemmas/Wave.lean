import Verif.Spec.Examples
import Verif.Spec.Graph
import Verif.Lemmas.Run

/-! # Running a program step by step

States are lists of operators; every lemma says what one step of the engine makes of such a state. -/

namespace Rtbot.Wave
open Spec
variable {V : Type} [Num V]

/-- The state with the listed operators and the given log. -/
def at_ (l : List (Op V)) (d : Nat) (g : List (Ev V)) : St V := ⟨heapOf l, d, g⟩

omit [Num V] in
theorem setOp_at {l : List (Op V)} {d a : Nat} {g : List (Ev V)} {o : Op V} (h : a < l.length) : (at_ l d g).setOp a o = at_ (l.set a o) d g := by
  unfold at_ St.setOp
  congr 1
  funext b
  unfold heapOf
  rw [List.getElem?_set]
  by_cases hb : b = a
  · subst hb
    rw [if_pos rfl, if_pos rfl, if_pos h]
  · rw [if_neg hb, if_neg (Ne.symm hb)]

theorem getOp_at {l : List (Op V)} {d a : Nat} {g : List (Ev V)} {o : Op V} (h : l[a]? = some o) : getOp a (at_ l d g) = .ok o (at_ l d g) := by
  have hheap : (at_ l d g).heap a = some o := h
  unfold getOp
  rw [hheap]

/-- Neither a Composite nor a Pipeline. -/
def Own (o : Op V) : Prop := (∀ i q, o.kind ≠ .composite i q) ∧ ∀ i q p, o.kind ≠ .pipeline i q p

theorem recvData_at {l : List (Op V)} {d a f : Nat} {g : List (Ev V)} {o o' : Op V} {m : Msg V} {p : Str} {frm : Option (Nat × Str)} (h : l[a]? = some o) (hk : Own o)
    (hr : o.recvData m p = .ok o') : recvData (f + 1) frm a m p (at_ l d g) = .ok () (at_ (l.set a o') d (g ++ [.recv frm a p false m])) := by
  obtain ⟨hk1, hk2⟩ := hk
  have hlt : a < l.length := (List.getElem?_eq_some_iff.1 h).1
  have hheap : (at_ l d (g ++ [.recv frm a p false m])).heap a = some o := h
  have key : localRun a (updWith fun o => o.recvData m p) (at_ l d (g ++ [.recv frm a p false m])) = .ok () (at_ (l.set a o') d (g ++ [.recv frm a p false m])) := by
    unfold localRun updWith
    rw [hheap]
    dsimp only
    rw [hr]
    dsimp only
    rw [setOp_at hlt]
  have h1 : recvData (f + 1) frm a m p (at_ l d g) = (match o.kind with
    | .composite (some i) _ => recvData f none i m p
    | .composite none _ => M.throw (.exc .runtime)
    | .pipeline inputs _ pm => do
      let key ← M.lift (pipelinePort inputs pm p)
      match inputs.find? key with
      | none => M.throw (.exc .outOfRange)
      | some t => do
        recvData f none t m (split2 key).2
        localRun a fun o => .ok () { o with core := { o.core with toProcess := setInsert o.core.toProcess key } }
    | _ => localRun a (updWith fun o => o.recvData m p) : M (St V) Unit) (at_ l d (g ++ [.recv frm a p false m])) := by
    conv_lhs => unfold recvData
    rw [M.bind_def, show logEv (.recv frm a p false m) (at_ l d g) = .ok () (at_ l d (g ++ [.recv frm a p false m])) from rfl]
    dsimp only
    rw [M.bind_def, getOp_at h]
    dsimp only
    cases o.kind <;> rfl
  rw [h1]
  cases hkk : o.kind with
  | composite i q => exact absurd hkk (hk1 i q)
  | pipeline i q pm => exact absurd hkk (hk2 i q pm)
  | _ => exact key

theorem recvCtrl_at {l : List (Op V)} {d a f : Nat} {g : List (Ev V)} {o o' : Op V} {m : Msg V} {p : Str} {frm : Option (Nat × Str)} (h : l[a]? = some o) (hk : Own o)
    (hr : o.recvCtrl m p = .ok o') : recvCtrl (f + 1) frm a m p (at_ l d g) = .ok () (at_ (l.set a o') d (g ++ [.recv frm a p true m])) := by
  obtain ⟨hk1, hk2⟩ := hk
  have hlt : a < l.length := (List.getElem?_eq_some_iff.1 h).1
  have hheap : (at_ l d (g ++ [.recv frm a p true m])).heap a = some o := h
  have key : localRun a (updWith fun o => o.recvCtrl m p) (at_ l d (g ++ [.recv frm a p true m])) = .ok () (at_ (l.set a o') d (g ++ [.recv frm a p true m])) := by
    unfold localRun updWith
    rw [hheap]
    dsimp only
    rw [hr]
    dsimp only
    rw [setOp_at hlt]
  have h1 : recvCtrl (f + 1) frm a m p (at_ l d g) = (match o.kind with
    | .composite (some i) _ => recvCtrl f none i m p
    | .composite none _ => M.throw (.exc .runtime)
    | _ => localRun a (updWith fun o => o.recvCtrl m p) : M (St V) Unit) (at_ l d (g ++ [.recv frm a p true m])) := by
    conv_lhs => unfold recvCtrl
    rw [M.bind_def, show logEv (.recv frm a p true m) (at_ l d g) = .ok () (at_ l d (g ++ [.recv frm a p true m])) from rfl]
    dsimp only
    rw [M.bind_def, getOp_at h]
    dsimp only
    cases o.kind <;> rfl
  rw [h1]
  cases hkk : o.kind with
  | composite i q => exact absurd hkk (hk1 i q)
  | pipeline i q pm => exact absurd hkk (hk2 i q pm)
  | _ => exact key

/-- The messages of one port are handed over. -/
theorem deliver_data {l : List (Op V)} {d b f : Nat} {g : List (Ev V)} {o o' : Op V} {m : Msg V} {q : Str} {src : Nat × Str} (h : l[b]? = some o) (hk : Own o)
    (hd : o.core.isData q = true) (hr : o.recvData m q = .ok o') :
    deliver (f + 1) src m () ⟨b, q⟩ (at_ l d g) = .ok () (at_ (l.set b o') d (g ++ [.recv (some src) b q false m])) := by
  have hheap : (at_ l d g).heap b = some o := h
  rw [← recvData_at (f := f) (g := g) (d := d) (frm := some src) h hk hr]
  unfold deliver
  rw [M.bind_def, getOp_at h]
  dsimp only
  rw [hd]
  rfl

theorem deliver_ctrl {l : List (Op V)} {d b f : Nat} {g : List (Ev V)} {o o' : Op V} {m : Msg V} {q : Str} {src : Nat × Str} (h : l[b]? = some o) (hk : Own o)
    (hd : o.core.isData q = false) (hc : o.core.isCtrl q = true) (hr : o.recvCtrl m q = .ok o') :
    deliver (f + 1) src m () ⟨b, q⟩ (at_ l d g) = .ok () (at_ (l.set b o') d (g ++ [.recv (some src) b q true m])) := by
  have hheap : (at_ l d g).heap b = some o := h
  rw [← recvCtrl_at (f := f) (g := g) (d := d) (frm := some src) h hk hr]
  unfold deliver
  rw [M.bind_def, getOp_at h]
  dsimp only
  rw [hd, hc]
  rfl

theorem trigger_data {l : List (Op V)} {d b : Nat} {g : List (Ev V)} {o : Op V} {q : Str} {ex : Bool → Nat → M (St V) (ProgMsg V)} {out r : ProgMsg V} {s' : St V}
    (h : l[b]? = some o) (hd : o.core.isData q = true) (hr : ex false b (at_ l d g) = .ok r s') : trigger ex out ⟨b, q⟩ (at_ l d g) = .ok (mergeProg out r) s' := by
  have hheap : (at_ l d g).heap b = some o := h
  unfold trigger
  rw [M.bind_def, getOp_at h]
  dsimp only
  rw [if_pos hd, M.bind_def, hr]
  rfl

theorem trigger_ctrl {l : List (Op V)} {d b : Nat} {g : List (Ev V)} {o : Op V} {q : Str} {ex : Bool → Nat → M (St V) (ProgMsg V)} {out r : ProgMsg V} {s' : St V}
    (h : l[b]? = some o) (hd : o.core.isData q = false) (hc : o.core.isCtrl q = true) (hr : ex true b (at_ l d g) = .ok r s') :
    trigger ex out ⟨b, q⟩ (at_ l d g) = .ok (mergeProg out r) s' := by
  have hheap : (at_ l d g).heap b = some o := h
  unfold trigger
  rw [M.bind_def, getOp_at h]
  dsimp only
  rw [if_neg (by simp [hd]), if_pos hc, M.bind_def, hr]
  rfl

theorem exec_own {l : List (Op V)} {d a f : Nat} {g : List (Ev V)} {o o' : Op V} {ctrl : Bool} {out : OpMsg V} (h : l[a]? = some o) (hk : Own o)
    (hr : (if ctrl then o.execCtrl else o.execData) = .ok out o') :
    exec (f + 1) ctrl a (at_ l d g) = emitOp (exec f) f a out (at_ (l.set a o') d (g ++ [.exec a ctrl])) := by
  obtain ⟨hk1, hk2⟩ := hk
  have hlt : a < l.length := (List.getElem?_eq_some_iff.1 h).1
  have hheap : (at_ l d (g ++ [.exec a ctrl])).heap a = some o := h
  have key : ((do let out ← localRun a (if ctrl then Op.execCtrl else Op.execData); emitOp (exec f) f a out) : M (St V) (ProgMsg V)) (at_ l d (g ++ [.exec a ctrl])) =
      emitOp (exec f) f a out (at_ (l.set a o') d (g ++ [.exec a ctrl])) := by
    rw [M.bind_def]
    have : localRun a (if ctrl then Op.execCtrl else Op.execData) (at_ l d (g ++ [.exec a ctrl])) = .ok out (at_ (l.set a o') d (g ++ [.exec a ctrl])) := by
      unfold localRun
      rw [hheap]
      dsimp only
      have hr' : (if ctrl then Op.execCtrl else Op.execData) o = .ok out o' := by
        cases ctrl <;> exact hr
      rw [hr']
      dsimp only
      rw [setOp_at hlt]
    rw [this]
  have h1 : exec (f + 1) ctrl a (at_ l d g) = (match o.kind with
    | .composite (some i) _ => exec f ctrl i
    | .composite none _ => M.throw (.exc .runtime)
    | .pipeline inputs outputs pm =>
      if ctrl then pure []
      else do
        let s ← M.get
        setDepth (s.depth + 1)
        let r ← M.fold (pipelineStep (exec f) inputs) o.core.toProcess []
        setDepth s.depth
        localRun a fun o => .ok () { o with core := { o.core with toProcess := [] } }
        if r = [] then pure []
        else do
          let out ← M.lift (pipelineOutput outputs pm (flatten r) [])
          emitOp (exec f) f a out
    | _ => do
      let out ← localRun a (if ctrl then Op.execCtrl else Op.execData)
      emitOp (exec f) f a out : M (St V) (ProgMsg V)) (at_ l d (g ++ [.exec a ctrl])) := by
    conv_lhs => unfold exec
    rw [M.bind_def, show logEv (.exec a ctrl) (at_ l d g) = .ok () (at_ l d (g ++ [.exec a ctrl])) from rfl]
    dsimp only
    rw [M.bind_def, getOp_at h]
    dsimp only
    cases o.kind <;> rfl
  rw [h1]
  cases hkk : o.kind with
  | composite i q => exact absurd hkk (hk1 i q)
  | pipeline i q pm => exact absurd hkk (hk2 i q pm)
  | _ => exact key

/-- An operator that emits nothing. -/
theorem exec_quiet {l : List (Op V)} {d a f : Nat} {g : List (Ev V)} {o o' : Op V} {ctrl : Bool} (h : l[a]? = some o) (hk : Own o)
    (hr : (if ctrl then o.execCtrl else o.execData) = .ok [] o') : exec (f + 1) ctrl a (at_ l d g) = .ok [] (at_ (l.set a o') d (g ++ [.exec a ctrl])) := by
  rw [exec_own h hk hr]
  rfl

theorem emitOp_single {ex : Bool → Nat → M (St V) (ProgMsg V)} {f a : Nat} {p : Str} {m : Msg V} {s : St V} {o : Op V} (h : s.heap a = some o) (hp : o.core.outIds.contains p = true)
    {r : ProgMsg V} {s2 : St V} (hr : emitMsg ex f a p m s = .ok r s2) : ∃ r', emitOp ex f a [(p, [m])] s = .ok r' s2 := by
  refine ⟨mergeProg [] (mergeProg [] r), ?_⟩
  unfold emitOp
  rw [fold_cons]
  simp only [M.bind_def, getOp, h, hp, if_true, emitPort, fold_cons, fold_nil, hr]
  rfl

/-- An operator that emits one message. -/
theorem exec_one {l : List (Op V)} {d a f : Nat} {g : List (Ev V)} {o o' : Op V} {ctrl : Bool} {p : Str} {m : Msg V} {cs : List Conn} {s1 : St V} {r : ProgMsg V} {s2 : St V}
    (h : l[a]? = some o) (hk : Own o) (hr : (if ctrl then o.execCtrl else o.execData) = .ok [(p, [m])] o') (hp : o'.core.outIds.contains p = true)
    (hc : o'.core.outputs.find? p = some cs)
    (h1 : M.fold (deliver f (a, p) m) cs () (at_ (l.set a o') d (g ++ [.exec a ctrl] ++ [.emit d a o'.core.id p m])) = .ok () s1)
    (h2 : M.fold (trigger (exec f)) cs [(o'.core.id, [(p, [m])])] s1 = .ok r s2) : ∃ r', exec (f + 1) ctrl a (at_ l d g) = .ok r' s2 := by
  have hlt : a < l.length := (List.getElem?_eq_some_iff.1 h).1
  have hheap : (at_ (l.set a o') d (g ++ [.exec a ctrl])).heap a = some o' := by
    show (l.set a o')[a]? = some o'
    rw [List.getElem?_set, if_pos rfl, if_pos hlt]
  rw [exec_own h hk hr]
  refine emitOp_single (r := r) hheap hp ?_
  · rw [emitMsg_some hheap hc]
    rw [show (at_ (l.set a o') d (g ++ [.exec a ctrl])).ev (.emit (at_ (l.set a o') d (g ++ [.exec a ctrl])).depth a o'.core.id p m) =
      at_ (l.set a o') d (g ++ [.exec a ctrl] ++ [.emit d a o'.core.id p m]) from rfl, h1]
    exact h2

/-- An operator without connections on the port. -/
theorem exec_last {l : List (Op V)} {d a f : Nat} {g : List (Ev V)} {o o' : Op V} {ctrl : Bool} {p : Str} {m : Msg V}
    (h : l[a]? = some o) (hk : Own o) (hr : (if ctrl then o.execCtrl else o.execData) = .ok [(p, [m])] o') (hp : o'.core.outIds.contains p = true)
    (hc : o'.core.outputs.find? p = none) :
    ∃ r', exec (f + 1) ctrl a (at_ l d g) = .ok r' (at_ (l.set a o') d (g ++ [.exec a ctrl] ++ [.emit d a o'.core.id p m])) := by
  have hlt : a < l.length := (List.getElem?_eq_some_iff.1 h).1
  have hheap : (at_ (l.set a o') d (g ++ [.exec a ctrl])).heap a = some o' := by
    show (l.set a o')[a]? = some o'
    rw [List.getElem?_set, if_pos rfl, if_pos hlt]
  rw [exec_own h hk hr]
  exact emitOp_single hheap hp (emitMsg_none hheap hc)

end Rtbot.Wave
