import Verif.Spec.Copy
import Verif.Lemmas.Wired
import Verif.Lemmas.Flatten

set_option linter.unusedSectionVars false

/-! # A copy of a part of a heap does what the original does -/

namespace Rtbot
namespace Copy
variable {V : Type} [Num V]
open Spec

variable {φ : Nat → Nat} {S : Nat → Prop}

/-- The relation between states that is kept. -/
structure Ok (φ : Nat → Nat) (S : Nat → Prop) (s s' : St V) : Prop where
  sub : Contains φ S s.heap s'.heap
  wf : ∀ a o, S a → s.heap a = some o → o.core.WF

/-- The same outcome. -/
def ResOk {α : Type} (φ : Nat → Nat) (S : Nat → Prop) : Res (St V) α → Res (St V) α → Prop
  | .ok x s, .ok x' s' => x = x' ∧ Ok φ S s s'
  | .err e s, .err e' s' => e = e' ∧ Ok φ S s s'
  | _, _ => False

/-- The computations have the same outcome. -/
def Mv {α : Type} (φ : Nat → Nat) (S : Nat → Prop) (x y : M (St V) α) : Prop := ∀ s s', Ok φ S s s' → ResOk φ S (x s) (y s')

theorem mv_bind {α β : Type} {x y : M (St V) α} {f g : α → M (St V) β} (h : Mv φ S x y) (hf : ∀ a, Mv φ S (f a) (g a)) : Mv φ S (x >>= f) (y >>= g) := by
  intro s s' hs
  have := h s s' hs
  rw [M.bind_def, M.bind_def]
  cases hx : x s <;> cases hy : y s' <;> rw [hx, hy] at this <;> first | exact this.elim | skip
  · obtain ⟨rfl, h2⟩ := this
    exact hf _ _ _ h2
  · exact this

theorem mv_pure {α : Type} (a : α) : Mv φ S (Pure.pure a : M (St V) α) (Pure.pure a) := fun _ _ hs => ⟨rfl, hs⟩

theorem mv_throw {α : Type} (e : Err) : Mv φ S (M.throw e : M (St V) α) (M.throw e) := fun _ _ hs => ⟨rfl, hs⟩

theorem mv_log (e e' : Ev V) : Mv φ S (logEv e) (logEv e') := fun _ _ hs => ⟨rfl, ⟨hs.sub, hs.wf⟩⟩

theorem mv_depth (d d' : Nat) : Mv φ S (setDepth d : M (St V) Unit) (setDepth d') := fun _ _ hs => ⟨rfl, ⟨hs.sub, hs.wf⟩⟩

theorem mv_lift {α : Type} (r : Except Err α) : Mv φ S (M.lift r : M (St V) α) (M.lift r) := by
  intro s s' hs
  cases r <;> exact ⟨rfl, hs⟩

theorem mv_state {α : Type} {f g : St V → M (St V) α} (h : ∀ s s', Mv φ S (f s) (g s')) : Mv φ S ((M.get : M (St V) (St V)) >>= f) (M.get >>= g) :=
  fun s s' hs => h s s' s s' hs

theorem mv_fold {α β γ : Type} {f : β → α → M (St V) β} {g : β → γ → M (St V) β} {k : α → γ} (l : List α) (h : ∀ b, ∀ x ∈ l, Mv φ S (f b x) (g b (k x))) :
    ∀ b, Mv φ S (M.fold f l b) (M.fold g (l.map k) b) := by
  induction l with
  | nil => intro b; exact mv_pure b
  | cons x l ih => intro b; exact mv_bind (h b x (by simp)) fun b' => ih (fun b y hy => h b y (List.mem_cons_of_mem _ hy)) b'

theorem mv_fold_same {α β : Type} {f g : β → α → M (St V) β} (l : List α) (h : ∀ b, ∀ x ∈ l, Mv φ S (f b x) (g b x)) (b : β) :
    Mv φ S (M.fold f l b) (M.fold g l b) := by
  have := mv_fold (k := id) l h b
  rwa [List.map_id] at this

/-- Reading an operator. -/
theorem mv_get {α : Type} {a : Nat} (ha : S a) {f g : Op V → M (St V) α} (h : ∀ o, (∀ b ∈ nexts o, S b) → Mv φ S (f o) (g (copied φ o))) :
    Mv φ S (getOp a >>= f) (getOp (φ a) >>= g) := by
  intro s s' hs
  obtain ⟨o, h1, h2⟩ := hs.sub.ops a ha
  rw [M.bind_def, M.bind_def]
  unfold getOp
  rw [h1, h2]
  exact h o (fun b hb => hs.sub.closed a o b ha h1 hb) s s' hs

/-- Overwriting an operator. -/
theorem Ok.set {s s' : St V} (hs : Ok φ S s s') {a : Nat} (ha : S a) {o n : Op V} (ho : s.heap a = some o) (hf : n.fresh = o.fresh) :
    Ok φ S (s.setOp a n) (s'.setOp (φ a) (copied φ n)) := by
  refine ⟨⟨hs.sub.apart, fun b hb => ?_, fun b p c hb hp hc => ?_⟩, fun b p hb hp => ?_⟩
  · rw [setOp_heap, setOp_heap]
    by_cases hab : b = a
    · subst hab
      exact ⟨n, by simp, by simp⟩
    · rw [if_neg hab, if_neg fun h => hab (hs.sub.apart b a hb ha h)]
      exact hs.sub.ops b hb
  · rw [setOp_heap] at hp
    split at hp
    · rename_i hab
      subst hab
      cases hp
      rw [nexts_of_fresh hf] at hc
      exact hs.sub.closed b o c hb ho hc
    · exact hs.sub.closed b p c hb hp hc
  · rw [setOp_heap] at hp
    split at hp
    · rename_i hab
      subst hab
      cases hp
      exact Core.WF.of_fresh (congrArg Op.core hf) (hs.wf b o hb ho)
    · exact hs.wf b p hb hp

/-- Running a method of an operator. -/
theorem mv_step {α : Type} {a : Nat} (ha : S a) {f : Op V → Res (Op V) α} (hf : ∀ o : Op V, o.core.WF → (f o).state.fresh = o.fresh)
    (hc : ∀ s s', Ok φ S s s' → ∀ o, s.heap a = some o → f (copied φ o) = (f o).mapState (copied φ)) : Mv φ S (localRun a f) (localRun (φ a) f) := by
  intro s s' hs
  obtain ⟨o, h1, h2⟩ := hs.sub.ops a ha
  have hfr := hf o (hs.wf a o ha h1)
  unfold localRun
  rw [h1, h2]
  dsimp only
  rw [hc s s' hs o h1]
  cases hr : f o with
  | ok x n => rw [hr] at hfr; exact ⟨rfl, hs.set ha h1 hfr⟩
  | err e n => rw [hr] at hfr; exact ⟨rfl, hs.set ha h1 hfr⟩

/-- An operator that computes by itself is copied by changing its connections. -/
theorem copied_simple {o : Op V} (h : Simple o) : copied φ o = wired o (moveConns φ o.core.outputs) := by
  unfold Simple at h
  unfold copied wired
  cases hk : o.kind <;> rw [hk] at h <;> first | rfl | exact h.elim

theorem method {α : Type} {f : Op V → Res (Op V) α} (hf : ∀ o : Op V, o.core.WF → (f o).state.fresh = o.fresh) (hw : ∀ o w, f (wired o w) = (f o).mapState fun o => wired o w)
    {o : Op V} (hs : Simple o) (ho : o.core.WF) : f (copied φ o) = (f o).mapState (copied φ) := by
  have hfr := hf o ho
  rw [copied_simple hs, hw]
  have key : ∀ n : Op V, n.fresh = o.fresh → wired n (moveConns φ o.core.outputs) = copied φ n := fun n hn => by
    rw [copied_simple ((simple_of_fresh hn).2 hs), outputs_of_fresh hn]
  cases hr : f o with
  | ok x n => rw [hr] at hfr; simp only [Res.mapState]; rw [key n hfr]
  | err e n => rw [hr] at hfr; simp only [Res.mapState]; rw [key n hfr]

theorem mem_find {β : Type} {m : Map β} {p : Str} {i : β} (h : m.find? p = some i) : (p, i) ∈ m := by
  induction m with
  | nil => cases h
  | cons e m ih =>
    rw [Map.find?_cons] at h
    split at h
    · rename_i he
      cases h
      have : e.1 = p := by simpa using he
      subst this
      exact List.mem_cons_self
    · exact List.mem_cons_of_mem _ (ih h)

theorem cupd_wired {f : Op V → Except Err (Op V)} (hf : ∀ o w, f (wired o w) = (f o).map fun o => wired o w) (o : Op V) (w : Map (List Conn)) :
    updWith f (wired o w) = (updWith f o).mapState fun o => wired o w := by
  unfold updWith
  rw [hf]
  cases f o <;> rfl

theorem cupd_fresh {f : Op V → Except Err (Op V)} (hf : ∀ {o o' : Op V}, o.core.WF → f o = .ok o' → o'.fresh = o.fresh) (o : Op V) (hw : o.core.WF) :
    (updWith f o).state.fresh = o.fresh := by
  unfold updWith
  cases h : f o with
  | ok n => exact hf hw h
  | error e => rfl

theorem upd {f : Op V → Except Err (Op V)} {o : Op V} (h : f (copied φ o) = (f o).map (copied φ)) : updWith f (copied φ o) = (updWith f o).mapState (copied φ) := by
  unfold updWith
  rw [h]
  cases f o <;> rfl

/-- Receiving a control message, for operators of any kind. -/
theorem recvCtrl_copied {o : Op V} (hw : o.core.WF) (m : Msg V) (p : Str) : (updWith fun o : Op V => o.recvCtrl m p) (copied φ o) = (updWith (fun o : Op V => o.recvCtrl m p) o).mapState (copied φ) := by
  by_cases hs : Simple o
  · exact method (cupd_fresh fun hw h => recvCtrl_fresh hw h) (cupd_wired fun o w => recvCtrl_wired o w m p) hs hw
  · obtain ⟨c, k⟩ := o
    have hb : ({ c with outputs := moveConns φ c.outputs } : Core V).receiveCtrlBase m p = (c.receiveCtrlBase m p).map fun c => { c with outputs := moveConns φ c.outputs } := by
      unfold Core.receiveCtrlBase
      change (match c.ctrlIn.find? (c.resolveCtrl p) with | none => _ | some i => _) = _
      dsimp only
      cases c.ctrlIn.find? (c.resolveCtrl p) with
      | none => rfl
      | some i => simp only [bind, Except.bind]; cases i.receive m <;> rfl
    refine upd ?_
    cases k <;> first | exact absurd trivial hs | skip
    all_goals
      unfold Op.recvCtrl
      simp only [copied, moveKind, bind, Except.bind]
      rw [hb]
      cases c.receiveCtrlBase m p <;> rfl

theorem find_moveConns (outs : Map (List Conn)) (p : Str) : (moveConns φ outs).find? p = (outs.find? p).map fun cs => cs.map fun c => ⟨φ c.target, c.port⟩ := by
  induction outs with
  | nil => rfl
  | cons e outs ih =>
    obtain ⟨k, cs⟩ := e
    have : moveConns φ ((k, cs) :: outs) = (k, cs.map fun c => ⟨φ c.target, c.port⟩) :: moveConns φ outs := rfl
    rw [this, Map.find?_cons, Map.find?_cons, ih]
    split <;> rfl

theorem find_moved (ins : Map Nat) (k : Str) : Map.find? (ins.map fun e => (e.1, φ e.2)) k = (ins.find? k).map φ := by
  induction ins with
  | nil => rfl
  | cons e ins ih =>
    obtain ⟨k', a⟩ := e
    rw [List.map_cons, Map.find?_cons, Map.find?_cons, ih]
    split <;> rfl

theorem port_moved (ins : Map Nat) (pm : Map Str) (p : Str) : pipelinePort (ins.map fun e => (e.1, φ e.2)) pm p = pipelinePort ins pm p := by
  unfold pipelinePort
  rw [List.length_map]
  split
  · cases ins <;> rfl
  · rfl

theorem output_moved (outs : Map Nat) (pm : Map Str) (l : List (Str × Str × PortMsg V)) : ∀ out, pipelineOutput (outs.map fun e => (e.1, φ e.2)) pm l out = pipelineOutput outs pm l out := by
  induction l with
  | nil => intro out; rfl
  | cons e l ih =>
    obtain ⟨id, port, v⟩ := e
    intro out
    rw [pipelineOutput, pipelineOutput]
    have : Map.has (outs.map fun e => (e.1, φ e.2)) (id ++ [58] ++ port) = outs.has (id ++ [58] ++ port) := has_map (fun e => φ e.2) outs _
    rw [this]
    simp only [ih]

theorem nexts_simple {o : Op V} (h : Simple o) {b : Nat} (hb : b ∈ nexts o) : ∃ p cs, (p, cs) ∈ o.core.outputs ∧ ∃ c ∈ cs, c.target = b := by
  unfold nexts at hb
  unfold Simple at h
  cases hk : o.kind <;> rw [hk] at h hb <;> first | exact h.elim | skip
  all_goals
    simp only [List.append_nil, List.mem_flatMap, List.mem_map] at hb
    obtain ⟨⟨p, cs⟩, h1, c, h2, h3⟩ := hb
    exact ⟨p, cs, h1, c, h2, h3⟩

theorem next_pipe {o : Op V} {ins outs : Map Nat} {pm : Map Str} (hk : o.kind = .pipeline ins outs pm) {k : Str} {t : Nat} (ht : ins.find? k = some t) : t ∈ nexts o := by
  unfold nexts
  rw [hk]
  exact List.mem_append_right _ (List.mem_map.2 ⟨(k, t), mem_find ht, rfl⟩)

theorem next_comp {o : Op V} {i : Nat} {q : Option Nat} (hk : o.kind = .composite (some i) q) : i ∈ nexts o := by
  unfold nexts
  rw [hk]
  simp

theorem next_conn {o : Op V} {p : Str} {cs : List Conn} (h : o.core.outputs.find? p = some cs) {c : Conn} (hc : c ∈ cs) : c.target ∈ nexts o := by
  unfold nexts
  exact List.mem_append_left _ (List.mem_flatMap.2 ⟨(p, cs), mem_find h, List.mem_map.2 ⟨c, hc, rfl⟩⟩)

/-- Running a method of an operator that has been read. -/
theorem run {α : Type} {a : Nat} (ha : S a) {f : Op V → Res (Op V) α} {s s' : St V} (hs : Ok φ S s s') {o : Op V} (ho : s.heap a = some o) (hf : (f o).state.fresh = o.fresh)
    (hc : f (copied φ o) = (f o).mapState (copied φ)) : ResOk φ S (localRun a f s) (localRun (φ a) f s') := by
  obtain ⟨o', h1, h2⟩ := hs.sub.ops a ha
  rw [ho] at h1
  cases h1
  unfold localRun
  rw [ho, h2]
  dsimp only
  rw [hc]
  cases hr : f o with
  | ok x n => rw [hr] at hf; exact ⟨rfl, hs.set ha ho hf⟩
  | err e n => rw [hr] at hf; exact ⟨rfl, hs.set ha ho hf⟩

theorem kind_simple {o : Op V} (h : Simple o) : moveKind φ o.kind = o.kind := by
  have := congrArg Op.kind (copied_simple (φ := φ) h)
  exact this

/-- The computations have the same outcome when the operator at `a` is `o`. -/
def At {α : Type} (φ : Nat → Nat) (S : Nat → Prop) (a : Nat) (o : Op V) (x y : M (St V) α) : Prop := ∀ s s', Ok φ S s s' → s.heap a = some o → ResOk φ S (x s) (y s')

theorem mv_at {α : Type} {a : Nat} (ha : S a) {f g : Op V → M (St V) α} (h : ∀ o, o.core.WF → (∀ b ∈ nexts o, S b) → At φ S a o (f o) (g (copied φ o))) :
    Mv φ S (getOp a >>= f) (getOp (φ a) >>= g) := by
  intro s s' hs
  obtain ⟨o, h1, h2⟩ := hs.sub.ops a ha
  rw [M.bind_def, M.bind_def]
  unfold getOp
  rw [h1, h2]
  exact h o (hs.wf a o ha h1) (fun b hb => hs.sub.closed a o b ha h1 hb) s s' hs h1

theorem at_mv {α : Type} {a : Nat} {o : Op V} {x y : M (St V) α} (h : Mv φ S x y) : At φ S a o x y := fun s s' hs _ => h s s' hs

theorem at_bind {α β : Type} {a : Nat} {o : Op V} {x y : M (St V) α} {f g : α → M (St V) β} (h : At φ S a o x y) (hf : ∀ r, Mv φ S (f r) (g r)) :
    At φ S a o (x >>= f) (y >>= g) := by
  intro s s' hs ho
  have := h s s' hs ho
  rw [M.bind_def, M.bind_def]
  cases hx : x s <;> cases hy : y s' <;> rw [hx, hy] at this <;> first | exact this.elim | skip
  · obtain ⟨rfl, h2⟩ := this
    exact hf _ _ _ h2
  · exact this

/-- Marking a port of a Pipeline, or taking the marks away. -/
theorem mv_mark {a : Nat} (ha : S a) (g : List Str → List Str) :
    Mv φ S (localRun a fun o : Op V => .ok () { o with core := { o.core with toProcess := g o.core.toProcess } })
      (localRun (φ a) fun o : Op V => .ok () { o with core := { o.core with toProcess := g o.core.toProcess } }) :=
  mv_step ha (fun _ _ => rfl) fun _ _ _ _ _ => rfl

theorem recvData_mv (fuel : Nat) : ∀ (frm frm' : Option (Nat × Str)) (a : Nat) (m : Msg V) (p : Str), S a → Mv φ S (recvData fuel frm a m p) (recvData fuel frm' (φ a) m p) := by
  induction fuel with
  | zero => intro frm frm' a m p _; exact mv_throw _
  | succ fuel ih =>
    intro frm frm' a m p ha
    unfold recvData
    refine mv_bind (mv_log _ _) fun _ => mv_at ha fun o hw hn => ?_
    by_cases hs : Simple o
    · have hstep : At φ S a o (localRun a (updWith fun o => o.recvData m p)) (localRun (φ a) (updWith fun o => o.recvData m p)) := fun s s' hss ho =>
        run ha hss ho (cupd_fresh (fun hw h => recvData_fresh hw h) o hw) (method (cupd_fresh fun hw h => recvData_fresh hw h) (cupd_wired fun o w => recvData_wired o w m p) hs hw)
      have hk : (copied φ o).kind = o.kind := kind_simple hs
      rw [hk]
      unfold Simple at hs
      cases hk : o.kind <;> rw [hk] at hs <;> first | exact hs.elim | exact hstep
    · cases hk : o.kind <;> first | (exact absurd (by unfold Simple; rw [hk]; trivial) hs) | skip
      · rename_i i q
        have hk' : (copied φ o).kind = .composite (i.map φ) (q.map φ) := by change moveKind φ o.kind = _; rw [hk]; rfl
        rw [hk']
        cases i with
        | none => exact at_mv (mv_throw _)
        | some i => exact at_mv (ih none none i m p (hn i (next_comp hk)))
      · rename_i ins outs pm
        have hk' : (copied φ o).kind = .pipeline (ins.map fun e => (e.1, φ e.2)) (outs.map fun e => (e.1, φ e.2)) pm := by change moveKind φ o.kind = _; rw [hk]; rfl
        rw [hk']
        dsimp only
        rw [port_moved]
        refine at_mv (mv_bind (mv_lift _) fun key => ?_)
        rw [find_moved]
        cases ht : ins.find? key with
        | none => exact mv_throw _
        | some t => exact mv_bind (ih none none t m _ (hn t (next_pipe hk ht))) fun _ => mv_mark ha fun l => setInsert l key

theorem recvCtrl_mv (fuel : Nat) : ∀ (frm frm' : Option (Nat × Str)) (a : Nat) (m : Msg V) (p : Str), S a → Mv φ S (recvCtrl fuel frm a m p) (recvCtrl fuel frm' (φ a) m p) := by
  induction fuel with
  | zero => intro frm frm' a m p _; exact mv_throw _
  | succ fuel ih =>
    intro frm frm' a m p ha
    unfold recvCtrl
    refine mv_bind (mv_log _ _) fun _ => mv_at ha fun o hw hn => ?_
    have hstep : At φ S a o (localRun a (updWith fun o => o.recvCtrl m p)) (localRun (φ a) (updWith fun o => o.recvCtrl m p)) := fun s s' hss ho =>
      run ha hss ho (cupd_fresh (fun hw h => recvCtrl_fresh hw h) o hw) (recvCtrl_copied hw m p)
    have hk' : (copied φ o).kind = moveKind φ o.kind := rfl
    rw [hk']
    cases hk : o.kind <;> first | exact hstep | skip
    rename_i i q
    cases i with
    | none => exact at_mv (mv_throw _)
    | some i => exact at_mv (ih none none i m p (hn i (next_comp hk)))

theorem deliver_mv (fuel : Nat) (src src' : Nat × Str) (m : Msg V) (u : Unit) (c : Conn) (hc : S c.target) : Mv φ S (deliver fuel src m u c) (deliver fuel src' m u ⟨φ c.target, c.port⟩) := by
  unfold deliver
  refine mv_get hc fun o _ => ?_
  have h1 : (copied φ o).core.isData c.port = o.core.isData c.port := rfl
  have h2 : (copied φ o).core.isCtrl c.port = o.core.isCtrl c.port := rfl
  dsimp only
  rw [h1, h2]
  split
  · exact recvData_mv fuel _ _ _ _ _ hc
  · split
    · exact recvCtrl_mv fuel _ _ _ _ _ hc
    · exact mv_pure _

/-- Executing has the same outcome. -/
def Ex (φ : Nat → Nat) (S : Nat → Prop) (ex : Bool → Nat → M (St V) (ProgMsg V)) : Prop := ∀ c a, S a → Mv φ S (ex c a) (ex c (φ a))

theorem trigger_mv {ex : Bool → Nat → M (St V) (ProgMsg V)} (hex : Ex φ S ex) (out : ProgMsg V) (c : Conn) (hc : S c.target) :
    Mv φ S (trigger ex out c) (trigger ex out ⟨φ c.target, c.port⟩) := by
  unfold trigger
  refine mv_get hc fun o _ => ?_
  have h1 : (copied φ o).core.isData c.port = o.core.isData c.port := rfl
  have h2 : (copied φ o).core.isCtrl c.port = o.core.isCtrl c.port := rfl
  dsimp only
  rw [h1, h2]
  split
  · exact mv_bind (hex _ _ hc) fun _ => mv_pure _
  · split
    · exact mv_bind (hex _ _ hc) fun _ => mv_pure _
    · exact mv_pure _

theorem emitMsg_mv {ex : Bool → Nat → M (St V) (ProgMsg V)} (hex : Ex φ S ex) (fuel : Nat) {a : Nat} (ha : S a) (port : Str) (m : Msg V) :
    Mv φ S (emitMsg ex fuel a port m) (emitMsg ex fuel (φ a) port m) := by
  unfold emitMsg
  refine mv_get ha fun o hn => mv_state fun s s' => mv_bind (mv_log _ _) fun _ => ?_
  have h1 : (copied φ o).core.id = o.core.id := rfl
  have h2 : (copied φ o).core.outputs.find? port = (o.core.outputs.find? port).map fun cs => cs.map fun c => ⟨φ c.target, c.port⟩ := find_moveConns _ _
  dsimp only
  rw [h1, h2]
  cases hc : o.core.outputs.find? port with
  | none => exact mv_pure _
  | some cs =>
    dsimp only [Option.map_some]
    exact mv_bind (mv_fold cs (fun u c h => deliver_mv fuel _ _ m u c (hn _ (next_conn hc h))) ()) fun _ => mv_fold cs (fun out c h => trigger_mv hex out c (hn _ (next_conn hc h))) _

theorem emitPort_mv {ex : Bool → Nat → M (St V) (ProgMsg V)} (hex : Ex φ S ex) (fuel : Nat) {a : Nat} (ha : S a) (port : Str) (ms : PortMsg V) :
    Mv φ S (emitPort ex fuel a port ms) (emitPort ex fuel (φ a) port ms) :=
  mv_fold_same ms (fun _ m _ => mv_bind (emitMsg_mv hex fuel ha port m) fun _ => mv_pure _) []

theorem emitOp_mv {ex : Bool → Nat → M (St V) (ProgMsg V)} (hex : Ex φ S ex) (fuel : Nat) {a : Nat} (ha : S a) (msgs : OpMsg V) :
    Mv φ S (emitOp ex fuel a msgs) (emitOp ex fuel (φ a) msgs) := by
  refine mv_fold_same msgs (fun out pm _ => mv_get ha fun o _ => ?_) []
  have h1 : (copied φ o).core.outIds = o.core.outIds := rfl
  rw [h1]
  split
  · exact mv_bind (emitPort_mv hex fuel ha _ _) fun _ => mv_pure _
  · exact mv_throw _

theorem execData_fr (o : Op V) (hw : o.core.WF) : o.execData.state.fresh = o.fresh := by
  have := act_fresh o hw .execData
  simp only [act] at this
  cases h : o.execData <;> rw [h] at this <;> exact this

theorem execCtrl_fr (o : Op V) (hw : o.core.WF) : o.execCtrl.state.fresh = o.fresh := by
  have := act_fresh o hw .execCtrl
  simp only [act] at this
  cases h : o.execCtrl <;> rw [h] at this <;> exact this

theorem exec_mv (fuel : Nat) : Ex (V := V) φ S (exec fuel) := by
  induction fuel with
  | zero => intro c a _; exact mv_throw _
  | succ fuel ih =>
    intro c a ha
    unfold exec
    refine mv_bind (mv_log _ _) fun _ => mv_at ha fun o hw hn => ?_
    by_cases hs : Simple o
    · have hfr : ∀ o : Op V, o.core.WF → ((if c = true then Op.execCtrl else Op.execData) o).state.fresh = o.fresh := by
        intro o hw
        split
        · exact execCtrl_fr o hw
        · exact execData_fr o hw
      have hwi : ∀ (o : Op V) w, (if c = true then Op.execCtrl else Op.execData) (wired o w) = ((if c = true then Op.execCtrl else Op.execData) o).mapState fun o => wired o w := by
        intro o w
        split
        · exact execCtrl_wired o w
        · exact execData_wired o w
      have hstep : At φ S a o (localRun a (if c = true then Op.execCtrl else Op.execData) >>= fun out => emitOp (exec fuel) fuel a out)
          (localRun (φ a) (if c = true then Op.execCtrl else Op.execData) >>= fun out => emitOp (exec fuel) fuel (φ a) out) :=
        at_bind (fun s s' hss ho => run ha hss ho (hfr o hw) (method hfr hwi hs hw)) fun out => emitOp_mv ih fuel ha out
      have hk : (copied φ o).kind = o.kind := kind_simple hs
      rw [hk]
      unfold Simple at hs
      cases hk : o.kind <;> rw [hk] at hs <;> first | exact hs.elim | exact hstep
    · cases hk : o.kind <;> first | (exact absurd (by unfold Simple; rw [hk]; trivial) hs) | skip
      · rename_i i q
        have hk' : (copied φ o).kind = .composite (i.map φ) (q.map φ) := by change moveKind φ o.kind = _; rw [hk]; rfl
        rw [hk']
        cases i with
        | none => exact at_mv (mv_throw _)
        | some i => exact at_mv (ih c i (hn i (next_comp hk)))
      · rename_i ins outs pm
        have hk' : (copied φ o).kind = .pipeline (ins.map fun e => (e.1, φ e.2)) (outs.map fun e => (e.1, φ e.2)) pm := by change moveKind φ o.kind = _; rw [hk]; rfl
        have ht' : (copied φ o).core.toProcess = o.core.toProcess := rfl
        rw [hk']
        dsimp only
        rw [ht']
        split
        · exact at_mv (mv_pure _)
        · refine at_mv (mv_state fun s s' => mv_bind (mv_depth _ _) fun _ => mv_bind (mv_fold_same _ (fun out key _ => ?_) _) fun r => mv_bind (mv_depth _ _) fun _ =>
            mv_bind (mv_mark ha fun _ => []) fun _ => ?_)
          · unfold pipelineStep
            rw [find_moved]
            cases ht : ins.find? key with
            | none => exact mv_throw _
            | some t => exact mv_bind (ih false t (hn t (next_pipe hk ht))) fun _ => mv_pure _
          · split
            · exact mv_pure _
            · rw [output_moved]
              exact mv_bind (mv_lift _) fun out => emitOp_mv ih fuel ha out

theorem feed_mv (fuel : Nat) {a : Nat} (ha : S a) (p : Str) (m : Msg V) : Mv φ S (feed fuel a p m) (feed fuel (φ a) p m) :=
  mv_bind (recvData_mv fuel none none a m p ha) fun _ => exec_mv fuel false a ha

theorem feedAll_mv (fuel : Nat) {a : Nat} (ha : S a) (msgs : OpMsg V) : Mv φ S (feedAll fuel a msgs) (feedAll fuel (φ a) msgs) :=
  mv_fold_same msgs (fun out pm _ => mv_fold_same pm.2 (fun _ m _ => mv_bind (feed_mv fuel ha pm.1 m) fun _ => mv_pure _) out) []

end Copy
end Rtbot
