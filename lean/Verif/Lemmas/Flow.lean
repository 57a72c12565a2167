import Verif.Spec.Flow
import Verif.Lemmas.ComposeOut
import Verif.Lemmas.Wired
import Verif.Lemmas.Snapshot

/-! # Properties of messages that a program keeps when its operators do -/

set_option linter.unusedSectionVars false

namespace Rtbot
variable {V : Type} [Num V]
open Spec

namespace Flow

/-- All messages in the map have the property. -/
def OutIn (T : Msg V → Prop) (x : OpMsg V) : Prop := ∀ f ∈ x, ∀ m ∈ f.2, T m
/-- All messages in the report have the property. -/
def RepIn (T : Msg V → Prop) (r : ProgMsg V) : Prop := ∀ e ∈ r, OutIn T e.2

variable {T : Msg V → Prop}

theorem outIn_nil : OutIn T ([] : OpMsg V) := by intro f h; cases h
theorem repIn_nil : RepIn T ([] : ProgMsg V) := by intro f h; cases h

theorem outIn_put {x : OpMsg V} (h : OutIn T x) {k : Str} {ms : PortMsg V} (hm : ∀ m ∈ ms, T m) : OutIn T (x.put k ms) := by
  intro f hf
  rcases mem_put hf with h' | rfl
  · exact h f h'
  · exact hm

theorem outIn_find {x : OpMsg V} (h : OutIn T x) {k : Str} {ms : PortMsg V} (hf : x.find? k = some ms) : ∀ m ∈ ms, T m :=
  h (k, ms) (find?_mem hf)

theorem outIn_merge : ∀ (y : OpMsg V) {x : OpMsg V}, OutIn T x → OutIn T y → OutIn T (mergeOp x y)
  | [], _, h, _ => h
  | (p, ms) :: rest, x, h, h' => by
    rw [mergeOp]
    refine outIn_merge rest (outIn_put h fun m hm => ?_) fun f hf => h' f (List.mem_cons_of_mem _ hf)
    rcases List.mem_append.1 hm with hm | hm
    · split at hm
      · rename_i l hl; exact outIn_find h hl m hm
      · cases hm
    · exact h' (p, ms) List.mem_cons_self m hm

theorem repIn_merge : ∀ (y : ProgMsg V) {x : ProgMsg V}, RepIn T x → RepIn T y → RepIn T (mergeProg x y)
  | [], _, h, _ => h
  | (id, z) :: rest, x, h, h' => by
    rw [mergeProg]
    refine repIn_merge rest (fun e he => ?_) fun f hf => h' f (List.mem_cons_of_mem _ hf)
    rcases mem_put he with he | rfl
    · exact h e he
    · refine outIn_merge _ ?_ (h' (id, z) List.mem_cons_self)
      split
      · rename_i l hl; exact h (id, l) (find?_mem hl)
      · exact outIn_nil

theorem outIn_pipeline {outs : Map Nat} {pm : Map Str} : ∀ {l : List (Str × Str × PortMsg V)} {x r : OpMsg V},
    pipelineOutput outs pm l x = .ok r → OutIn T x → (∀ e ∈ l, ∀ m ∈ e.2.2, T m) → OutIn T r
  | [], x, r, h, hx, _ => by cases h; exact hx
  | (id, port, v) :: rest, x, r, h, hx, hl => by
    have hr : ∀ e ∈ rest, ∀ m ∈ e.2.2, T m := fun e he => hl e (List.mem_cons_of_mem _ he)
    rw [pipelineOutput] at h
    split at h
    · split at h
      · refine outIn_pipeline h (fun f hf => ?_) hr
        rcases mem_emplace hf with hf | rfl
        · exact hx f hf
        · exact hl (id, port, v) List.mem_cons_self
      · cases h
    · exact outIn_pipeline h hx hr

theorem flatten_in {r : ProgMsg V} (h : RepIn T r) : ∀ e ∈ Rtbot.flatten r, ∀ m ∈ e.2.2, T m := by
  intro e he
  simp only [Rtbot.flatten, List.mem_flatMap, List.mem_map] at he
  obtain ⟨a, ha, f, hf, rfl⟩ := he
  exact h a ha f hf

theorem repIn_filterPorts {id : Str} {x : OpMsg V} (hx : OutIn T x) : ∀ (ps : List Str) {out : ProgMsg V}, RepIn T out → RepIn T (filterPorts id x ps out)
  | [], _, h => h
  | p :: ps, out, h => by
    rw [filterPorts]
    split
    · exact repIn_filterPorts hx ps h
    · rename_i ms hms
      have hone : OutIn T ([(p, ms)] : OpMsg V) := by
        intro f hf; rw [List.mem_singleton.1 hf]; exact outIn_find hx hms
      split
      · refine repIn_filterPorts hx ps fun e he => ?_
        rcases mem_emplace he with he | rfl
        · exact h e he
        · exact hone
      · rename_i y hy
        refine repIn_filterPorts hx ps fun e he => ?_
        rcases mem_put he with he | rfl
        · exact h e he
        · exact outIn_merge _ (h (id, y) (find?_mem hy)) hone

theorem repIn_filter {r : ProgMsg V} (hr : RepIn T r) : ∀ (f : Map (List Str)) {out : ProgMsg V}, RepIn T out → RepIn T (filterReport r f out)
  | [], _, h => h
  | (id, ports) :: rest, out, h => by
    rw [filterReport]
    split
    · exact repIn_filter hr rest h
    · rename_i x hx
      exact repIn_filter hr rest (repIn_filterPorts (hr (id, x) (find?_mem hx)) ports h)

/-! ## Operators -/

/-- The act hands over only messages with the property. -/
def ActIn (T : Msg V → Prop) : Act V → Prop
  | .recvData _ m => T m
  | .recvCtrl _ m => T m
  | _ => True

/-- Like `Obeys`, but about all entries of the results. -/
def Keeps (T : Msg V → Prop) (o : Op V) : Prop := ∀ as : List (Act V), (∀ a ∈ as, ActIn T a) → ∀ out, .ok out ∈ results o as → OutIn T out

theorem Keeps.act {o : Op V} (h : Keeps T o) {a : Act V} (ha : ActIn T a) : Keeps T (Spec.act o a).1 := by
  intro as has out ho
  refine h (a :: as) ?_ out (by rw [results]; exact List.mem_cons_of_mem _ ho)
  intro x hx
  rcases List.mem_cons.1 hx with rfl | hx
  · exact ha
  · exact has x hx

theorem Keeps.out {o : Op V} (h : Keeps T o) {a : Act V} (ha : ActIn T a) {out : OpMsg V} (ho : (Spec.act o a).2 = .ok out) : OutIn T out :=
  h [a] (by simpa using ha) out (by simp [results, ho])

/-- A simple operator that keeps the property. -/
structure Fit (T : Msg V → Prop) (o : Op V) : Prop where
  simple : Simple o
  wf : o.core.WF
  keeps : Keeps T o

theorem Fit.act {o : Op V} (h : Fit T o) {a : Act V} (ha : ActIn T a) : Fit T (Spec.act o a).1 := by
  have hf := act_fresh o h.wf a
  exact ⟨(simple_of_fresh hf).2 h.simple, Core.WF.of_fresh (congrArg Op.core hf) h.wf, h.keeps.act ha⟩

/-- The operators outside of `N` are simple and keep the property, those in `N` are not simple. -/
def Calmly (T : Msg V → Prop) (N : Nat → Prop) (s : St V) : Prop :=
  ∀ b o, s.heap b = some o → (N b → ¬ Simple o) ∧ (¬ N b → Fit T o)

variable {N : Nat → Prop}

/-- The computation keeps this, logs only messages with the property and returns something with property `R`. -/
def Flows (T : Msg V → Prop) (N : Nat → Prop) {α : Type} (R : α → Prop) (x : M (St V) α) : Prop :=
  ∀ s, Calmly T N s → Calmly T N (x s).state ∧ (∃ evs, (x s).state.log = s.log ++ evs ∧ ∀ e ∈ evs, EvIn T e) ∧ ∀ a s', x s = .ok a s' → R a

theorem fl_pure {α : Type} {R : α → Prop} {a : α} (h : R a) : Flows T N R (pure a : M (St V) α) :=
  fun s hs => ⟨hs, ⟨[], (List.append_nil _).symm, by simp⟩, fun _ _ h' => by cases h'; exact h⟩

theorem fl_throw {α : Type} {R : α → Prop} (e : Err) : Flows T N R (M.throw e : M (St V) α) :=
  fun s hs => ⟨hs, ⟨[], by simp [Res.state], by simp⟩, fun _ _ h' => by cases h'⟩

theorem fl_bind {α β : Type} {R : α → Prop} {Q : β → Prop} {x : M (St V) α} {f : α → M (St V) β} (h : Flows T N R x) (hf : ∀ a, R a → Flows T N Q (f a)) :
    Flows T N Q (x >>= f) := by
  intro s hs
  obtain ⟨h1, ⟨evs, h2, h3⟩, h4⟩ := h s hs
  simp only [M.bind_def]
  cases hx : x s with
  | ok a s' =>
    rw [hx] at h1 h2
    obtain ⟨k1, ⟨evs', k2, k3⟩, k4⟩ := hf a (h4 a s' hx) s' h1
    refine ⟨k1, ⟨evs ++ evs', ?_, ?_⟩, k4⟩
    · dsimp only [Res.state] at h2
      rw [k2, h2, List.append_assoc]
    · intro e he
      rcases List.mem_append.1 he with he | he
      · exact h3 e he
      · exact k3 e he
  | err e s' =>
    rw [hx] at h1 h2
    exact ⟨h1, ⟨evs, h2, h3⟩, fun _ _ h' => by cases h'⟩

theorem fl_fold {α β : Type} {Q : β → Prop} {f : β → α → M (St V) β} (l : List α) (hf : ∀ b, Q b → ∀ a ∈ l, Flows T N Q (f b a)) :
    ∀ b, Q b → Flows T N Q (M.fold f l b) := by
  induction l with
  | nil => intro b hb; exact fl_pure hb
  | cons x l ih => intro b hb; exact fl_bind (hf b hb x (by simp)) fun b' hb' => ih (fun b hb a ha => hf b hb a (List.mem_cons_of_mem _ ha)) b' hb'

theorem fl_log {e : Ev V} (h : EvIn T e) : Flows T N (fun _ => True) (logEv e) :=
  fun s hs => ⟨hs, ⟨[e], rfl, by simpa using h⟩, fun _ _ _ => trivial⟩

theorem fl_mget : Flows T N (fun _ => True) (M.get : M (St V) (St V)) :=
  fun s hs => ⟨hs, ⟨[], by simp [Res.state, M.get], by simp⟩, fun _ _ _ => trivial⟩

theorem fl_depth (d : Nat) : Flows T N (fun _ => True) (setDepth d : M (St V) Unit) :=
  fun s hs => ⟨hs, ⟨[], by simp [Res.state, setDepth], by simp⟩, fun _ _ _ => trivial⟩

theorem fl_get {α : Type} {Q : α → Prop} (a : Nat) {f : Op V → M (St V) α} (hf : ∀ o, (N a ↔ ¬ Simple o) → Flows T N Q (f o)) : Flows T N Q (getOp a >>= f) := by
  intro s hs
  simp only [M.bind_def, getOp]
  cases h : s.heap a with
  | none => exact ⟨hs, ⟨[], by simp [Res.state], by simp⟩, fun _ _ h' => by cases h'⟩
  | some o =>
    refine hf o ⟨(hs a o h).1, fun hn => ?_⟩ s hs
    by_contra hN
    exact hn ((hs a o h).2 hN).simple

theorem fl_lift {α : Type} (x : Except Err α) : Flows T N (fun a => x = .ok a) (M.lift x : M (St V) α) := by
  intro s hs
  cases x with
  | ok a => exact ⟨hs, ⟨[], by simp [Res.state, M.lift], by simp⟩, fun _ _ h' => by cases h'; rfl⟩
  | error e => exact ⟨hs, ⟨[], by simp [Res.state, M.lift], by simp⟩, fun _ _ h' => by cases h'⟩

/-- A method of the operator at `a` that leaves the operators calm. -/
theorem fl_local {α : Type} {Q : α → Prop} (a : Nat) (g : Op V → Res (Op V) α)
    (hg : ∀ o, (N a → ¬ Simple o) ∧ (¬ N a → Fit T o) → ((N a → ¬ Simple (g o).state) ∧ (¬ N a → Fit T (g o).state)) ∧
      ∀ x o', g o = .ok x o' → Q x) : Flows T N Q (localRun a g) := by
  intro s hs
  unfold localRun
  cases ho : s.heap a with
  | none => exact ⟨hs, ⟨[], by simp [Res.state], by simp⟩, fun _ _ h' => by cases h'⟩
  | some o =>
    dsimp only
    obtain ⟨h1, h2⟩ := hg o (hs a o ho)
    have hset : Calmly T N (s.setOp a (g o).state) := by
      intro b p hb
      rw [setOp_heap] at hb
      split at hb
      · rename_i hba
        cases hb
        rw [hba]
        exact h1
      · exact hs b p hb
    cases hr : g o with
    | ok x o' =>
      rw [hr] at hset
      exact ⟨hset, ⟨[], by simp [Res.state, St.setOp], by simp⟩, fun _ _ h' => by cases h'; exact h2 x o' hr⟩
    | err e o' =>
      rw [hr] at hset
      exact ⟨hset, ⟨[], by simp [Res.state, St.setOp], by simp⟩, fun _ _ h' => by cases h'⟩

theorem simple_kind {o o' : Op V} (h : o'.kind = o.kind) : Simple o' ↔ Simple o := by unfold Simple; rw [h]

theorem fl_recv {a : Nat} {act : Act V} (ha : ActIn T act) {f : Op V → Except Err (Op V)}
    (hf : ∀ o, (updWith f o).state = (Spec.act o act).1) (hk : ∀ o o', f o = .ok o' → o'.kind = o.kind) : Flows T N (fun _ => True) (localRun a (updWith f)) := by
  refine fl_local a _ fun o ho => ⟨?_, fun _ _ _ => trivial⟩
  have : (updWith f o).state.kind = o.kind := by
    unfold updWith
    cases h : f o with
    | ok o' => exact hk o o' h
    | error e => rfl
  rw [simple_kind this]
  refine ⟨ho.1, fun hN => ?_⟩
  rw [hf]; exact (ho.2 hN).act ha

/-- A change of an operator that is not simple. -/
theorem fl_other {a : Nat} (hN : N a) {g : Op V → Op V} (hk : ∀ o, (g o).kind = o.kind) : Flows T N (fun _ => True) (localRun a fun o => .ok () (g o)) := by
  refine fl_local a _ fun o ho => ⟨⟨fun _ => ?_, fun h => absurd hN h⟩, fun _ _ _ => trivial⟩
  exact fun hs => ho.1 hN ((simple_kind (hk o)).1 hs)

theorem fl_recvData (fuel : Nat) : ∀ (frm : Option (Nat × Str)) (a : Nat) (m : Msg V) (p : Str), T m → Flows T N (fun _ => True) (recvData fuel frm a m p) := by
  induction fuel with
  | zero => intro frm a m p _; exact fl_throw _
  | succ fuel ih =>
    intro frm a m p hm
    refine fl_bind (fl_log hm) fun _ _ => fl_get a fun o hN => ?_
    have hsimple : Flows T N (fun _ => True) (localRun a (updWith fun o => o.recvData m p)) := by
      refine fl_recv (act := .recvData p m) hm (fun o => ?_) fun o o' h => ?_
      · unfold updWith Spec.act
        dsimp only
        cases o.recvData m p <;> rfl
      · unfold Op.recvData at h
        dsimp only at h
        split at h <;> (obtain ⟨c, _, h⟩ := bind_eq_ok.1 h; cases h; rfl)
    cases hk : o.kind with
    | composite i q =>
      cases i with
      | none => exact fl_throw _
      | some i => exact ih none i m p hm
    | pipeline inputs outs pm =>
      refine fl_bind (fl_lift _) fun key _ => ?_
      split
      · exact fl_throw _
      · exact fl_bind (ih none _ m _ hm) fun _ _ => fl_other (hN.2 (by simp [Simple, hk])) fun o => rfl
    | _ => exact hsimple

theorem fl_recvCtrl (fuel : Nat) : ∀ (frm : Option (Nat × Str)) (a : Nat) (m : Msg V) (p : Str), T m → Flows T N (fun _ => True) (recvCtrl fuel frm a m p) := by
  induction fuel with
  | zero => intro frm a m p _; exact fl_throw _
  | succ fuel ih =>
    intro frm a m p hm
    refine fl_bind (fl_log hm) fun _ _ => fl_get a fun o hN => ?_
    have hsimple : Flows T N (fun _ => True) (localRun a (updWith fun o => o.recvCtrl m p)) := by
      refine fl_recv (act := .recvCtrl p m) hm (fun o => ?_) fun o o' h => ?_
      · unfold updWith Spec.act
        dsimp only
        cases o.recvCtrl m p <;> rfl
      · unfold Op.recvCtrl at h
        dsimp only at h
        split at h <;> (obtain ⟨c, _, h⟩ := bind_eq_ok.1 h; cases h; rfl)
    cases hk : o.kind with
    | composite i q =>
      cases i with
      | none => exact fl_throw _
      | some i => exact ih none i m p hm
    | _ => exact hsimple

theorem fl_deliver (fuel : Nat) (src : Nat × Str) {m : Msg V} (hm : T m) (u : Unit) (c : Conn) : Flows T N (fun _ => True) (deliver fuel src m u c) := by
  refine fl_get _ fun o _ => ?_
  split
  · exact fl_recvData _ _ _ _ _ hm
  · split
    · exact fl_recvCtrl _ _ _ _ _ hm
    · exact fl_pure trivial

variable {ex : Bool → Nat → M (St V) (ProgMsg V)}

theorem fl_trigger (hex : ∀ c a, Flows T N (RepIn T) (ex c a)) {out : ProgMsg V} (ho : RepIn T out) (c : Conn) : Flows T N (RepIn T) (trigger ex out c) := by
  refine fl_get _ fun o _ => ?_
  split
  · exact fl_bind (hex _ _) fun r hr => fl_pure (repIn_merge r ho hr)
  · split
    · exact fl_bind (hex _ _) fun r hr => fl_pure (repIn_merge r ho hr)
    · exact fl_pure ho

theorem fl_emitMsg (hex : ∀ c a, Flows T N (RepIn T) (ex c a)) (fuel a : Nat) (port : Str) {m : Msg V} (hm : T m) : Flows T N (RepIn T) (emitMsg ex fuel a port m) := by
  refine fl_get _ fun o _ => fl_bind fl_mget fun s _ => fl_bind (fl_log hm) fun _ _ => ?_
  have hone : RepIn T [(o.core.id, [(port, [m])])] := by
    intro e he f hf m' hm'
    rw [List.mem_singleton.1 he] at hf
    rw [List.mem_singleton.1 hf] at hm'
    rw [List.mem_singleton.1 hm']
    exact hm
  dsimp only
  split
  · exact fl_pure hone
  · exact fl_bind (fl_fold _ (fun u _ c _ => fl_deliver _ _ hm u c) _ trivial) fun _ _ => fl_fold _ (fun out ho c _ => fl_trigger hex ho c) _ hone

theorem fl_emitOp (hex : ∀ c a, Flows T N (RepIn T) (ex c a)) (fuel a : Nat) {msgs : OpMsg V} (hm : OutIn T msgs) : Flows T N (RepIn T) (emitOp ex fuel a msgs) := by
  refine fl_fold _ (fun out ho pm hpm => fl_get _ fun o _ => ?_) _ repIn_nil
  split
  · refine fl_bind (R := RepIn T) ?_ fun r hr => fl_pure (repIn_merge r ho hr)
    exact fl_fold _ (fun out ho m hmm => fl_bind (fl_emitMsg hex fuel a _ (hm pm hpm m hmm)) fun r hr => fl_pure (repIn_merge r ho hr)) _ repIn_nil
  · exact fl_throw _

theorem fl_exec (fuel : Nat) : ∀ (ctrl : Bool) (a : Nat), Flows T N (RepIn T) (exec fuel ctrl a) := by
  induction fuel with
  | zero => intro ctrl a; exact fl_throw _
  | succ fuel ih =>
    intro ctrl a
    refine fl_bind (fl_log trivial) fun _ _ => fl_get a fun o hN => ?_
    have hsimple : Simple o → Flows T N (RepIn T) (localRun a (if ctrl then Op.execCtrl else Op.execData) >>= emitOp (exec fuel) fuel a) := by
      intro hs
      have hna : ¬ N a := fun h => hN.1 h hs
      refine fl_bind (R := OutIn T) (fl_local a _ fun o ho => ?_) fun out ho => fl_emitOp ih fuel a ho
      have h2 := ho.2 hna
      have hact : ((if ctrl then Op.execCtrl else Op.execData) o).state = (Spec.act o (if ctrl then .execCtrl else .execData)).1 ∧
          ∀ x o', (if ctrl then Op.execCtrl else Op.execData) o = .ok x o' → (Spec.act o (if ctrl then .execCtrl else .execData)).2 = .ok x := by
        cases ctrl
        · simp only [Bool.false_eq_true, if_false, Spec.act]
          cases o.execData <;> exact ⟨rfl, fun _ _ h => by cases h <;> rfl⟩
        · simp only [if_true, Spec.act]
          cases o.execCtrl <;> exact ⟨rfl, fun _ _ h => by cases h <;> rfl⟩
      have hin : ActIn T (if ctrl then .execCtrl else .execData : Act V) := by cases ctrl <;> trivial
      refine ⟨⟨fun h => absurd h hna, fun _ => ?_⟩, fun x o' h => h2.keeps.out hin (hact.2 x o' h)⟩
      rw [hact.1]; exact h2.act hin
    cases hk : o.kind with
    | composite i q =>
      cases i with
      | none => exact fl_throw _
      | some i => exact ih ctrl i
    | pipeline inputs outs pm =>
      cases ctrl with
      | true => exact fl_pure repIn_nil
      | false =>
        refine fl_bind fl_mget fun s _ => fl_bind (fl_depth _) fun _ _ => fl_bind (R := RepIn T) ?_ fun r hr => fl_bind (fl_depth _) fun _ _ =>
          fl_bind (fl_other (hN.2 (by simp [Simple, hk])) fun o => rfl) fun _ _ => ?_
        · refine fl_fold _ (fun out ho key _ => ?_) _ repIn_nil
          unfold pipelineStep
          split
          · exact fl_throw _
          · exact fl_bind (ih false _) fun r hr => fl_pure (repIn_merge r ho hr)
        · split
          · exact fl_pure repIn_nil
          · exact fl_bind (fl_lift _) fun out hout => fl_emitOp ih fuel a (outIn_pipeline hout outIn_nil (flatten_in hr))
    | _ => exact hsimple (by simp [Simple, hk])

theorem fl_feedAll (fuel a : Nat) {msgs : OpMsg V} (hm : OutIn T msgs) : Flows T N (RepIn T) (feedAll fuel a msgs) := by
  refine fl_fold _ (fun out ho pm hpm => fl_fold _ (fun out ho m hmm => fl_bind (R := RepIn T) ?_ fun r hr => ?_) _ ho) _ repIn_nil
  · exact fl_bind (fl_recvData fuel none a m _ (hm pm hpm m hmm)) fun _ _ => fl_exec fuel false a
  · split
    · exact fl_pure ho
    · exact fl_pure (repIn_merge r ho hr)

/-- The state of the program is calm. -/
theorem call_flows (fuel : Nat) (P : Prog V) (hs : Calmly T N P.st) (c : Feed V) (hc : OutIn T c.msgs) :
    Calmly T N (c.on fuel P).state.st ∧ (∃ evs, (c.on fuel P).state.st.log = P.st.log ++ evs ∧ ∀ e ∈ evs, EvIn T e) ∧ ∀ r P', c.on fuel P = .ok r P' → RepIn T r := by
  have hdebug : ∀ msgs : OpMsg V, OutIn T msgs → Calmly T N (P.receiveDebug fuel msgs).state.st ∧
      (∃ evs, (P.receiveDebug fuel msgs).state.st.log = P.st.log ++ evs ∧ ∀ e ∈ evs, EvIn T e) ∧ ∀ r P', P.receiveDebug fuel msgs = .ok r P' → RepIn T r := by
    intro msgs hm
    unfold Prog.receiveDebug
    cases P.ops.find? P.entry with
    | none => exact ⟨hs, ⟨[], (List.append_nil _).symm, by simp⟩, fun _ _ h => by cases h⟩
    | some a =>
      obtain ⟨h1, h2, h3⟩ := fl_feedAll fuel a hm P.st hs
      dsimp only
      cases hr : feedAll fuel a msgs P.st with
      | ok r s => rw [hr] at h1 h2; exact ⟨h1, h2, fun _ _ h => by cases h; exact h3 r s hr⟩
      | err e s => rw [hr] at h1 h2; exact ⟨h1, h2, fun _ _ h => by cases h⟩
  cases c with
  | receiveDebug msgs => exact hdebug msgs hc
  | receive msgs =>
    obtain ⟨h1, h2, h3⟩ := hdebug msgs hc
    unfold Feed.on Prog.receive
    dsimp only
    cases hr : P.receiveDebug fuel msgs with
    | err e P' => rw [hr] at h1 h2; exact ⟨h1, h2, fun _ _ h => by cases h⟩
    | ok r P' =>
      rw [hr] at h1 h2
      refine ⟨h1, h2, fun _ _ h => ?_⟩
      cases h
      split
      · exact h3 r P' hr
      · exact repIn_filter (h3 r P' hr) _ repIn_nil

theorem after_flows (fuel : Nat) : ∀ (cs : List (Feed V)) (P : Prog V), Calmly T N P.st → (∀ c ∈ cs, OutIn T c.msgs) →
    Calmly T N (afterCalls fuel P cs).st ∧ (∃ evs, (afterCalls fuel P cs).st.log = P.st.log ++ evs ∧ ∀ e ∈ evs, EvIn T e) ∧
      ∀ r, .ok r ∈ replies fuel P cs → RepIn T r
  | [], P, hs, _ => ⟨hs, ⟨[], (List.append_nil _).symm, by simp⟩, fun r h => by cases h⟩
  | c :: cs, P, hs, hc => by
    obtain ⟨h1, ⟨evs, h2, h3⟩, h4⟩ := call_flows fuel P hs c (hc c List.mem_cons_self)
    have ih := fun P' hs' => after_flows fuel cs P' hs' fun c hc' => hc c (List.mem_cons_of_mem _ hc')
    unfold afterCalls replies
    cases hr : c.on fuel P with
    | ok r P' =>
      rw [hr] at h1 h2
      obtain ⟨k1, ⟨evs', k2, k3⟩, k4⟩ := ih P' h1
      refine ⟨k1, ⟨evs ++ evs', ?_, ?_⟩, fun r' h => ?_⟩
      · dsimp only [Res.state] at h2 ⊢
        rw [k2, h2, List.append_assoc]
      · intro e he
        rcases List.mem_append.1 he with he | he
        · exact h3 e he
        · exact k3 e he
      · rcases List.mem_cons.1 h with h | h
        · cases h; exact h4 r P' hr
        · exact k4 r' h
    | err e P' =>
      rw [hr] at h1 h2
      obtain ⟨k1, ⟨evs', k2, k3⟩, k4⟩ := ih P' h1
      refine ⟨k1, ⟨evs ++ evs', ?_, ?_⟩, fun r' h => ?_⟩
      · dsimp only [Res.state] at h2 ⊢
        rw [k2, h2, List.append_assoc]
      · intro e he
        rcases List.mem_append.1 he with he | he
        · exact h3 e he
        · exact k3 e he
      · rcases List.mem_cons.1 h with h | h
        · cases h
        · exact k4 r' h

/-! ## From streams of messages to all entries of the results -/

theorem results_sorted (as : List (Act V)) : ∀ {o : Op V}, PortsOK o → o.core.WF → ∀ out, .ok out ∈ results o as → out.Sorted := by
  induction as with
  | nil => intro o _ _ out h; cases h
  | cons a as ih =>
    intro o hp hw out h
    rw [results] at h
    rcases List.mem_cons.1 h with h | h
    · cases a with
      | recvData p m => simp only [Spec.act] at h; split at h <;> cases h; exact .nil
      | recvCtrl p m => simp only [Spec.act] at h; split at h <;> cases h; exact .nil
      | execData =>
        have := sr_execData o hp
        simp only [Spec.act] at h
        split at h
        · rename_i out' o' ho; cases h; rw [ho] at this; exact this.sorted
        · cases h
      | execCtrl =>
        have := sr_execCtrl o
        simp only [Spec.act] at h
        split at h
        · rename_i out' o' ho; cases h; rw [ho] at this; exact this.sorted
        · cases h
    · exact ih (hp.act hw a) (Core.WF.of_fresh (congrArg Op.core (act_fresh o hw a)) hw) out h

theorem Spec.Obeys.keeps {o : Op V} (h : Obeys T o) (hp : PortsOK o) (hw : o.core.WF) : Keeps T o := by
  intro as has out ho f hf m hm
  refine h as (fun p x hx => ?_) f.1 m ?_
  · rcases hx with hx | hx
    · exact has _ hx
    · exact has _ hx
  · have hs := results_sorted as hp hw out ho
    refine List.mem_flatMap.2 ⟨.ok out, ho, ?_⟩
    dsimp only
    rw [← onPort_sorted _ hs]
    exact List.mem_flatMap.2 ⟨f, hf, by rw [if_pos rfl]; exact hm⟩

/-! ## Connections do not matter -/

theorem act_wired (o : Op V) (w : Map (List Conn)) (a : Act V) : Spec.act (wired o w) a = (wired (Spec.act o a).1 w, (Spec.act o a).2) := by
  cases a with
  | recvData p m => simp only [Spec.act]; rw [recvData_wired]; cases o.recvData m p <;> rfl
  | recvCtrl p m => simp only [Spec.act]; rw [recvCtrl_wired]; cases o.recvCtrl m p <;> rfl
  | execData => simp only [Spec.act]; rw [execData_wired]; cases o.execData <;> rfl
  | execCtrl => simp only [Spec.act]; rw [execCtrl_wired]; cases o.execCtrl <;> rfl

theorem results_wired (w : Map (List Conn)) (as : List (Act V)) : ∀ o : Op V, results (wired o w) as = results o as := by
  induction as with
  | nil => intro o; rfl
  | cons a as ih => intro o; rw [results, results, act_wired, ih]

end Flow
end Rtbot
