import Verif.Lemmas.Flow
import Verif.Lemmas.ComposeOut
import Verif.Lemmas.PortRun
import Verif.Lemmas.Snapshot

/-! # Emissions and deliveries when calls may fail

In a program of simple operators without cycles, whatever the outcome of a call, what an operator emits is a sublist of what the calls on it returned, and
what arrives over a connection is a sublist of what was emitted on its source. -/

set_option linter.unusedSectionVars false

namespace Rtbot
variable {V : Type} [Num V]
open Spec

namespace FlowOrder

theorem fine_steps {h0 : Nat → Option (Op V)} {S : Nat → Prop} {s s' : St V} (hf : Fine h0 s) (st : Steps S s s') : Fine h0 s' := by
  obtain ⟨evs, _, _, h3, _⟩ := st.trace
  refine ⟨hf.shape.trans st.shape, ?_, ?_, st.shape.wf hf.wf⟩
  · intro b o ho
    obtain ⟨o1, k1, k2⟩ := st.shape.get' ho
    exact (simple_of_fresh k2).1 (hf.simple b o1 k1)
  · intro b o ho
    obtain ⟨o1, k1, _⟩ := st.shape.get' ho
    have := h3 b o1 k1 (hf.simple b o1 k1)
    rw [ho] at this; cases this
    exact after_portsOK (hf.ports b o1 k1) (hf.wf b o1 k1) _

theorem sublist_filterMap {α β : Type} {f g : α → Option β} {l : List α} (h : ∀ e ∈ l, ∀ y, f e = some y → g e = some y) :
    (l.filterMap f).Sublist (l.filterMap g) := by
  induction l with
  | nil => exact List.Sublist.refl _
  | cons e l ih =>
    have ih := ih fun e he => h e (List.mem_cons_of_mem _ he)
    have he := h e List.mem_cons_self
    simp only [List.filterMap_cons]
    cases hf : f e with
    | some y => rw [he y hf]; exact ih.cons₂ y
    | none =>
      cases g e with
      | none => exact ih
      | some y => exact ih.cons y

/-- The messages that did not come over a connection, with the ports they were sent to. -/
def outside (evs : List (Ev V)) : List (Str × Msg V) :=
  evs.filterMap fun
    | .recv none _ q _ m => some (q, m)
    | _ => none

theorem outside_append (l l' : List (Ev V)) : outside (l ++ l') = outside l ++ outside l' := List.filterMap_append
theorem deliveredFrom_append (a : Nat) (p : Str) (b : Nat) (q : Str) (l l' : List (Ev V)) :
    deliveredFrom a p b q (l ++ l') = deliveredFrom a p b q l ++ deliveredFrom a p b q l' := List.filterMap_append

/-- What the input port is called by: messages for control ports only when it is one, for data ports only when it is one. -/
def PortIs (h : Nat → Option (Op V)) (b : Nat) (q : Str) (ctrl : Bool) : Prop :=
  ∃ o, h b = some o ∧ (if ctrl then o.core.isCtrl q else o.core.isData q) = true

/-- What the events of a computation have in common. -/
structure Facts (h : Nat → Option (Op V)) (x d : Nat) (evs : List (Ev V)) : Prop where
  honest : Honest h d evs
  src : ∀ a p b q c m, Ev.recv (some (a, p)) b q c m ∈ evs → (⟨b, q⟩ : Conn) ∈ connsOf h a p ∧ PortIs h b q c
  ext : ∀ b q c m, Ev.recv none b q c m ∈ evs → b = x ∧ c = false
  sub : ∀ a p b q, (deliveredFrom a p b q evs).Sublist (emittedBy a p evs)

theorem Facts.append {h : Nat → Option (Op V)} {x d : Nat} {l l' : List (Ev V)} (f : Facts h x d l) (g : Facts h x d l') : Facts h x d (l ++ l') := by
  refine ⟨f.honest.append g.honest, ?_, ?_, ?_⟩
  · intro a p b q c m he
    rcases List.mem_append.1 he with he | he
    · exact f.src a p b q c m he
    · exact g.src a p b q c m he
  · intro b q c m he
    rcases List.mem_append.1 he with he | he
    · exact f.ext b q c m he
    · exact g.ext b q c m he
  · intro a p b q
    rw [deliveredFrom_append, emittedBy_append]
    exact (f.sub a p b q).append (g.sub a p b q)

theorem Facts.nil {h : Nat → Option (Op V)} {x d : Nat} : Facts h x d ([] : List (Ev V)) :=
  ⟨.nil, fun _ _ _ _ _ _ h => (by cases h), fun _ _ _ _ h => (by cases h), fun _ _ _ _ => List.Sublist.refl _⟩

theorem Facts.exec {h : Nat → Option (Op V)} {x d a : Nat} {c : Bool} : Facts h x d [(Ev.exec a c : Ev V)] :=
  ⟨fun _ _ _ _ _ h => by simp at h, fun _ _ _ _ _ _ h => by simp at h, fun _ _ _ _ h => by simp at h, fun _ _ _ _ => List.Sublist.refl _⟩

variable {h0 : Nat → Option (Op V)} {x : Nat}

/-- The computation from `s` to `s'`: nothing but the messages `l` comes from outside. -/
def Rel (h0 : Nat → Option (Op V)) (x : Nat) (l : List (Str × Msg V)) (s s' : St V) : Prop :=
  Fine h0 s → Steps Any s s' ∧ s'.depth = s.depth ∧ ∃ evs, s'.log = s.log ++ evs ∧ Facts h0 x s.depth evs ∧ (outside evs).Sublist l ∧
    ∀ b o p, s.heap b = some o → (emittedBy b p evs).Sublist (collected p (results o (actsOf b evs)))

/-- The same within `emit` of the operator at `a`, which emits at most the messages `g`. -/
def RelE (h0 : Nat → Option (Op V)) (x a : Nat) (g : Str → List (Msg V)) (s s' : St V) : Prop :=
  Fine h0 s → Steps Any s s' ∧ s'.depth = s.depth ∧ ∃ evs, s'.log = s.log ++ evs ∧ Facts h0 x s.depth evs ∧ outside evs = [] ∧
    actsOf a evs = [] ∧ (∀ p, (emittedBy a p evs).Sublist (g p)) ∧
    ∀ b o p, b ≠ a → s.heap b = some o → (emittedBy b p evs).Sublist (collected p (results o (actsOf b evs)))

theorem sub_append {s s' : St V} {evs evs' : List (Ev V)} (hf : Fine h0 s) (st : Steps Any s s') (hl : s'.log = s.log ++ evs) {b : Nat} {o : Op V} {p : Str}
    (ho : s.heap b = some o) (h : (emittedBy b p evs).Sublist (collected p (results o (actsOf b evs))))
    (h' : ∀ o, s'.heap b = some o → (emittedBy b p evs').Sublist (collected p (results o (actsOf b evs')))) :
    (emittedBy b p (evs ++ evs')).Sublist (collected p (results o (actsOf b (evs ++ evs')))) := by
  obtain ⟨evs1, k1, _, k3, _⟩ := st.trace
  cases log_cancel hl k1
  rw [emittedBy_append, actsOf_append, results_append, collected_append]
  exact h.append (h' _ (k3 b o ho (hf.simple b o ho)))

theorem Rel.refl (s : St V) : Rel h0 x [] s s :=
  fun _ => ⟨Steps.refl _ _, rfl, [], by simp, .nil, List.Sublist.refl _, fun _ _ _ _ => List.Sublist.refl _⟩

theorem Rel.trans {l l' : List (Str × Msg V)} {s s' s'' : St V} (h : Rel h0 x l s s') (h' : Rel h0 x l' s' s'') : Rel h0 x (l ++ l') s s'' := by
  intro hf
  obtain ⟨h1, h2, evs, h3, h4, h5, h6⟩ := h hf
  obtain ⟨k1, k2, evs', k3, k4, k5, k6⟩ := h' (fine_steps hf h1)
  rw [h2] at k4
  refine ⟨h1.trans k1, k2.trans h2, evs ++ evs', by rw [k3, h3, List.append_assoc], h4.append k4, ?_, ?_⟩
  · rw [outside_append]; exact h5.append k5
  · intro b o p ho
    exact sub_append hf h1 h3 ho (h6 b o p ho) fun o ho => k6 b o p ho

theorem Rel.weaken {l l' : List (Str × Msg V)} {s s' : St V} (h : Rel h0 x l s s') (hl : l.Sublist l') : Rel h0 x l' s s' := by
  intro hf
  obtain ⟨h1, h2, evs, h3, h4, h5, h6⟩ := h hf
  exact ⟨h1, h2, evs, h3, h4, h5.trans hl, h6⟩

theorem RelE.refl (a : Nat) (s : St V) (g : Str → List (Msg V)) : RelE h0 x a g s s :=
  fun _ => ⟨Steps.refl _ _, rfl, [], by simp, .nil, rfl, rfl, fun _ => List.nil_sublist _, fun _ _ _ _ _ => List.Sublist.refl _⟩

theorem RelE.trans {a : Nat} {g g' : Str → List (Msg V)} {s s' s'' : St V} (h : RelE h0 x a g s s') (h' : RelE h0 x a g' s' s'') :
    RelE h0 x a (fun p => g p ++ g' p) s s'' := by
  intro hf
  obtain ⟨h1, h2, evs, h3, h4, h5, h6, h7, h8⟩ := h hf
  obtain ⟨k1, k2, evs', k3, k4, k5, k6, k7, k8⟩ := h' (fine_steps hf h1)
  rw [h2] at k4
  refine ⟨h1.trans k1, k2.trans h2, evs ++ evs', by rw [k3, h3, List.append_assoc], h4.append k4, ?_, ?_, ?_, ?_⟩
  · rw [outside_append, h5, k5]; rfl
  · rw [actsOf_append, h6, k6]; rfl
  · intro p; rw [emittedBy_append]; exact (h7 p).append (k7 p)
  · intro b o p hb ho
    exact sub_append hf h1 h3 ho (h8 b o p hb ho) fun o ho => k8 b o p hb ho

theorem RelE.weaken {a : Nat} {g g' : Str → List (Msg V)} {s s' : St V} (h : RelE h0 x a g s s') (hg : ∀ p, (g p).Sublist (g' p)) : RelE h0 x a g' s s' := by
  intro hf
  obtain ⟨h1, h2, evs, h3, h4, h5, h6, h7, h8⟩ := h hf
  exact ⟨h1, h2, evs, h3, h4, h5, h6, fun p => (h7 p).trans (hg p), h8⟩

theorem Rel.bind {α β : Type} {l l' : List (Str × Msg V)} {y : M (St V) α} {f : α → M (St V) β} {s : St V} (hy : Rel h0 x l s (y s).state)
    (hf : ∀ b s', Rel h0 x l' s' (f b s').state) : Rel h0 x (l ++ l') s ((y >>= f) s).state := by
  rw [M.bind_def]
  cases h : y s with
  | ok b s1 => rw [h] at hy; exact hy.trans (hf b s1)
  | err e s1 => rw [h] at hy; exact hy.weaken (List.sublist_append_left _ _)

theorem Rel.fold {α β : Type} {f : β → α → M (St V) β} {g : α → List (Str × Msg V)} (l : List α) (b : β) (s : St V)
    (hf : ∀ b y s', y ∈ l → Rel h0 x (g y) s' (f b y s').state) : Rel h0 x (l.flatMap g) s (M.fold f l b s).state := by
  induction l generalizing b s with
  | nil => exact Rel.refl s
  | cons y l ih =>
    rw [List.flatMap_cons]
    exact Rel.bind (hf b y s List.mem_cons_self) fun b s' => ih b s' fun b y s' hy => hf b y s' (List.mem_cons_of_mem _ hy)

theorem RelE.bind {α β : Type} {a : Nat} {g g' : Str → List (Msg V)} {y : M (St V) α} {f : α → M (St V) β} {s : St V} (hy : RelE h0 x a g s (y s).state)
    (hf : ∀ b s', RelE h0 x a g' s' (f b s').state) : RelE h0 x a (fun p => g p ++ g' p) s ((y >>= f) s).state := by
  rw [M.bind_def]
  cases h : y s with
  | ok b s1 => rw [h] at hy; exact hy.trans (hf b s1)
  | err e s1 => rw [h] at hy; exact hy.weaken fun _ => List.sublist_append_left _ _

theorem RelE.fold {α β : Type} {a : Nat} {f : β → α → M (St V) β} {g : α → Str → List (Msg V)} (l : List α) (b : β) (s : St V)
    (hf : ∀ b y s', y ∈ l → RelE h0 x a (g y) s' (f b y s').state) : RelE h0 x a (fun p => l.flatMap (g · p)) s (M.fold f l b s).state := by
  induction l generalizing b s with
  | nil => exact RelE.refl a s _
  | cons y l ih =>
    simp only [List.flatMap_cons]
    exact RelE.bind (hf b y s List.mem_cons_self) fun b s' => ih b s' fun b y s' hy => hf b y s' (List.mem_cons_of_mem _ hy)

/-! ## Receiving -/

theorem localRun_log {α : Type} (a : Nat) (f : Op V → Res (Op V) α) (s : St V) :
    (localRun a f s).state.log = s.log ∧ (localRun a f s).state.depth = s.depth := by
  unfold localRun
  cases s.heap a with
  | none => exact ⟨rfl, rfl⟩
  | some o => dsimp only; cases f o <;> exact ⟨rfl, rfl⟩

theorem recvData_only (fuel : Nat) (frm : Option (Nat × Str)) (a : Nat) (m : Msg V) (p : Str) {s : St V} (hf : Fine h0 s) :
    (recvData fuel frm a m p s).state.depth = s.depth ∧ ((recvData fuel frm a m p s).state.log = s.log ∨
      (recvData fuel frm a m p s).state.log = s.log ++ [.recv frm a p false m]) := by
  cases fuel with
  | zero => exact ⟨rfl, Or.inl rfl⟩
  | succ fuel =>
    cases ho : s.heap a with
    | none => rw [recvData_none ho]; exact ⟨rfl, Or.inr rfl⟩
    | some o =>
      rw [recvData_simple ho (hf.simple a o ho)]
      obtain ⟨h1, h2⟩ := localRun_log a (updWith fun o => o.recvData m p) (s.ev (.recv frm a p false m))
      exact ⟨h2, Or.inr h1⟩

theorem recvCtrl_only (fuel : Nat) (frm : Option (Nat × Str)) (a : Nat) (m : Msg V) (p : Str) {s : St V} (hf : Fine h0 s) :
    (recvCtrl fuel frm a m p s).state.depth = s.depth ∧ ((recvCtrl fuel frm a m p s).state.log = s.log ∨
      (recvCtrl fuel frm a m p s).state.log = s.log ++ [.recv frm a p true m]) := by
  cases fuel with
  | zero => exact ⟨rfl, Or.inl rfl⟩
  | succ fuel =>
    cases ho : s.heap a with
    | none => rw [recvCtrl_none ho]; exact ⟨rfl, Or.inr rfl⟩
    | some o =>
      rw [recvCtrl_other ho (by intro i q hk; have := hf.simple a o ho; simp [Simple, hk] at this)]
      obtain ⟨h1, h2⟩ := localRun_log a (updWith fun o => o.recvCtrl m p) (s.ev (.recv frm a p true m))
      exact ⟨h2, Or.inr h1⟩

theorem deliver_only (fuel : Nat) (src : Nat × Str) (m : Msg V) (c : Conn) {s : St V} (hf : Fine h0 s) :
    (deliver fuel src m () c s).state.depth = s.depth ∧ ((deliver fuel src m () c s).state.log = s.log ∨
      ∃ ctrl, PortIs h0 c.target c.port ctrl ∧ (deliver fuel src m () c s).state.log = s.log ++ [.recv (some src) c.target c.port ctrl m]) := by
  simp only [deliver, M.bind_def, getOp]
  cases ho : s.heap c.target with
  | none => exact ⟨rfl, Or.inl rfl⟩
  | some t =>
    obtain ⟨t0, k1, k2⟩ := hf.shape.get' ho
    dsimp only
    split
    · rename_i hd
      obtain ⟨h1, h2⟩ := recvData_only fuel (some src) c.target m c.port hf
      refine ⟨h1, h2.imp id fun h => ⟨false, ⟨t0, k1, ?_⟩, h⟩⟩
      have := isData_of_fresh k2 c.port
      simpa [this] using hd
    · split
      · rename_i hc
        obtain ⟨h1, h2⟩ := recvCtrl_only fuel (some src) c.target m c.port hf
        refine ⟨h1, h2.imp id fun h => ⟨true, ⟨t0, k1, ?_⟩, h⟩⟩
        have := isCtrl_of_fresh k2 c.port
        simpa [this] using hc
      · exact ⟨rfl, Or.inl rfl⟩

theorem deliverAll_only (fuel a : Nat) (p : Str) (m : Msg V) (cs : List Conn) : ∀ {s : St V}, Fine h0 s →
    (M.fold (deliver fuel (a, p) m) cs () s).state.depth = s.depth ∧ ∃ evs, (M.fold (deliver fuel (a, p) m) cs () s).state.log = s.log ++ evs ∧
      (∀ e ∈ evs, ∃ c ∈ cs, ∃ ctrl, e = .recv (some (a, p)) c.target c.port ctrl m ∧ PortIs h0 c.target c.port ctrl) ∧
      ∀ b q, (deliveredFrom a p b q evs).Sublist ((cs.filter fun c => c.target = b ∧ c.port = q).map fun _ => m) := by
  induction cs with
  | nil => intro s _; exact ⟨rfl, [], (List.append_nil _).symm, by simp, fun _ _ => List.Sublist.refl _⟩
  | cons c cs ih =>
    intro s hf
    have hst : Steps Any s (deliver fuel (a, p) m () c s).state := deliver_steps fuel (a, p) m c s (ctx_any hf.wf) trivial
    obtain ⟨h1, h2⟩ := deliver_only fuel (a, p) m c hf
    have hone : ∃ evs, (deliver fuel (a, p) m () c s).state.log = s.log ++ evs ∧
        (∀ e ∈ evs, ∃ ctrl, e = .recv (some (a, p)) c.target c.port ctrl m ∧ PortIs h0 c.target c.port ctrl) ∧
        ∀ b q, (deliveredFrom a p b q evs).Sublist (([c].filter fun c => c.target = b ∧ c.port = q).map fun _ => m) := by
      rcases h2 with h2 | ⟨ctrl, h2, h3⟩
      · exact ⟨[], by rw [h2, List.append_nil], by simp, fun _ _ => List.nil_sublist _⟩
      · refine ⟨_, h3, fun e he => ⟨ctrl, by simpa using he, h2⟩, fun b q => ?_⟩
        by_cases hbq : c.target = b ∧ c.port = q
        · simp [deliveredFrom, hbq]
        · have : deliveredFrom a p b q [Ev.recv (some (a, p)) c.target c.port ctrl m] = [] := by
            simp only [deliveredFrom, List.filterMap_cons, List.filterMap_nil]
            rw [if_neg (fun h => hbq h.2)]
          rw [this]; exact List.nil_sublist _
    obtain ⟨evs, k1, k2, k3⟩ := hone
    have hsplit : (M.fold (deliver fuel (a, p) m) (c :: cs) () s) = match deliver fuel (a, p) m () c s with
        | .ok _ s' => M.fold (deliver fuel (a, p) m) cs () s'
        | .err e s' => .err e s' := by
      rw [M.fold, M.bind_def]
      cases deliver fuel (a, p) m () c s <;> rfl
    rw [hsplit]
    have hcc : ∀ b q, (c :: cs).filter (fun c => decide (c.target = b ∧ c.port = q)) =
        [c].filter (fun c => decide (c.target = b ∧ c.port = q)) ++ cs.filter fun c => decide (c.target = b ∧ c.port = q) := fun b q => by
      rw [← List.filter_append]; rfl
    cases hr : deliver fuel (a, p) m () c s with
    | err e s1 =>
      rw [hr] at h1 k1 hst
      refine ⟨h1, evs, k1, fun e he => ⟨c, List.mem_cons_self, k2 e he⟩, fun b q => ?_⟩
      rw [hcc, List.map_append]
      exact (k3 b q).trans (List.sublist_append_left _ _)
    | ok u s1 =>
      rw [hr] at h1 k1 hst
      obtain ⟨j1, evs', j2, j3, j4⟩ := ih (fine_steps hf hst)
      refine ⟨j1.trans h1, evs ++ evs', ?_, ?_, ?_⟩
      · refine j2.trans ?_; rw [k1, List.append_assoc]
      · intro e he
        rcases List.mem_append.1 he with he | he
        · exact ⟨c, List.mem_cons_self, k2 e he⟩
        · obtain ⟨c', hc', h⟩ := j3 e he; exact ⟨c', List.mem_cons_of_mem _ hc', h⟩
      · intro b q
        rw [deliveredFrom_append, hcc, List.map_append]
        exact (k3 b q).append (j4 b q)

theorem nodup_one {cs : List Conn} (h : cs.Nodup) (b : Nat) (q : Str) (m : Msg V) :
    ((cs.filter fun c => decide (c.target = b ∧ c.port = q)).map fun _ => m).Sublist [m] := by
  have h1 := h.filter fun c => decide (c.target = b ∧ c.port = q)
  have h2 : ∀ c ∈ cs.filter (fun c => decide (c.target = b ∧ c.port = q)), c = ⟨b, q⟩ := by
    intro c hc
    have := (List.mem_filter.1 hc).2
    obtain ⟨t, p⟩ := c
    simp at this
    rw [this.1, this.2]
  generalize cs.filter (fun c => decide (c.target = b ∧ c.port = q)) = l at h1 h2
  match l, h1, h2 with
  | [], _, _ => exact List.nil_sublist _
  | [_], _, _ => exact List.Sublist.refl _
  | c :: c' :: l, h1, h2 =>
    have e1 := h2 c (by simp)
    have e2 := h2 c' (by simp)
    simp [e1, e2] at h1

/-! ## emit -/

/-- What the recursive calls are assumed to satisfy. -/
def ExRel (h0 : Nat → Option (Op V)) (x : Nat) (ex : Bool → Nat → M (St V) (ProgMsg V)) : Prop :=
  (∀ S, ExSteps S ex) ∧ ∀ s ctrl a, Rel h0 x [] s (ex ctrl a s).state

/-- A computation that does not touch `a`. -/
theorem Rel.away {a : Nat} {s s' : St V} (h : Rel h0 x [] s s') (hs : Fine h0 s → Steps (Away s.heap a) s s') : RelE h0 x a (fun _ => []) s s' := by
  intro hf
  obtain ⟨h1, h2, evs, h3, h4, h5, h6⟩ := h hf
  obtain ⟨evs', k1, k2, _⟩ := (hs hf).trace
  cases log_cancel h3 k1
  have haway : ∀ e ∈ evs, addr e ≠ a := fun e he hc => by
    have := k2 e he
    rw [hc] at this
    exact this .refl
  exact ⟨h1, h2, evs, h3, h4, List.sublist_nil.1 h5, actsOf_away haway, fun p => by rw [emittedBy_away haway], fun b o p _ ho => h6 b o p ho⟩

theorem trigger_rel {ex : Bool → Nat → M (St V) (ProgMsg V)} (hex : ExRel h0 x ex) (out : ProgMsg V) (c : Conn) (s : St V) :
    Rel h0 x [] s (trigger ex out c s).state := by
  simp only [trigger, M.bind_def, getOp]
  cases s.heap c.target with
  | none => exact Rel.refl s
  | some t =>
    dsimp only
    split
    · rw [M.bind_def]
      have := hex.2 s false c.target
      cases h : ex false c.target s with
      | ok r s' => rw [h] at this; exact this
      | err e s' => rw [h] at this; exact this
    · split
      · rw [M.bind_def]
        have := hex.2 s true c.target
        cases h : ex true c.target s with
        | ok r s' => rw [h] at this; exact this
        | err e s' => rw [h] at this; exact this
      · exact Rel.refl s

theorem connsOf_shape {h h' : Nat → Option (Op V)} (hs : SameShape h h') {a : Nat} {o : Op V} (ho : h' a = some o) {p : Str} {cs : List Conn}
    (hc : o.core.outputs.find? p = some cs) : connsOf h a p = cs := by
  obtain ⟨o', k1, k2⟩ := hs.get' ho
  unfold connsOf
  rw [k1]
  dsimp only
  rw [outputs_of_fresh k2, hc]

theorem emitMsg_rel (hac : Acyclic h0) (hone : OneInto h0 x) {ex : Bool → Nat → M (St V) (ProgMsg V)} (hex : ExRel h0 x ex) (fuel a : Nat) (port : Str) (m : Msg V)
    (s : St V) : RelE h0 x a (fun p => if port = p then [m] else []) s (emitMsg ex fuel a port m s).state := by
  intro hf
  revert hf
  simp only [emitMsg, M.bind_def, getOp]
  cases ho : s.heap a with
  | none => exact RelE.refl a s _
  | some o =>
    simp only [M.get, logEv]
    have hev : Steps Any s (s.ev (.emit s.depth a o.core.id port m)) := Steps.event s (.emit s.depth a o.core.id port m) trivial fun _ _ _ => rfl
    have hfacts : Fine h0 s → ∀ evs : List (Ev V), (∀ e ∈ evs, ∃ c ∈ connsOf h0 a port, ∃ ctrl, e = .recv (some (a, port)) c.target c.port ctrl m ∧ PortIs h0 c.target c.port ctrl) →
        (∀ b q, (deliveredFrom a port b q evs).Sublist [m]) → Facts h0 x s.depth (.emit s.depth a o.core.id port m :: evs) := by
      intro hf evs he hd
      obtain ⟨o', k1, k2⟩ := hf.shape.get' ho
      refine ⟨?_, ?_, ?_, ?_⟩
      · intro d' a' id p' m' h
        rcases List.mem_cons.1 h with h | h
        · cases h; exact ⟨rfl, o', k1, id_of_fresh k2⟩
        · obtain ⟨c, _, ctrl, h, _⟩ := he _ h; cases h
      · intro a' p' b q c m' h
        rcases List.mem_cons.1 h with h | h
        · cases h
        · obtain ⟨c, hc, ctrl, h, hp⟩ := he _ h; cases h; exact ⟨hc, hp⟩
      · intro b q c m' h
        rcases List.mem_cons.1 h with h | h
        · cases h
        · obtain ⟨c, hc, ctrl, h, hp⟩ := he _ h; cases h
      · intro a' p' b q
        have e1 : deliveredFrom a' p' b q (.emit s.depth a o.core.id port m :: evs) = deliveredFrom a' p' b q evs := rfl
        rw [e1]
        by_cases hap : a' = a ∧ p' = port
        · obtain ⟨rfl, rfl⟩ := hap
          refine (hd b q).trans ?_
          have : Ev.emit s.depth a' o.core.id p' m :: evs = [Ev.emit s.depth a' o.core.id p' m] ++ evs := rfl
          rw [this, emittedBy_append, emittedBy_one, if_pos ⟨rfl, rfl⟩]
          exact List.sublist_append_left _ _
        · have : deliveredFrom a' p' b q evs = [] := by
            unfold deliveredFrom
            rw [List.filterMap_eq_nil_iff]
            intro e h
            obtain ⟨c, hc, ctrl, rfl, hp⟩ := he e h
            dsimp only
            rw [if_neg]
            rintro ⟨h, _⟩
            cases h
            exact hap ⟨rfl, rfl⟩
          rw [this]; exact List.nil_sublist _
    have hrest : ∀ evs : List (Ev V), (∀ e ∈ evs, ∃ c ∈ connsOf h0 a port, ∃ ctrl, e = .recv (some (a, port)) c.target c.port ctrl m ∧ PortIs h0 c.target c.port ctrl) →
        outside (.emit s.depth a o.core.id port m :: evs) = [] ∧
        (∀ b p, emittedBy b p (.emit s.depth a o.core.id port m :: evs) = if a = b ∧ port = p then [m] else []) := by
      intro evs he
      constructor
      · unfold outside
        rw [List.filterMap_eq_nil_iff]
        intro e h
        rcases List.mem_cons.1 h with rfl | h
        · rfl
        · obtain ⟨c, hc, ctrl, rfl, hp⟩ := he e h; rfl
      · intro b p
        have : Ev.emit s.depth a o.core.id port m :: evs = [Ev.emit s.depth a o.core.id port m] ++ evs := rfl
        rw [this, emittedBy_append, emittedBy_one, emittedBy_recv (a := b) (p := p) (l := evs), List.append_nil]
        intro e h
        obtain ⟨c, hc, ctrl, rfl, hp⟩ := he e h; rfl
    cases hp : o.core.outputs.find? port with
    | none =>
      intro hf
      obtain ⟨r1, r2⟩ := hrest [] (by simp)
      refine ⟨hev, rfl, [.emit s.depth a o.core.id port m], rfl, hfacts hf [] (by simp) (fun _ _ => List.nil_sublist _), r1, rfl, ?_, ?_⟩
      · intro p; rw [r2]; simp
      · intro b o' p hb _; rw [r2, if_neg (fun h => hb h.1.symm)]; exact List.nil_sublist _
    | some conns =>
      dsimp only
      intro hf
      have hconns : connsOf h0 a port = conns := connsOf_shape hf.shape ho hp
      have hedge : ∀ c ∈ conns, ¬ Reach h0 c.target a := fun c hc => by
        obtain ⟨o', k1, k2⟩ := hf.shape.get' ho
        exact hac a c.target (mem_connsOf k1 (by rw [outputs_of_fresh k2]; exact hp) hc)
      have hblock : RelE h0 x a (fun p => if port = p then [m] else []) s
          (M.fold (deliver fuel (a, port) m) conns () (s.ev (.emit s.depth a o.core.id port m))).state := by
        intro _
        have hf1 := fine_steps hf hev
        have st := deliverAll_steps (S := Any) fuel (a, port) m conns (s.ev (.emit s.depth a o.core.id port m)) (ctx_any hf1.wf) (fun _ _ => trivial)
        obtain ⟨h1, evs, h2, h3, h4⟩ := deliverAll_only fuel a port m conns hf1
        rw [← hconns] at h3
        obtain ⟨r1, r2⟩ := hrest evs h3
        refine ⟨hev.trans st, h1, .emit s.depth a o.core.id port m :: evs, by rw [h2]; simp, hfacts hf evs h3 fun b q =>
          (h4 b q).trans (nodup_one (by rw [← hconns]; exact hone.once a port) b q m), r1, ?_, ?_, ?_⟩
        · have : Ev.emit s.depth a o.core.id port m :: evs = [Ev.emit s.depth a o.core.id port m] ++ evs := rfl
          rw [this, actsOf_append, actsOf_emit, actsOf_away (b := a) (l := evs)]
          · rfl
          · intro e h
            obtain ⟨c, hc, ctrl, rfl, _⟩ := h3 e h
            rw [hconns] at hc
            intro h
            have := hedge c hc
            simp only [addr] at h
            rw [h] at this
            exact this .refl
        · intro p; rw [r2]; simp
        · intro b o' p hb _; rw [r2, if_neg (fun h => hb h.1.symm)]; exact List.nil_sublist _
      have htrig : ∀ (s' : St V), SameShape h0 s'.heap → RelE h0 x a (fun _ => []) s' (M.fold (trigger ex) conns [(o.core.id, [(port, [m])])] s').state := by
        intro s' hsh
        refine Rel.away ?_ fun hf' => ?_
        · have := Rel.fold (h0 := h0) (x := x) (f := trigger ex) (g := fun _ => []) conns [(o.core.id, [(port, [m])])] s' fun out c s' _ => trigger_rel hex out c s'
          rw [List.flatMap_eq_nil_iff.2 fun _ _ => rfl] at this
          exact this
        · have hsh := hf'.shape
          exact state_fold (R := Steps (Away s'.heap a)) (Steps.refl _) (fun _ _ _ => Steps.trans) conns _ _ fun out c s'' hcm hs =>
            trigger_steps (hex.1 _) out c s'' ((⟨hf'.wf, closed_away _ _⟩ : Ctx (Away s'.heap a) s').step hs) ((away_shape hsh _ _).2 (hedge c hcm))
      rw [M.bind_def]
      have hb := hblock hf
      cases hr : M.fold (deliver fuel (a, port) m) conns () (s.ev (.emit s.depth a o.core.id port m)) with
      | err e s1 => rw [hr] at hb; exact hb
      | ok u s1 =>
        rw [hr] at hblock hb
        dsimp only
        have := (hblock.trans (htrig s1 (fine_steps hf hb.1).shape)).weaken (g' := fun p => if port = p then [m] else []) (fun p => by simp)
        exact this hf

theorem emitOp_rel (hac : Acyclic h0) (hone : OneInto h0 x) {ex : Bool → Nat → M (St V) (ProgMsg V)} (hex : ExRel h0 x ex) (fuel a : Nat) (out : OpMsg V)
    (s : St V) : RelE h0 x a (fun p => onPort p out) s (emitOp ex fuel a out s).state := by
  unfold emitOp onPort
  refine RelE.fold (g := fun (e : Str × PortMsg V) p => if e.1 = p then e.2 else []) out [] s fun acc e s' _ => ?_
  simp only [M.bind_def, getOp]
  cases s'.heap a with
  | none => exact RelE.refl a s' _
  | some o =>
    dsimp only
    split
    · have h1 : RelE h0 x a (fun p => e.2.flatMap fun m => if e.1 = p then [m] else []) s' (emitPort ex fuel a e.1 e.2 s').state := by
        unfold emitPort
        refine RelE.fold (g := fun (m : Msg V) p => if e.1 = p then [m] else []) e.2 [] s' fun acc m s'' _ => ?_
        have := RelE.bind (f := fun r => (pure (mergeProg acc r) : M (St V) (ProgMsg V))) (g' := fun _ => []) (emitMsg_rel hac hone hex fuel a e.1 m s'')
          fun b s' => RelE.refl a s' _
        simpa using this
      have h2 := RelE.bind (f := fun r => (pure (mergeProg acc r) : M (St V) (ProgMsg V))) (g' := fun _ => []) h1 fun b s' => RelE.refl a s' _
      refine h2.weaken fun p => ?_
      by_cases hp : e.1 = p <;> simp [hp]
    · exact RelE.refl a s' _

/-! ## exec -/

theorem exec_rel (hac : Acyclic h0) (hone : OneInto h0 x) (fuel : Nat) : ExRel (V := V) h0 x (exec fuel) := by
  induction fuel with
  | zero => exact ⟨fun S => exec_steps S 0, fun s _ _ => Rel.refl s⟩
  | succ fuel ih =>
    refine ⟨fun S => exec_steps S (fuel + 1), fun s ctrl a hf => ?_⟩
    have hst := exec_steps Any (fuel + 1) s ctrl a (ctx_any hf.wf) trivial
    refine ⟨hst, ?_⟩
    cases ho : s.heap a with
    | none =>
      rw [exec_none ho]
      refine ⟨rfl, [.exec a ctrl], rfl, .exec, List.Sublist.refl _, fun b o p _ => ?_⟩
      exact List.nil_sublist _
    | some o =>
      have hs := hf.simple a o ho
      rw [exec_simple ho hs]
      have key := Steps.call (S := Any) s (.exec a ctrl) (if ctrl then .execCtrl else .execData) o
        (if ctrl then o.execCtrl else o.execData).state trivial (by cases ctrl <;> simp [actOf, addr]) ho
        (by cases ctrl
            · simp only [act, Bool.false_eq_true, if_false]; cases o.execData <;> rfl
            · simp only [act, if_true]; cases o.execCtrl <;> rfl)
        (by cases ctrl
            · exact execData_fresh o
            · exact execCtrl_fresh o)
      cases hx : (if ctrl then o.execCtrl else o.execData) with
      | err e o' =>
        refine ⟨rfl, [.exec a ctrl], rfl, .exec, List.Sublist.refl _, fun b o p _ => ?_⟩
        exact List.nil_sublist _
      | ok out o' =>
        rw [hx] at key
        simp only [Res.state, addr] at key
        dsimp only
        have hf1 := fine_steps hf key
        obtain ⟨k1, k2, evs, k3, k4, k5, k6, k7, k8⟩ := emitOp_rel hac hone ih fuel a out _ hf1
        refine ⟨k2, [.exec a ctrl] ++ evs, by rw [k3]; simp [St.setOp], Facts.append (d := s.depth) Facts.exec k4, ?_, ?_⟩
        · rw [outside_append, k5]; exact List.Sublist.refl _
        · intro b ob p hob
          by_cases hb : b = a
          · subst hb
            rw [ho] at hob; cases hob
            have hact : (act o (if ctrl then .execCtrl else .execData)) = (o', .ok out) := by
              cases ctrl
              · simp only [Bool.false_eq_true, if_false] at hx ⊢
                simp only [act, hx]
              · simp only [if_true] at hx ⊢
                simp only [act, hx]
            have hsorted : out.Sorted := by
              cases ctrl
              · have := sr_execData o (hf.ports b o ho)
                simp only [Bool.false_eq_true, if_false] at hx
                rw [hx] at this; exact this.sorted
              · have := sr_execCtrl o
                simp only [if_true] at hx
                rw [hx] at this; exact this.sorted
            have hacts : actsOf b ([Ev.exec b ctrl] ++ evs) = [if ctrl then .execCtrl else .execData] := by
              rw [actsOf_append, actsOf_exec, if_pos rfl, k6]; rfl
            rw [hacts, emittedBy_append, emittedBy_exec, List.nil_append]
            have : (emittedBy b p evs).Sublist (onPort p out) := k7 p
            rw [onPort_sorted p hsorted] at this
            simpa [results, hact, collected] using this
          · refine sub_append (s' := St.setOp (s.ev (.exec a ctrl)) a o') hf key rfl hob ?_ fun o2 ho2 => k8 b o2 p hb ho2
            exact List.nil_sublist _

/-! ## Calls of a program -/

theorem feed_rel (hac : Acyclic h0) (hone : OneInto h0 x) (fuel : Nat) (p : Str) (m : Msg V) (s : St V) : Rel h0 x [(p, m)] s (feed fuel x p m s).state := by
  unfold feed
  have h1 : Rel h0 x [(p, m)] s (recvData fuel none x m p s).state := by
    intro hf
    obtain ⟨d, hl⟩ := recvData_only fuel none x m p hf
    refine ⟨recvData_steps Any fuel s none x m p (ctx_any hf.wf) trivial, d, ?_⟩
    rcases hl with hl | hl
    · exact ⟨[], by rw [hl, List.append_nil], .nil, List.nil_sublist _, fun _ _ _ _ => List.nil_sublist _⟩
    · refine ⟨_, hl, ⟨?_, ?_, ?_, fun _ _ _ _ => List.Sublist.refl _⟩, List.Sublist.refl _, fun _ _ _ _ => List.nil_sublist _⟩
      · intro _ _ _ _ _ h; simp at h
      · intro _ _ _ _ _ _ h; simp at h
      · intro b q c m' h; simp at h; exact ⟨h.1, h.2.2.1⟩
  have := Rel.bind (l' := []) h1 fun _ s' => (exec_rel hac hone fuel).2 s' false x
  simpa using this

/-- The messages of a call with the ports they are for. -/
def asked (msgs : OpMsg V) : List (Str × Msg V) := msgs.flatMap fun e => e.2.map fun m => (e.1, m)

theorem feedAll_rel (hac : Acyclic h0) (hone : OneInto h0 x) (fuel : Nat) (msgs : OpMsg V) (s : St V) : Rel h0 x (asked msgs) s (feedAll fuel x msgs s).state := by
  unfold feedAll asked
  refine Rel.fold msgs [] s fun acc e s' _ => ?_
  unfold feedPort
  have := Rel.fold (h0 := h0) (x := x) (g := fun m => [(e.1, m)]) (f := fun out m => do
    let r ← feed fuel x e.1 m
    pure (if r = [] then out else mergeProg out r)) e.2 acc s' fun acc m s' _ => by
      have := Rel.bind (l' := []) (f := fun r => (pure (if r = [] then acc else mergeProg acc r) : M (St V) (ProgMsg V))) (feed_rel hac hone fuel e.1 m s') fun b s' => Rel.refl s'
      simpa using this
  have h2 : (e.2.flatMap fun m => [(e.1, m)]) = e.2.map fun m => (e.1, m) := by
    induction e.2 with
    | nil => rfl
    | cons _ _ ih => rw [List.flatMap_cons, ih]; rfl
  rw [h2] at this
  exact this

theorem debug_rel {P : Prog V} (hac : Acyclic h0) (hone : OneInto h0 x) (fuel : Nat) (msgs : OpMsg V)
    (hx : ∀ y, P.ops.find? P.entry = some y → y = x) : Rel h0 x (asked msgs) P.st (P.receiveDebug fuel msgs).state.st := by
  unfold Prog.receiveDebug
  cases h : P.ops.find? P.entry with
  | none => exact (Rel.refl P.st).weaken (List.nil_sublist _)
  | some a =>
    have he := hx a h
    subst he
    have := feedAll_rel hac hone fuel msgs P.st
    dsimp only
    cases hr : feedAll fuel a msgs P.st with
    | ok r s => rw [hr] at this; exact this
    | err e s => rw [hr] at this; exact this

theorem call_state (fuel : Nat) (P : Prog V) (c : Feed V) : (c.on fuel P).state = (P.receiveDebug fuel c.msgs).state := by
  cases c with
  | receiveDebug msgs => rfl
  | receive msgs =>
    unfold Feed.on Prog.receive Feed.msgs
    dsimp only
    cases P.receiveDebug fuel msgs <;> rfl

theorem calls_rel (hac : Acyclic h0) (hone : OneInto h0 x) (fuel : Nat) : ∀ (cs : List (Feed V)) (P : Prog V), P.ops.find? P.entry = some x →
    Rel h0 x (cs.flatMap fun c => asked c.msgs) P.st (afterCalls fuel P cs).st := by
  intro cs
  induction cs with
  | nil => intro P _; exact Rel.refl P.st
  | cons c cs ih =>
    intro P hx
    rw [afterCalls_cons, List.flatMap_cons, call_state]
    refine (debug_rel (x := x) hac hone fuel c.msgs fun y hy => ?_).trans (ih _ ?_)
    · rw [hx] at hy; cases hy; rfl
    · have := afterCalls_frame fuel [c] P
      rw [afterCalls_cons, afterCalls, call_state] at this
      rw [this.2.1, this.2.2.1]; exact hx

theorem reply_sub (fuel : Nat) (P : Prog V) (hw : HeapWF P.st.heap) (hfo : FilterOnce P) (c : Feed V) {r : ProgMsg V} {P' : Prog V} (h : c.on fuel P = .ok r P')
    {evs : List (Ev V)} (hl : P'.st.log = P.st.log ++ evs) (id p : Str) : (listed r id p).Sublist (emitted P.st.depth id p evs) := by
  have hdebug : ∀ {msgs : OpMsg V} {r : ProgMsg V}, P.receiveDebug fuel msgs = .ok r P' → Good r ∧ ∀ id p, listed r id p = emitted P.st.depth id p evs := by
    intro msgs r hr
    obtain ⟨_, evs', h1, h2⟩ := receiveDebug_log hw hr
    cases log_cancel hl h1
    exact ⟨h2.good, fun id p => by rw [h2.report id p]; rfl⟩
  cases c with
  | receiveDebug msgs => rw [(hdebug h).2]
  | receive msgs =>
    unfold Feed.on Prog.receive at h
    dsimp only at h
    cases hr : P.receiveDebug fuel msgs with
    | err e P1 => rw [hr] at h; cases h
    | ok r1 P1 =>
      rw [hr] at h
      dsimp only at h
      injection h with h1 h2
      subst h2
      obtain ⟨k1, k2⟩ := hdebug hr
      have hfil : P1.filter = P.filter := by
        have := afterCalls_frame fuel [Feed.receiveDebug msgs] P
        rw [afterCalls_cons, afterCalls] at this
        have e : (Feed.receiveDebug msgs).on fuel P = .ok r1 P1 := hr
        rw [e] at this
        exact this.2.2.2
      rw [hfil] at h1
      split at h1
      · subst h1; rw [k2]
      · subst h1
        rw [(filterReport_listed r1 k1 P.filter hfo.1 [] good_nil).2 id p, k2]
        have : listed ([] : ProgMsg V) id p = [] := rfl
        rw [this, List.nil_append]
        split
        · exact List.nil_sublist _
        · rename_i ps hps
          have := List.nodup_iff_count_le_one.1 (hfo.2 id ps hps) p
          generalize ps.count p = n at this
          match n, this with
          | 0, _ => exact List.nil_sublist _
          | 1, _ => simp

theorem emitted_append (d : Nat) (id p : Str) (l l' : List (Ev V)) : emitted d id p (l ++ l') = emitted d id p l ++ emitted d id p l' := List.filterMap_append

theorem replies_sub (hac : Acyclic h0) (hone : OneInto h0 x) (fuel : Nat) : ∀ (cs : List (Feed V)) (P : Prog V), P.ops.find? P.entry = some x → Fine h0 P.st →
    FilterOnce P → ∃ evs, (afterCalls fuel P cs).st.log = P.st.log ++ evs ∧ ∀ id p, (listedIn (replies fuel P cs) id p).Sublist (emitted P.st.depth id p evs) := by
  intro cs
  induction cs with
  | nil => intro P _ _ _; exact ⟨[], (List.append_nil _).symm, fun _ _ => List.Sublist.refl _⟩
  | cons c cs ih =>
    intro P hx hf hfo
    have hrel := calls_rel hac hone fuel [c] P hx hf
    obtain ⟨f1, f2, f3, f4⟩ := afterCalls_frame fuel [c] P
    rw [afterCalls_cons, afterCalls] at hrel f2 f3 f4
    obtain ⟨h1, h2, evs, h3, _⟩ := hrel
    have hx' : (c.on fuel P).state.ops.find? (c.on fuel P).state.entry = some x := by rw [f2, f3]; exact hx
    have hfo' : FilterOnce (c.on fuel P).state := by unfold FilterOnce; rw [f4]; exact hfo
    obtain ⟨evs', k1, k2⟩ := ih _ hx' (fine_steps hf h1) hfo'
    rw [h2] at k2
    refine ⟨evs ++ evs', by rw [afterCalls_cons, k1, h3, List.append_assoc], fun id p => ?_⟩
    rw [emitted_append, replies]
    have hk := k2 id p
    cases hr : c.on fuel P with
    | err e P' =>
      rw [hr] at hk
      exact hk.trans (List.sublist_append_right _ _)
    | ok r P' =>
      rw [hr] at hk h3
      exact (reply_sub fuel P hf.wf hfo c hr h3 id p).append hk

/-! ## What arrives at a port -/

theorem data_arrives {evs : List (Ev V)} {d : Nat} (hone : OneInto h0 x) (hF : Facts h0 x d evs) {b : Nat} {o : Op V} (ho : h0 b = some o) (hb : b ≠ x) {q : Str}
    (hq : o.core.dataIn.has q = true) : addressed (o.core.dataIn.length == 1) q (actsOf b evs) = [] ∨
      ∃ a p, (⟨b, q⟩ : Conn) ∈ connsOf h0 a p ∧ (addressed (o.core.dataIn.length == 1) q (actsOf b evs)).Sublist (emittedBy a p evs) := by
  have hport : ∀ q', o.core.isData q' = true → (q' = q ∨ (q' = [] ∧ (o.core.dataIn.length == 1) = true)) → q' = q := by
    intro q' hd h
    rcases h with h | ⟨h, hl⟩
    · exact h
    · unfold Core.isData at hd
      match hdi : o.core.dataIn, hd, hq, hl with
      | [(k, v)], hd, hq, _ =>
        simp only [Map.has, Map.find?_cons] at hd hq
        have e1 : k = q' := by by_contra hn; simp [hn] at hd
        have e2 : k = q := by by_contra hn; simp [hn] at hq
        exact e1.symm.trans e2
  have key : ∀ e ∈ evs, ∀ m, ((actOf b e).bind fun a => match a with
      | .recvData q' m => if q' = q ∨ (q' = [] ∧ (o.core.dataIn.length == 1) = true) then some m else none
      | _ => none) = some m → ∃ a p c, e = .recv (some (a, p)) b q c m ∧ (⟨b, q⟩ : Conn) ∈ connsOf h0 a p := by
    intro e he m hm
    cases e with
    | emit => simp [actOf] at hm
    | exec a c => cases c <;> by_cases hab : a = b <;> simp [actOf, hab] at hm
    | recv frm a q' c m' =>
      cases c with
      | true => by_cases hab : a = b <;> simp [actOf, hab] at hm
      | false =>
        by_cases hab : a = b
        · subst hab
          simp only [actOf, if_true, Option.bind_some] at hm
          split at hm
          · rename_i hcond
            cases hm
            cases frm with
            | none => exact absurd (hF.ext _ _ _ _ he).1 hb
            | some src =>
              obtain ⟨a', p'⟩ := src
              obtain ⟨h1, o', h2, h3⟩ := hF.src _ _ _ _ _ _ he
              rw [ho] at h2; cases h2
              simp only [Bool.false_eq_true, if_false] at h3
              have := hport q' h3 hcond
              subst this
              exact ⟨a', p', false, rfl, h1⟩
          · cases hm
        · simp [actOf, hab] at hm
  have hadd : addressed (o.core.dataIn.length == 1) q (actsOf b evs) = evs.filterMap fun e => (actOf b e).bind fun a => match a with
      | .recvData q' m => if q' = q ∨ (q' = [] ∧ (o.core.dataIn.length == 1) = true) then some m else none
      | _ => none := by
    unfold addressed actsOf
    rw [List.filterMap_filterMap]
    refine List.filterMap_congr fun e _ => ?_
    cases actOf b e with
    | none => rfl
    | some a => cases a <;> rfl
  by_cases hsrc : ∃ a p, (⟨b, q⟩ : Conn) ∈ connsOf h0 a p
  · obtain ⟨a, p, hc⟩ := hsrc
    refine Or.inr ⟨a, p, hc, List.Sublist.trans ?_ (hF.sub a p b q)⟩
    rw [hadd]
    unfold deliveredFrom
    refine sublist_filterMap fun e he m hm => ?_
    obtain ⟨a', p', c, rfl, hc'⟩ := key e he m hm
    obtain ⟨rfl, rfl⟩ := hone.sole _ _ _ _ _ hc hc'
    simp
  · left
    rw [hadd, List.filterMap_eq_nil_iff]
    intro e he
    by_contra hn
    obtain ⟨m, hm⟩ := Option.ne_none_iff_exists'.1 hn
    obtain ⟨a', p', c, rfl, hc'⟩ := key e he m hm
    exact hsrc ⟨a', p', hc'⟩

theorem ctrl_arrives {evs : List (Ev V)} {d : Nat} (hone : OneInto h0 x) (hF : Facts h0 x d evs) {b : Nat} {o : Op V} (ho : h0 b = some o) {q : Str}
    (hq : o.core.ctrlIn.has q = true) : addressedCtrl (o.core.ctrlIn.length == 1) q (actsOf b evs) = [] ∨
      ∃ a p, (⟨b, q⟩ : Conn) ∈ connsOf h0 a p ∧ (addressedCtrl (o.core.ctrlIn.length == 1) q (actsOf b evs)).Sublist (emittedBy a p evs) := by
  have hport : ∀ q', o.core.isCtrl q' = true → (q' = q ∨ (q' = [] ∧ (o.core.ctrlIn.length == 1) = true)) → q' = q := by
    intro q' hd h
    rcases h with h | ⟨h, hl⟩
    · exact h
    · unfold Core.isCtrl at hd
      match hdi : o.core.ctrlIn, hd, hq, hl with
      | [(k, v)], hd, hq, _ =>
        simp only [Map.has, Map.find?_cons] at hd hq
        have e1 : k = q' := by by_contra hn; simp [hn] at hd
        have e2 : k = q := by by_contra hn; simp [hn] at hq
        exact e1.symm.trans e2
  have key : ∀ e ∈ evs, ∀ m, ((actOf b e).bind fun a => match a with
      | .recvCtrl q' m => if q' = q ∨ (q' = [] ∧ (o.core.ctrlIn.length == 1) = true) then some m else none
      | _ => none) = some m → ∃ a p c, e = .recv (some (a, p)) b q c m ∧ (⟨b, q⟩ : Conn) ∈ connsOf h0 a p := by
    intro e he m hm
    cases e with
    | emit => simp [actOf] at hm
    | exec a c => cases c <;> by_cases hab : a = b <;> simp [actOf, hab] at hm
    | recv frm a q' c m' =>
      cases c with
      | false => by_cases hab : a = b <;> simp [actOf, hab] at hm
      | true =>
        by_cases hab : a = b
        · subst hab
          simp only [actOf, if_true, Option.bind_some] at hm
          split at hm
          · rename_i hcond
            cases hm
            cases frm with
            | none => have := (hF.ext _ _ _ _ he).2; cases this
            | some src =>
              obtain ⟨a', p'⟩ := src
              obtain ⟨h1, o', h2, h3⟩ := hF.src _ _ _ _ _ _ he
              rw [ho] at h2; cases h2
              simp only [if_true] at h3
              have := hport q' h3 hcond
              subst this
              exact ⟨a', p', true, rfl, h1⟩
          · cases hm
        · simp [actOf, hab] at hm
  have hadd : addressedCtrl (o.core.ctrlIn.length == 1) q (actsOf b evs) = evs.filterMap fun e => (actOf b e).bind fun a => match a with
      | .recvCtrl q' m => if q' = q ∨ (q' = [] ∧ (o.core.ctrlIn.length == 1) = true) then some m else none
      | _ => none := by
    unfold addressedCtrl actsOf
    rw [List.filterMap_filterMap]
    refine List.filterMap_congr fun e _ => ?_
    cases actOf b e with
    | none => rfl
    | some a => cases a <;> rfl
  by_cases hsrc : ∃ a p, (⟨b, q⟩ : Conn) ∈ connsOf h0 a p
  · obtain ⟨a, p, hc⟩ := hsrc
    refine Or.inr ⟨a, p, hc, List.Sublist.trans ?_ (hF.sub a p b q)⟩
    rw [hadd]
    unfold deliveredFrom
    refine sublist_filterMap fun e he m hm => ?_
    obtain ⟨a', p', c, rfl, hc'⟩ := key e he m hm
    obtain ⟨rfl, rfl⟩ := hone.sole _ _ _ _ _ hc hc'
    simp
  · left
    rw [hadd, List.filterMap_eq_nil_iff]
    intro e he
    by_contra hn
    obtain ⟨m, hm⟩ := Option.ne_none_iff_exists'.1 hn
    obtain ⟨a', p', c, rfl, hc'⟩ := key e he m hm
    exact hsrc ⟨a', p', hc'⟩

theorem entry_arrives {evs : List (Ev V)} {d : Nat} (hone : OneInto h0 x) (hF : Facts h0 x d evs) {cs : List (Feed V)}
    (hout : (outside evs).Sublist (cs.flatMap fun c => asked c.msgs)) (sole : Bool) (q : Str) :
    (addressed sole q (actsOf x evs)).Sublist (givenTo sole q cs) := by
  have h1 : (addressed sole q (actsOf x evs)).Sublist ((outside evs).filterMap fun e => if e.1 = q ∨ (e.1 = [] ∧ sole = true) then some e.2 else none) := by
    unfold addressed actsOf outside
    rw [List.filterMap_filterMap, List.filterMap_filterMap]
    refine sublist_filterMap fun e he m hm => ?_
    cases e with
    | emit => simp [actOf] at hm
    | exec a c => cases c <;> by_cases hab : a = x <;> simp [actOf, hab] at hm
    | recv frm a q' c m' =>
      cases c with
      | true => by_cases hab : a = x <;> simp [actOf, hab] at hm
      | false =>
        by_cases hab : a = x
        · subst hab
          cases frm with
          | none => simpa [actOf] using hm
          | some src => exact absurd rfl (hone.entry _ _ _ (hF.src src.1 src.2 _ _ _ _ he).1)
        · simp [actOf, hab] at hm
  refine h1.trans ((hout.filterMap _).trans ?_)
  have : (cs.flatMap fun c => asked c.msgs).filterMap (fun e => if e.1 = q ∨ (e.1 = [] ∧ sole = true) then some e.2 else none) = givenTo sole q cs := by
    unfold givenTo asked
    rw [List.filterMap_flatMap]
    congr 1; funext c
    rw [List.filterMap_flatMap]
    congr 1; funext e
    rw [List.filterMap_map]
    by_cases h : e.1 = q ∨ (e.1 = [] ∧ sole = true)
    · rw [if_pos h]
      have : ((fun (e : Str × Msg V) => if e.1 = q ∨ (e.1 = [] ∧ sole = true) then some e.2 else none) ∘ fun m => (e.1, m)) = some := by
        funext m; simp only [Function.comp]; rw [if_pos h]
      rw [this, List.filterMap_some]
    · rw [if_neg h, List.filterMap_eq_nil_iff]
      intro m _
      simp only [Function.comp]; rw [if_neg h]
  rw [this]

/-! ## Counting upstream operators -/

theorem countP_lt {α : Type} {f g : α → Bool} {l : List α} (h : ∀ y, f y = true → g y = true) {b : α} (hb : b ∈ l) (h1 : g b = true) (h2 : f b = false) :
    l.countP f < l.countP g := by
  induction l with
  | nil => cases hb
  | cons c l ih =>
    rw [List.countP_cons, List.countP_cons]
    have hle : l.countP f ≤ l.countP g := List.countP_mono_left fun y _ hy => h y hy
    rcases List.mem_cons.1 hb with rfl | hb
    · simp only [h1, h2, if_true, Bool.false_eq_true, if_false]; omega
    · have := ih hb
      have : (if f c = true then 1 else 0) ≤ (if g c = true then 1 else 0) := by
        by_cases hc : f c = true
        · simp [hc, h c hc]
        · simp [hc]
      omega

theorem upstream_induct {h : Nat → Option (Op V)} (hac : Acyclic h) {evs : List (Ev V)} {T : Nat → Prop}
    (hT : ∀ b, (∀ a p c, c ∈ connsOf h a p → c.target = b → T a) → T b) (haway : ∀ b, (∀ e ∈ evs, addr e ≠ b) → T b) (b : Nat) : T b := by
  classical
  suffices ∀ n b, (evs.map addr).countP (fun y => decide (Reach h y b)) ≤ n → T b from this _ b (Nat.le_refl _)
  intro n
  induction n with
  | zero =>
    intro b hb
    refine haway b fun e he hc => ?_
    have := List.countP_eq_zero.1 (Nat.le_zero.1 hb) b (List.mem_map.2 ⟨e, he, hc⟩)
    simp only [decide_eq_true_eq] at this
    exact this .refl
  | succ n ih =>
    intro b hb
    by_cases hbm : b ∈ evs.map addr
    · refine hT b fun a p c hc hcb => ih a ?_
      have hedge : Edge h a b := by
        unfold connsOf at hc
        split at hc
        · cases hc
        · rename_i o ho
          split at hc
          · cases hc
          · rename_i cs hcs
            rw [← hcb]; exact mem_connsOf ho hcs hc
      have : (evs.map addr).countP (fun y => decide (Reach h y a)) < (evs.map addr).countP (fun y => decide (Reach h y b)) := by
        refine countP_lt (fun y hy => ?_) hbm ?_ ?_
        · simp only [decide_eq_true_eq] at hy ⊢
          exact .step hy hedge
        · simp only [decide_eq_true_eq]; exact .refl
        · simp only [decide_eq_false_iff_not]; exact hac a b hedge
      omega
    · exact haway b fun e he hc => hbm (List.mem_map.2 ⟨e, he, hc⟩)

end FlowOrder
end Rtbot
