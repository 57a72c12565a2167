import Verif.Lemmas.Built
import Verif.Spec.Defined

set_option linter.unusedSectionVars false

/-! # Methods of operators are defined -/

namespace Rtbot
variable {V : Type} [Num V]
open Spec

/-- The result satisfies `Q`; an error is not undefined behaviour. -/
def Def {α : Type} (Q : α → Prop) : Except Err α → Prop
  | .ok a => Q a
  | .error e => ∀ u, e ≠ .ub u

theorem df_ok {α : Type} {Q : α → Prop} {a : α} (h : Q a) : Def Q (.ok a : Except Err α) := h
theorem df_t {α : Type} (a : α) : Def T (.ok a : Except Err α) := trivial
theorem df_exc {α : Type} {Q : α → Prop} (e : Exc) : Def Q (throwExc e : Except Err α) := fun _ h => by cases h
theorem df_div {α : Type} {Q : α → Prop} : Def Q (.error .diverge : Except Err α) := fun _ h => by cases h

theorem df_bind {α β : Type} {R : α → Prop} {Q : β → Prop} {x : Except Err α} {f : α → Except Err β} (h : Def R x)
    (hf : ∀ a, x = .ok a → R a → Def Q (f a)) : Def Q (x >>= f) := by
  cases x with
  | ok a => exact hf a rfl h
  | error e => exact h

/-- `df_bind` without a condition on the intermediate result. -/
theorem df_then {α β : Type} {Q : β → Prop} {x : Except Err α} {f : α → Except Err β} (h : Def T x)
    (hf : ∀ a, Def Q (f a)) : Def Q (x >>= f) := df_bind h fun a _ _ => hf a

theorem df_foldlM {α β : Type} {f : β → α → Except Err β} (hf : ∀ b a, Def T (f b a)) (l : List α) : ∀ b, Def T (l.foldlM f b) := by
  induction l with
  | nil => intro b; exact df_t b
  | cons x l ih => intro b; rw [List.foldlM_cons]; exact df_then (hf b x) ih

theorem df_solePort (c : Core V) : Def T c.solePort := by
  unfold Core.solePort
  split
  · exact df_t _
  · exact df_exc _

theorem df_dataMsg (c : Core V) (p : Str) (i : Nat) : Def T (c.dataMsg p i) := by
  unfold Core.dataMsg
  split
  · exact df_exc _
  · split
    · exact df_t _
    · split
      · exact df_t _
      · exact df_exc _

/-- A port that can be read exists. -/
theorem dataMsg_has {c : Core V} {p : Str} {i : Nat} {m : Msg V} (h : c.dataMsg p i = .ok m) : c.dataIn.has p = true := by
  unfold Core.dataMsg at h
  unfold Map.has
  split at h
  · cases h
  · rename_i hx; rw [hx]; rfl

theorem dataLast_has {c : Core V} {p : Str} {m : Msg V} (h : c.dataLast p = .ok m) : c.dataIn.has p = true := by
  unfold Core.dataLast at h
  unfold Map.has
  split at h
  · cases h
  · rename_i hx; rw [hx]; rfl

theorem df_dataLast (c : Core V) (p : Str) : Def T (c.dataLast p) := by
  unfold Core.dataLast
  split
  · exact df_exc _
  · split <;> exact df_t _

theorem df_dataFirst (c : Core V) (p : Str) : Def T (c.dataFirst p) := by
  unfold Core.dataFirst
  split
  · exact df_exc _
  · split <;> exact df_t _

theorem df_dataPort (c : Core V) (p : Str) : Def T (c.dataPort p) := by
  unfold Core.dataPort
  split
  · exact df_exc _
  · exact df_t _

theorem df_firLoop (ms : List (Msg V)) : ∀ (acc : V) (as : List V), Def T (firLoop acc ms as) := by
  induction ms with
  | nil => intro acc as; cases as <;> exact df_t _
  | cons m ms ih => intro acc as; cases as with
    | nil => exact df_exc _
    | cons a as => exact ih _ _

theorem df_constLoop (dt t : UInt64) (v : V) (fuel : Nat) : ∀ next, Def T (constLoop dt t v fuel next) := by
  induction fuel with
  | zero => intro j; exact df_div
  | succ fuel ih =>
    intro j
    unfold constLoop
    split
    · exact df_then (ih _) fun _ => df_t _
    · exact df_t _

/-! ## Function -/

theorem df_pointAt {ps : List (V × V)} {i : Nat} (h : i < ps.length) : Def T (pointAt ps i) := by
  unfold pointAt
  rw [List.getElem?_eq_getElem h]
  exact df_t _

theorem segIndex_lt (x : V) : ∀ (l : List (V × V)) (i : Nat), l ≠ [] → segIndex x l i < i + l.length := by
  intro l
  induction l with
  | nil => intro i h; exact absurd rfl h
  | cons a l ih =>
    intro i _
    cases l with
    | nil => simp [segIndex]
    | cons b l =>
      rw [segIndex]
      split
      · have := ih (i + 1) (by simp)
        simp only [List.length_cons] at this ⊢
        omega
      · simp

theorem df_tangent {ps : List (V × V)} {i : Nat} (h : i < ps.length) (h2 : 2 ≤ ps.length) : Def T (tangent ps i) := by
  unfold tangent
  dsimp only
  have : (if i = 0 then (0, 1) else if i = ps.length - 1 then (i - 1, i) else (i - 1, i + 1)).1 < ps.length ∧
      (if i = 0 then (0, 1) else if i = ps.length - 1 then (i - 1, i) else (i - 1, i + 1)).2 < ps.length := by
    split
    · constructor <;> dsimp only <;> omega
    · split <;> constructor <;> dsimp only <;> omega
  exact df_then (df_pointAt this.1) fun _ => df_then (df_pointAt this.2) fun _ => df_t _

theorem df_functionValue {ps : List (V × V)} (h2 : 2 ≤ ps.length) (t : Interp) (x : V) : Def T (functionValue ps t x) := by
  unfold functionValue
  rw [if_neg (by omega)]
  have hi := segIndex_lt x ps 0 (by intro h; rw [h] at h2; simp at h2)
  refine df_then (df_pointAt (by omega)) fun p0 => ?_
  dsimp only
  cases t with
  | linear =>
    dsimp only
    have hs : (if (decide (segIndex x ps 0 = 0) && Num.lt x p0.1) = true then 0
        else if segIndex x ps 0 = ps.length - 1 then segIndex x ps 0 - 1 else segIndex x ps 0) + 1 < ps.length := by
      split
      · omega
      · split <;> omega
    exact df_then (df_pointAt (by omega)) fun _ => df_then (df_pointAt hs) fun _ => df_t _
  | hermite =>
    dsimp only
    have hs : (if (decide (segIndex x ps 0 = 0) && Num.lt x p0.1) = true then 0
        else if segIndex x ps 0 ≥ ps.length - 2 then ps.length - 2 else segIndex x ps 0) + 1 < ps.length := by
      split
      · omega
      · split <;> omega
    exact df_then (df_pointAt (by omega)) fun _ => df_then (df_pointAt hs) fun _ => df_then (df_tangent (by omega) h2) fun _ =>
      df_then (df_tangent hs h2) fun _ => df_t _

/-! ## Operators whose tables are complete -/

/-- The parts of an operator that undefined behaviour could come from, apart from the buffer of an AutoRegressive. -/
structure Sound (o : Op V) : Prop where
  data : ∀ e ∈ o.core.dataIn, e.2.max ≠ 0
  ctrl : ∀ e ∈ o.core.ctrlIn, e.2.max ≠ 0
  tame : Tame o
  input : ∀ pm last, o.kind = .input pm last → ∀ p, o.core.dataIn.has p = true → pm.has p = true
  output : ∀ pm, o.kind = .output pm → ∀ p, o.core.dataIn.has p = true → pm.has p = true
  join : ∀ pm, o.kind = .join pm → ∀ p, o.core.dataIn.has p = true → pm.has p = true
  demux : ∀ pm, o.kind = .demux pm → ∀ p, o.core.ctrlIn.has p = true → pm.has p = true
  points : ∀ ps t, o.kind = .function ps t → 2 ≤ ps.length
  coeff : ∀ as, o.kind = .autoReg as → ∃ i, o.core.dataIn = [(i1, i)] ∧ i.max = (if as.length = 0 then sizeMax else as.length)

theorem df_inputStep {c : Core V} {pm : Map Str} (h : ∀ p, c.dataIn.has p = true → pm.has p = true) (acc : OpMsg V × Map (Msg V)) (p : Str) :
    Def T (inputStep c pm acc p) := by
  unfold inputStep
  refine df_bind (df_dataMsg c p 0) fun m hm _ => ?_
  obtain ⟨q, hq⟩ := has_find (h p (dataMsg_has hm))
  obtain ⟨out, last⟩ := acc
  dsimp only
  rw [hq]
  dsimp only
  split
  · split <;> exact df_t _
  · exact df_t _

theorem df_procLast (c : Core V) (f : Msg V → Except Err (OpMsg V × Kind V)) (hf : ∀ m, Def T (f m)) : Def T (procLast c f) :=
  df_then (df_solePort c) fun _ => df_then (df_dataLast c _) hf

theorem df_process {o : Op V} (h : Sound o) : Def T o.process := by
  unfold Op.process
  dsimp only
  cases hk : o.kind with
  | input pm last =>
    refine df_then ?_ fun r => df_t _
    exact df_foldlM (fun b a => df_inputStep (h.input pm last hk) b a) _ _
  | output pm =>
    refine df_then (df_foldlM (fun out p => ?_) _ _) fun r => df_t _
    refine df_bind (df_dataLast _ p) fun m hm _ => ?_
    obtain ⟨q, hq⟩ := has_find (h.output pm hk p (dataLast_has hm))
    rw [hq]
    exact df_t _
  | collector => exact df_t _
  | filter f v => exact df_procLast _ _ fun m => df_t _
  | add v => exact df_procLast _ _ fun m => df_t _
  | scale v => exact df_procLast _ _ fun m => df_t _
  | power v => exact df_procLast _ _ fun m => df_t _
  | constant v => exact df_procLast _ _ fun m => df_t _
  | identity => exact df_then (df_solePort _) fun _ => df_then (df_dataFirst _ _) fun _ => df_t _
  | count n => exact df_procLast _ _ fun m => df_t _
  | cumSum a => exact df_procLast _ _ fun m => df_t _
  | difference b =>
    have := h.tame
    simp only [Tame, hk] at this
    obtain ⟨rfl, hc⟩ := this
    refine df_then (df_solePort _) fun _ => df_then (df_dataMsg _ _ _) fun m => df_then (df_dataMsg _ _ _) fun _ => df_then ?_ fun _ => df_t _
    obtain ⟨t, ht⟩ := hc m.time
    simp only [if_true]
    unfold toTimeE
    rw [ht]
    exact df_t _
  | movAvg => exact df_then (df_solePort _) fun _ => df_then (df_dataPort _ _) fun _ => df_then (df_dataLast _ _) fun _ => df_t _
  | stdDev => exact df_then (df_solePort _) fun _ => df_then (df_dataPort _ _) fun _ => df_then (df_dataLast _ _) fun _ => df_t _
  | peak => exact df_then (df_solePort _) fun _ => df_then (df_dataPort _ _) fun _ => df_then (df_dataMsg _ _ _) fun _ => df_t _
  | fir a =>
    exact df_then (df_solePort _) fun _ => df_then (df_dataPort _ _) fun _ => df_then (df_dataLast _ _) fun _ =>
      df_then (df_firLoop _ _ _) fun _ => df_t _
  | timeShift dt n => exact df_procLast _ _ fun m => df_t _
  | constRes dt ne ini lv =>
    refine df_procLast _ _ fun m => ?_
    split
    · exact df_then (df_constLoop _ _ _ _ _) fun r => df_t _
    · exact df_t _
  | cosRes dt carry => have := h.tame; simp [Tame, hk] at this
  | hermRes dt carry before => have := h.tame; simp [Tame, hk] at this
  | function pts t => exact df_procLast _ _ fun m => df_then (df_functionValue (h.points pts t hk) _ _) fun _ => df_t _
  | rsi prev =>
    refine df_then (df_solePort _) fun _ => df_then (df_dataPort _ _) fun _ => ?_
    cases prev with
    | none => exact df_then (df_t _) fun _ => df_then (df_dataLast _ _) fun _ => df_t _
    | some q =>
      exact df_then (df_dataMsg _ _ _) fun _ => df_then (df_dataMsg _ _ _) fun _ => df_then (df_t _) fun _ =>
        df_then (df_dataLast _ _) fun _ => df_t _
  | _ => exact df_t _

/-- `Def` for methods. -/
def DefR {σ α : Type} : Res σ α → Prop
  | .ok _ _ => True
  | .err e _ => ∀ u, e ≠ .ub u

theorem dr_of {σ α β : Type} {R : α → Prop} {x : Except Err α} {e : Err} {s : σ} (h : Def R x) (he : x = .error e) :
    DefR (.err e s : Res σ β) := by
  rw [he] at h; exact h

theorem dr_exc {σ α : Type} (e : Exc) (s : σ) : DefR (.err (.exc e) s : Res σ α) := fun _ h => by cases h

theorem df_readyPorts (c : Core V) : Def T c.readyPorts := by
  unfold Core.readyPorts
  split
  · exact df_t _
  · exact df_exc _

theorem Sound.pending {o : Op V} (h : Sound o) (l : List Str) : Sound { o with core := { o.core with toProcess := l } } :=
  ⟨h.data, h.ctrl, h.tame, h.input, h.output, h.join, h.demux, h.points, h.coeff⟩

theorem dr_execBase {o : Op V} (h : Sound o) : DefR o.execBase := by
  unfold Op.execBase
  split
  · rename_i he; exact dr_of (df_readyPorts _) he
  · dsimp only
    split
    · trivial
    · split
      · rename_i he; exact dr_of (df_process (h.pending _)) he
      · trivial

/-! ## Join -/

theorem df_joinMessages {cm : Map Str} {l : Map (Inp V)} (hl : ∀ e ∈ l, e.2.data ≠ [] ∧ cm.has e.1 = true) :
    ∀ out, Def T (joinMessages cm l out) := by
  induction l with
  | nil => intro out; exact df_t _
  | cons e l ih =>
    obtain ⟨p, i⟩ := e
    intro out
    obtain ⟨h1, h2⟩ := hl _ List.mem_cons_self
    obtain ⟨q, hq⟩ := has_find h2
    rw [joinMessages]
    split
    · rename_i hd; exact absurd hd h1
    · rename_i hn _; dsimp only at hq; rw [hq] at hn; cases hn
    · exact ih (fun e he => hl e (List.mem_cons_of_mem _ he)) _

theorem df_linearLoop {l : Map (Inp V)} (hl : ∀ e ∈ l, e.2.data ≠ []) : ∀ (as : List V) out, Def T (linearLoop l as out) := by
  induction l with
  | nil => intro as out; exact df_t _
  | cons e l ih =>
    obtain ⟨p, i⟩ := e
    intro as out
    rw [linearLoop.eq_def]
    dsimp only
    split
    · rename_i hd; exact absurd hd (hl _ List.mem_cons_self)
    · exact df_exc _
    · exact ih (fun e he => hl e (List.mem_cons_of_mem _ he)) _ _

theorem df_popAll {l : Map (Inp V)} (hl : ∀ e ∈ l, e.2.data ≠ []) : Def T (popAll l) := by
  induction l with
  | nil => exact df_t _
  | cons e l ih =>
    obtain ⟨p, i⟩ := e
    rw [popAll]
    split
    · rename_i hn
      unfold Inp.popSum at hn
      split at hn
      · rename_i hd; exact absurd hd (hl _ List.mem_cons_self)
      · cases hn
    · exact df_then (df_t _) fun _ => df_then (ih fun e he => hl e (List.mem_cons_of_mem _ he)) fun _ => df_t _

theorem df_joinProcess {o : Op V} (h : Sound o) (hl : ∀ e ∈ o.core.dataIn, e.2.data ≠ []) : Def T (joinProcess o) := by
  unfold joinProcess
  split
  · rename_i cm hk
    exact df_joinMessages (fun e he => ⟨hl e he, h.join cm hk _ ((Map.has_iff _ _).2 (List.mem_map.2 ⟨e, he, rfl⟩))⟩) _
  · rename_i b hk
    refine df_then (df_dataMsg _ _ _) fun _ => df_then (df_dataMsg _ _ _) fun _ => ?_
    split <;> exact df_t _
  · exact df_then (df_linearLoop hl _ _) fun _ => df_t _
  · exact df_t _

theorem dropOlder_max (i : Inp V) (t : UInt64) : (i.dropOlder t).max = i.max := by
  unfold Inp.dropOlder
  generalize i.data = l
  generalize i.sum = s
  induction l generalizing s with
  | nil => rfl
  | cons m l ih =>
    rw [Inp.dropOlder.go]
    split
    · exact ih _
    · rfl

theorem dr_execJoin {o : Op V} (h : Sound o) (hna : ∀ as, o.kind ≠ .autoReg as) : DefR o.execJoin := by
  unfold Op.execJoin
  split
  · exact dr_exc _ _
  · split
    · trivial
    · split
      · trivial
      · rename_i ref t _
        dsimp only
        have hs : Sound (⟨{ o.core with dataIn := o.core.dataIn.map fun e => (e.1, if e.1 = ref then e.2 else e.2.dropOlder t) },
            o.kind⟩ : Op V) := by
          have hhas : ∀ p, Map.has (o.core.dataIn.map fun e => (e.1, if e.1 = ref then e.2 else e.2.dropOlder t)) p = o.core.dataIn.has p :=
            has_map (fun e : Str × Inp V => if e.1 = ref then e.2 else e.2.dropOlder t) _
          refine ⟨?_, h.ctrl, h.tame, fun pm last hk p hp => h.input pm last hk p (by rw [← hhas]; exact hp),
            fun pm hk p hp => h.output pm hk p (by rw [← hhas]; exact hp), fun pm hk p hp => h.join pm hk p (by rw [← hhas]; exact hp),
            h.demux, h.points, fun as hk => absurd hk (hna as)⟩
          intro e he
          obtain ⟨x, hx, rfl⟩ := List.mem_map.1 he
          dsimp only
          split
          · exact h.data x hx
          · rw [dropOlder_max]; exact h.data x hx
        split
        · rename_i hr
          have hne : ∀ e ∈ o.core.dataIn.map (fun e : Str × Inp V => (e.1, if e.1 = ref then e.2 else e.2.dropOlder t)), e.2.data ≠ [] := by
            intro e he hd
            have := List.all_eq_true.1 hr e he
            obtain ⟨p, i⟩ := e
            dsimp only at hd this
            rw [hd] at this
            cases this
          split
          · rename_i he; exact dr_of (df_joinProcess hs hne) he
          · split
            · rename_i he; exact dr_of (df_popAll hne) he
            · trivial
        · trivial

/-! ## Demultiplexer -/

theorem df_demuxScan (t : UInt64) (l : Map (Inp V)) : Def T (demuxScan t l).2 := by
  induction l with
  | nil => exact df_t _
  | cons e l ih =>
    obtain ⟨p, i⟩ := e
    rw [demuxScan]
    dsimp only
    split
    · exact ih
    · split
      · dsimp only
        cases h : (demuxScan t l).2 with
        | ok n => exact df_t _
        | error e => rw [h] at ih; exact ih
      · exact df_exc _

theorem demuxScan_keys (t : UInt64) (l : Map (Inp V)) : (demuxScan t l).1.map (·.1) = l.map (·.1) := by
  induction l with
  | nil => rfl
  | cons e l ih =>
    obtain ⟨p, i⟩ := e
    rw [demuxScan]
    dsimp only
    split
    · simp [ih]
    · split
      · simp [ih]
      · simp

/-- As many instructions as ports: no control buffer is empty. -/
theorem demuxScan_full (t : UInt64) (l : Map (Inp V)) : ∀ n, (demuxScan t l).2 = .ok n → n ≤ l.length ∧
    (n = l.length → ∀ e ∈ (demuxScan t l).1, e.2.data ≠ []) := by
  induction l with
  | nil => intro n h; cases h; exact ⟨Nat.le_refl _, fun _ e he => by cases he⟩
  | cons e l ih =>
    obtain ⟨p, i⟩ := e
    intro n h
    rw [demuxScan] at h ⊢
    dsimp only at h ⊢
    split at h
    · obtain ⟨h1, _⟩ := ih n h
      simp only [List.length_cons]
      exact ⟨by omega, fun hn => absurd hn (by omega)⟩
    · rename_i m ms hd
      split at h
      · rename_i hc
        rw [if_pos hc]
        cases hr : (demuxScan t l).2 with
        | error e => simp only [hr] at h; cases h
        | ok k =>
          simp only [hr] at h
          cases h
          obtain ⟨h1, h2⟩ := ih k hr
          simp only [List.length_cons]
          refine ⟨by omega, fun hn e he => ?_⟩
          rcases List.mem_cons.1 he with rfl | he
          · dsimp only; rw [hd]; simp
          · exact h2 (by omega) e he
      · cases h

theorem df_demuxMessages {cm : Map Str} (m : Msg V) {l : Map (Inp V)} (hl : ∀ e ∈ l, e.2.data ≠ [] ∧ cm.has e.1 = true) :
    ∀ out, Def T (demuxMessages cm m l out) := by
  induction l with
  | nil => intro out; exact df_t _
  | cons e l ih =>
    obtain ⟨p, i⟩ := e
    intro out
    obtain ⟨h1, h2⟩ := hl _ List.mem_cons_self
    obtain ⟨q, hq⟩ := has_find h2
    have ih := ih fun e he => hl e (List.mem_cons_of_mem _ he)
    rw [demuxMessages]
    split
    · rename_i hd; exact absurd hd h1
    · split
      · rw [hq]; exact ih _
      · exact ih _

theorem dr_execDemux {o : Op V} {cm : Map Str} (h : Sound o) (hk : o.kind = .demux cm) : DefR (o.execDemux cm) := by
  unfold Op.execDemux
  split
  · split
    · trivial
    · rename_i m ms _
      dsimp only
      split
      · rename_i he; exact dr_of (df_demuxScan _ _) he
      · rename_i n hn
        split
        · rename_i hl
          have hlen : (demuxScan m.time o.core.ctrlIn).1.length = o.core.ctrlIn.length := by
            have := congrArg List.length (demuxScan_keys m.time o.core.ctrlIn)
            simpa using this
          have hfull := (demuxScan_full m.time o.core.ctrlIn n hn).2 (by omega)
          split
          · rename_i he
            refine dr_of (df_demuxMessages m (fun e he => ⟨hfull e he, h.demux cm hk _ ((Map.has_iff _ _).2 ?_)⟩) _) he
            have : e.1 ∈ (demuxScan m.time o.core.ctrlIn).1.map (·.1) := List.mem_map.2 ⟨e, he, rfl⟩
            rw [demuxScan_keys] at this
            exact this
          · split
            · rename_i he; exact dr_of (df_popAll hfull) he
            · trivial
        · trivial
  · exact dr_exc _ _

theorem dr_execVariable (o : Op V) (v : V) (ini : Bool) : DefR (o.execVariable v ini) := by
  unfold Op.execVariable
  split
  · split
    · trivial
    · trivial
    · dsimp only
      split
      · split
        · exact dr_exc _ _
        · trivial
      · split
        · trivial
        · split <;> trivial
  · exact dr_exc _ _

/-! ## AutoRegressive -/

/-- The buffer of an AutoRegressive that may be executed `c` times: it has been filled up when the first message came, holds one more message than the
coefficients for every execution to come, and never receives anything when there are no coefficients. -/
def Stocked (c : Nat) (o : Op V) : Prop :=
  ∀ as, o.kind = .autoReg as → ∀ e ∈ o.core.dataIn,
    (e.2.data = [] ∧ c = 0) ∨ (as ≠ [] ∧ as.length + c ≤ e.2.data.length)

theorem Stocked.mono {c c' : Nat} {o : Op V} (h : Stocked c o) (hc : c' ≤ c) : Stocked c' o := by
  intro as hk e he
  rcases h as hk e he with ⟨h1, h2⟩ | ⟨h1, h2⟩
  · exact Or.inl ⟨h1, by omega⟩
  · exact Or.inr ⟨h1, by omega⟩

theorem df_arLoop : ∀ (n : Nat) (acc : V) (ms : List (Msg V)) (as : List V), n ≤ as.length → Def T (arLoop n acc ms as) := by
  intro n
  induction n with
  | zero => intro acc ms as _; exact df_t _
  | succ n ih =>
    intro acc ms as h
    rw [arLoop.eq_def]
    dsimp only
    split
    · simp at h
    · split
      · exact df_exc _
      · exact ih _ _ _ (by simpa using h)

/-- An AutoRegressive with stock can be executed. -/
theorem execAR_stock {c : Nat} {o : Op V} {as : List V} (h : Sound o) (hk : o.kind = .autoReg as) (hc : Stocked (c + 1) o) :
    DefR (o.execAR as) ∧ Stocked c (o.execAR as).state := by
  obtain ⟨i, hi, hm⟩ := h.coeff as hk
  have hst := hc as hk (i1, i) (by rw [hi]; simp)
  rcases hst with ⟨_, h0⟩ | ⟨hne, hlen⟩
  · omega
  · dsimp only at hlen
    have hpos : as.length ≠ 0 := by simpa using hne
    rw [if_neg hpos] at hm
    unfold Op.execAR
    rw [hi]
    dsimp only
    cases hl : i.data.getLast? with
    | none => rw [List.getLast?_eq_none_iff] at hl; rw [hl] at hlen; simp at hlen
    | some l =>
      dsimp only
      cases ha : arLoop i.max l.value i.data as with
      | error e => exact ⟨dr_of (df_arLoop _ _ _ _ (by omega)) ha, hc.mono (by omega)⟩
      | ok v =>
        dsimp only
        have ht : i.data.tail ≠ [] := by
          intro ht
          have := congrArg List.length ht
          simp only [List.length_tail, List.length_nil] at this
          omega
        cases htl : i.data.tail with
        | nil => exact absurd htl ht
        | cons x xs =>
          refine ⟨trivial, ?_⟩
          intro as' hk' e he
          dsimp only [Res.state] at hk' he
          rw [hk] at hk'
          cases hk'
          simp only [List.mem_singleton] at he
          subst he
          refine Or.inr ⟨hne, ?_⟩
          dsimp only
          have := congrArg List.length htl
          simp only [List.length_tail, List.length_cons, List.length_append, List.length_dropLast, List.length_nil] at this ⊢
          omega

theorem kind_of_execData {o : Op V} (hw : o.core.WF) {as : List V} (hk : o.execData.state.kind = .autoReg as) : o.kind = .autoReg as := by
  have hf : o.execData.state.fresh = o.fresh := by
    have := act_fresh o hw .execData
    simp only [act] at this
    cases h : o.execData <;> rw [h] at this <;> exact this
  have hf : o.execData.state.kind.fresh = o.kind.fresh := congrArg Op.kind hf
  rw [hk] at hf
  cases ho : o.kind <;> rw [ho] at hf <;> simp [Kind.fresh] at hf
  rw [hf]

/-- Executing an operator. -/
theorem execData_stock {c : Nat} {o : Op V} (h : Sound o) (hw : o.core.WF) (hc : Stocked (c + 1) o) :
    DefR o.execData ∧ Stocked c o.execData.state := by
  by_cases hk : ∃ as, o.kind = .autoReg as
  · obtain ⟨as, hk⟩ := hk
    have : o.execData = o.execAR as := by unfold Op.execData; rw [hk]
    rw [this]
    exact execAR_stock h hk hc
  · refine ⟨?_, fun as hk' => absurd ⟨as, kind_of_execData hw hk'⟩ hk⟩
    have hb := dr_execBase h
    have hj := dr_execJoin h fun as hk' => hk ⟨as, hk'⟩
    unfold Op.execData
    cases hk' : o.kind with
    | autoReg as => exact absurd ⟨as, hk'⟩ hk
    | join => exact hj
    | binary => exact hj
    | linear => exact hj
    | demux cm => exact dr_execDemux h hk'
    | «variable» v ini => exact dr_execVariable o v ini
    | _ => exact hb

theorem execCtrl_stock {c : Nat} {o : Op V} (h : Sound o) (hw : o.core.WF) (hc : Stocked c o) :
    DefR o.execCtrl ∧ Stocked c o.execCtrl.state := by
  have hf : o.execCtrl.state.fresh = o.fresh := by
    have := act_fresh o hw .execCtrl
    simp only [act] at this
    cases h : o.execCtrl <;> rw [h] at this <;> exact this
  have hf : o.execCtrl.state.kind.fresh = o.kind.fresh := congrArg Op.kind hf
  unfold Op.execCtrl at hf ⊢
  cases hk : o.kind with
  | demux cm =>
    refine ⟨dr_execDemux h hk, fun as hk' => ?_⟩
    simp only [hk] at hf hk'
    rw [hk'] at hf
    simp [Kind.fresh] at hf
  | «variable» v ini =>
    refine ⟨dr_execVariable o v ini, fun as hk' => ?_⟩
    simp only [hk] at hf hk'
    rw [hk'] at hf
    simp [Kind.fresh] at hf
  | _ => exact ⟨trivial, hc⟩

/-! ## receiveData, receiveControl -/

theorem df_receive {i : Inp V} (h : i.max ≠ 0) (m : Msg V) : Def T (i.receive m) := by
  unfold Inp.receive
  split
  · rename_i hl
    unfold Inp.popSum
    split
    · rename_i hn
      split at hn
      · rename_i hd; rw [hd] at hl; exact absurd hl h
      · cases hn
    · exact df_t _
  · split
    · exact df_exc _
    · exact df_t _

theorem df_recvData {o : Op V} (h : Sound o) (m : Msg V) (p : Str) : Def T (o.recvData m p) := by
  unfold Op.recvData
  have hb : Def T (o.core.receiveDataBase m p) := by
    unfold Core.receiveDataBase
    dsimp only
    split
    · exact df_exc _
    · rename_i hi; exact df_then (df_receive (h.data _ (find?_mem hi)) _) fun _ => df_t _
  have hj : Def T (o.core.receiveDataJoin m p) := by
    unfold Core.receiveDataJoin
    split
    · exact df_exc _
    · split
      · exact df_exc _
      · exact df_t _
  have hd : Def T (o.core.receiveDataDemux m p) := by
    unfold Core.receiveDataDemux
    dsimp only
    split
    · exact df_exc _
    · exact df_t _
  have ha : Def T (o.core.receiveDataAR m p) := by
    unfold Core.receiveDataAR
    dsimp only
    split
    · exact df_exc _
    · split
      · exact df_div
      · exact df_t _
  cases hk : o.kind with
  | autoReg => exact df_then ha fun _ => df_t _
  | _ => first | exact df_then hj fun _ => df_t _ | exact df_then hd fun _ => df_t _ | exact df_then hb fun _ => df_t _

theorem df_recvCtrl {o : Op V} (h : Sound o) (m : Msg V) (p : Str) : Def T (o.recvCtrl m p) := by
  unfold Op.recvCtrl
  have hb : Def T (o.core.receiveCtrlBase m p) := by
    unfold Core.receiveCtrlBase
    dsimp only
    split
    · exact df_exc _
    · rename_i hi; exact df_then (df_receive (h.ctrl _ (find?_mem hi)) _) fun _ => df_t _
  have hd : Def T (o.core.receiveCtrlDemux m p) := by
    unfold Core.receiveCtrlDemux
    dsimp only
    split
    · exact df_exc _
    · exact df_t _
  cases hk : o.kind with
  | _ => first | exact df_then hd fun _ => df_t _ | exact df_then hb fun _ => df_t _

/-- Receiving a message adds to the stock. -/
theorem recvData_stock {c : Nat} {o o' : Op V} (h : Sound o) (hc : Stocked c o) {m : Msg V} {p : Str} (hr : o.recvData m p = .ok o') :
    Stocked (c + 1) o' := by
  intro as hk
  have hk0 : o.kind = .autoReg as := by
    obtain ⟨_, _, rfl⟩ := recvData_cases hr
    exact hk
  obtain ⟨i, hi, hm⟩ := h.coeff as hk0
  have hst := hc as hk0 (i1, i) (by rw [hi]; simp)
  unfold Op.recvData at hr
  rw [hk0] at hr
  dsimp only at hr
  obtain ⟨cc, h1, h2⟩ := bind_eq_ok.1 hr
  cases h2
  unfold Core.receiveDataAR at h1
  dsimp only at h1
  split at h1
  · cases h1
  · rename_i x hx
    split at h1
    · cases h1
    · rename_i hnd
      cases h1
      rw [hi, Map.find?_cons] at hx
      split at hx
      · rename_i hp
        cases hx
        intro e he
        dsimp only at he
        rw [hi, hp] at he
        simp only [Map.put, if_true, List.mem_singleton] at he
        subst he
        dsimp only at hst ⊢
        have hne : as ≠ [] := by
          rintro rfl
          rcases hst with ⟨h1, _⟩ | ⟨h1, _⟩
          · apply hnd
            simp only [List.length_nil, if_true] at hm
            rw [h1, hm]
            exact ⟨rfl, by simp [sizeMax]⟩
          · exact h1 rfl
        have hpos : as.length ≠ 0 := by simpa using hne
        rw [if_neg hpos] at hm
        refine Or.inr ⟨hne, ?_⟩
        simp only [List.length_append, List.length_replicate, List.length_cons, List.length_nil]
        rcases hst with ⟨h1, h2⟩ | ⟨_, h2⟩ <;> omega
      · cases hx

theorem recvCtrl_stock {c : Nat} {o o' : Op V} (hc : Stocked c o) {m : Msg V} {p : Str} (hr : o.recvCtrl m p = .ok o') : Stocked c o' := by
  obtain ⟨cc, h1, rfl⟩ := recvCtrl_cases hr
  intro as hk e he
  have hd : cc.dataIn = o.core.dataIn := by
    rcases h1 with h1 | h1
    · unfold Core.receiveCtrlDemux at h1
      dsimp only at h1
      split at h1
      · cases h1
      · cases h1; rfl
    · unfold Core.receiveCtrlBase at h1
      dsimp only at h1
      split at h1
      · cases h1
      · obtain ⟨_, _, h2⟩ := bind_eq_ok.1 h1
        cases h2; rfl
  dsimp only at he
  rw [hd] at he
  exact hc as hk e he

end Rtbot
