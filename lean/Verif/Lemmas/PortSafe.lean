import Verif.Lemmas.LocalEnd

set_option linter.unusedSectionVars false

/-! # Operators use declared ports only

An operator whose port tables are consistent never fails with "non existing port" in one of its own methods and emits only on output
ports it declares. -/

namespace Rtbot
variable {V : Type} [Num V]
open Spec

/-- The result satisfies `Q`; an error is not "non existing port". -/
def Safe {α : Type} (Q : α → Prop) : Except Err α → Prop
  | .ok a => Q a
  | .error e => e ≠ .exc .badPort

/-- No condition. -/
def T {α : Type} (_ : α) : Prop := True

theorem sf_ok {α : Type} {Q : α → Prop} {a : α} (h : Q a) : Safe Q (.ok a : Except Err α) := h
theorem sf_t {α : Type} (a : α) : Safe T (.ok a : Except Err α) := trivial
theorem sf_exc {α : Type} {Q : α → Prop} {e : Exc} (h : e ≠ .badPort) : Safe Q (throwExc e : Except Err α) :=
  fun h' => by cases h'; exact h rfl
theorem sf_ub {α : Type} {Q : α → Prop} (u : UB) : Safe Q (undefined u : Except Err α) := fun h => by cases h

theorem sf_bind {α β : Type} {R : α → Prop} {Q : β → Prop} {x : Except Err α} {f : α → Except Err β} (h : Safe R x)
    (hf : ∀ a, R a → Safe Q (f a)) : Safe Q (x >>= f) := by
  cases x with
  | ok a => exact hf a h
  | error e => exact h

/-- `sf_bind` without a condition on the intermediate result. -/
theorem sf_then {α β : Type} {Q : β → Prop} {x : Except Err α} {f : α → Except Err β} (h : Safe T x)
    (hf : ∀ a, Safe Q (f a)) : Safe Q (x >>= f) := sf_bind h fun a _ => hf a

theorem sf_foldlM {α β : Type} {Q : β → Prop} {f : β → α → Except Err β} (l : List α) (hf : ∀ b, ∀ a ∈ l, Q b → Safe Q (f b a)) :
    ∀ b, Q b → Safe Q (l.foldlM f b) := by
  induction l with
  | nil => intro b hb; exact hb
  | cons x l ih =>
    intro b hb
    rw [List.foldlM_cons]
    exact sf_bind (hf b x (by simp) hb) fun b' hb' => ih (fun b a ha => hf b a (List.mem_cons_of_mem _ ha)) b' hb'

theorem has_find {β : Type} {m : Map β} {p : Str} (h : m.has p = true) : ∃ i, m.find? p = some i := Option.isSome_iff_exists.1 h

theorem sf_solePort (c : Core V) : Safe (fun p => c.dataIn.has p = true) c.solePort := by
  unfold Core.solePort
  split
  · rename_i k i h
    rw [h]
    simp [Safe, Map.has]
  · exact sf_exc (by simp)

section ports
variable {c : Core V} {p : Str} (h : c.dataIn.has p = true)
include h

theorem sf_dataMsg (i : Nat) : Safe T (c.dataMsg p i) := by
  obtain ⟨x, hx⟩ := has_find h
  unfold Core.dataMsg
  rw [hx]
  dsimp only
  split
  · exact sf_t _
  · split
    · exact sf_t _
    · exact sf_exc (by simp)

theorem sf_dataLast : Safe T (c.dataLast p) := by
  obtain ⟨x, hx⟩ := has_find h
  unfold Core.dataLast
  rw [hx]
  dsimp only
  split <;> exact sf_t _

theorem sf_dataFirst : Safe T (c.dataFirst p) := by
  obtain ⟨x, hx⟩ := has_find h
  unfold Core.dataFirst
  rw [hx]
  dsimp only
  split <;> exact sf_t _

theorem sf_dataPort : Safe T (c.dataPort p) := by
  obtain ⟨x, hx⟩ := has_find h
  unfold Core.dataPort
  rw [hx]
  exact sf_t _

end ports

theorem sf_toTime (x : V) : Safe T (toTimeE x) := by
  unfold toTimeE
  split
  · exact sf_t _
  · exact sf_ub _

theorem sf_firLoop (ms : List (Msg V)) : ∀ (acc : V) (as : List V), Safe T (firLoop acc ms as) := by
  induction ms with
  | nil => intro acc as; cases as <;> exact sf_t _
  | cons m ms ih => intro acc as; cases as with
    | nil => exact sf_exc (by simp)
    | cons a as => exact ih _ _

theorem sf_constLoop (dt t : UInt64) (v : V) (fuel : Nat) : ∀ next, Safe T (constLoop dt t v fuel next) := by
  induction fuel with
  | zero => intro j hh; cases hh
  | succ fuel ih =>
    intro j
    unfold constLoop
    split
    · exact sf_then (ih _) fun _ => sf_t _
    · exact sf_t _

theorem sf_gridLoop (d dt carry : UInt64) (fuel : Nat) : ∀ j, Safe T (gridLoop d dt carry fuel j) := by
  induction fuel with
  | zero =>
    intro j
    unfold gridLoop
    dsimp only
    split
    · exact sf_ub _
    · exact sf_t _
  | succ fuel ih =>
    intro j
    unfold gridLoop
    dsimp only
    split
    · exact sf_then (ih _) fun _ => sf_t _
    · exact sf_t _

theorem sf_lsSums (s : UInt64 × V × V × UInt64) (m : Msg V) : Safe T (lsSums s m) := by
  unfold lsSums
  exact sf_then (sf_toTime _) fun _ => sf_t _

theorem sf_leastSquares (ms : List (Msg V)) : Safe T (leastSquares ms) := by
  unfold leastSquares
  refine sf_then (sf_foldlM ms (fun s m _ _ => sf_lsSums s m) _ trivial) fun _ => ?_
  refine sf_then (sf_toTime _) fun _ => ?_
  split
  · split
    · exact sf_t _
    · exact sf_exc (by simp)
  · exact sf_t _

theorem sf_makeBefore {c : Core V} {p : Str} (h : c.dataIn.has p = true) : Safe T (makeBefore c p) := by
  unfold makeBefore
  exact sf_then (sf_dataPort h) fun i => sf_then (sf_leastSquares _) fun _ => sf_then (sf_dataMsg h 0) fun _ =>
    sf_then (sf_toTime _) fun _ => sf_t _

theorem sf_lookAt {c : Core V} {p : Str} (h : c.dataIn.has p = true) (frm : Nat) (dt carry : UInt64) (before : Option (Msg V)) :
    Safe T (lookAt c p frm dt carry before) := by
  unfold lookAt
  refine sf_then (sf_dataMsg h _) fun b => sf_then (sf_dataMsg h _) fun a => ?_
  refine sf_then (sf_gridLoop _ _ _ _ _) fun _ => ?_
  dsimp only
  split
  · exact sf_t _
  · cases frm with
    | zero => cases before with
      | none => exact sf_then (sf_then (sf_makeBefore h) fun _ => sf_t _) fun _ => sf_then (sf_dataMsg h _) fun _ => sf_t _
      | some z => exact sf_then (sf_t _) fun _ => sf_then (sf_dataMsg h _) fun _ => sf_t _
    | succ f => exact sf_then (sf_dataMsg h _) fun _ => sf_then (sf_t _) fun _ => sf_then (sf_dataMsg h _) fun _ => sf_t _

theorem sf_pointAt (ps : List (V × V)) (i : Nat) : Safe T (pointAt ps i) := by
  unfold pointAt
  split
  · exact sf_t _
  · exact sf_ub _

theorem sf_tangent (ps : List (V × V)) (i : Nat) : Safe T (tangent ps i) := by
  unfold tangent
  exact sf_then (sf_pointAt _ _) fun _ => sf_then (sf_pointAt _ _) fun _ => sf_t _

theorem sf_functionValue (ps : List (V × V)) (t : Interp) (x : V) : Safe T (functionValue ps t x) := by
  unfold functionValue
  split
  · exact sf_ub _
  · refine sf_then (sf_pointAt _ _) fun _ => ?_
    cases t with
    | linear => exact sf_then (sf_pointAt _ _) fun _ => sf_then (sf_pointAt _ _) fun _ => sf_t _
    | hermite =>
      exact sf_then (sf_pointAt _ _) fun _ => sf_then (sf_pointAt _ _) fun _ => sf_then (sf_tangent _ _) fun _ =>
        sf_then (sf_tangent _ _) fun _ => sf_t _

/-! ## Outputs -/

/-- The values of a map. -/
def Map.vals {β : Type} (m : Map β) : List β := m.map fun e => e.2

/-- The output ports the methods of an operator use. -/
def outNames : Kind V → List Str
  | .input pm _ | .output pm | .join pm | .demux pm => pm.vals
  | .collector | .composite _ _ | .pipeline _ _ _ => []
  | _ => [o1]

/-- In key order, with ports among `names` and without empty lists. -/
structure Outs (names : List Str) (out : OpMsg V) : Prop where
  sorted : out.Sorted
  sub : ∀ q ∈ out.keys, q ∈ names
  full : ∀ e ∈ out, e.2 ≠ []

theorem outs_nil (names : List Str) : Outs names ([] : OpMsg V) := ⟨.nil, by simp [Map.keys], by simp⟩
theorem outs_single (m : Msg V) : Outs [o1] (single m) :=
  ⟨by simp [single, Map.Sorted, Map.keys], by simp [single, Map.keys], by simp [single]⟩
theorem outs_list (ms : List (Msg V)) : Outs [o1] (if ms = [] then ([] : OpMsg V) else [(o1, ms)]) := by
  split
  · exact outs_nil _
  · rename_i h; exact ⟨by simp [Map.Sorted, Map.keys], by simp [Map.keys], by simpa using h⟩
theorem outs_ite (b : Bool) (m : Msg V) : Outs [o1] (if b then single m else []) := by
  split
  · exact outs_single _
  · exact outs_nil _

theorem mem_put {β : Type} {m : Map β} {k : Str} {v : β} {e : Str × β} (h : e ∈ m.put k v) : e ∈ m ∨ e = (k, v) := by
  induction m with
  | nil => simp only [Map.put, List.mem_singleton] at h; exact Or.inr h
  | cons x m ih =>
    obtain ⟨k', v'⟩ := x
    simp only [Map.put] at h
    split at h
    · rcases List.mem_cons.1 h with h | h
      · exact Or.inr h
      · exact Or.inl (List.mem_cons_of_mem _ h)
    · split at h
      · rcases List.mem_cons.1 h with h | h
        · exact Or.inr h
        · exact Or.inl h
      · rcases List.mem_cons.1 h with h | h
        · exact Or.inl (by rw [h]; simp)
        · rcases ih h with h | h
          · exact Or.inl (List.mem_cons_of_mem _ h)
          · exact Or.inr h

theorem mem_emplace {β : Type} {m : Map β} {k : Str} {v : β} {e : Str × β} (h : e ∈ m.emplace k v) : e ∈ m ∨ e = (k, v) := by
  unfold Map.emplace at h
  split at h
  · exact Or.inl h
  · exact mem_put h

theorem Outs.emplace {names : List Str} {out : OpMsg V} (h : Outs names out) {q : Str} (hq : q ∈ names) (m : Msg V) :
    Outs names (out.emplace q [m]) := by
  refine ⟨h.sorted.emplace _ _, fun r hr => ?_, fun e he => ?_⟩
  · obtain ⟨e, he, rfl⟩ := List.mem_map.1 hr
    rcases mem_emplace he with he | rfl
    · exact h.sub _ (List.mem_map.2 ⟨e, he, rfl⟩)
    · exact hq
  · rcases mem_emplace he with he | rfl
    · exact h.full e he
    · simp

theorem sf_procLast (c : Core V) {Q : OpMsg V × Kind V → Prop} (f : Msg V → Except Err (OpMsg V × Kind V)) (hf : ∀ m, Safe Q (f m)) :
    Safe Q (procLast c f) :=
  sf_bind (sf_solePort c) fun _ h => sf_then (sf_dataLast h) hf

theorem value_mem {pm : Map Str} {p q : Str} (h : pm.find? p = some q) : q ∈ pm.vals :=
  List.mem_map.2 ⟨_, find?_mem h, rfl⟩

theorem sf_inputStep {c : Core V} {p : Str} (h : c.dataIn.has p = true) (pm : Map Str) (acc : OpMsg V × Map (Msg V))
    (ha : Outs pm.vals acc.1) : Safe (fun r => Outs pm.vals r.1) (inputStep c pm acc p) := by
  unfold inputStep
  refine sf_then (sf_dataMsg h 0) fun m => ?_
  obtain ⟨out, last⟩ := acc
  dsimp only
  have hsend : Safe (fun r : OpMsg V × Map (Msg V) => Outs pm.vals r.1) (match pm.find? p with
    | none => undefined .endDeref
    | some q => .ok (out.emplace q [m], (last.erase p).emplace p m)) := by
    split
    · exact sf_ub _
    · rename_i q hq; exact ha.emplace (value_mem hq) m
  split
  · split
    · exact hsend
    · exact ha
  · exact hsend

/-- `toProcess` holds data ports. -/
def Core.Pending (c : Core V) : Prop := ∀ p ∈ c.toProcess, c.dataIn.has p = true

theorem sf_process (o : Op V) (hp : o.core.Pending) : Safe (fun r => Outs (outNames o.kind) r.1) o.process := by
  unfold Op.process
  dsimp only
  cases hk : o.kind with
  | input pm last =>
    refine sf_bind (R := fun r : OpMsg V × Map (Msg V) => Outs pm.vals r.1) ?_ fun r hr => sf_ok hr
    exact sf_foldlM _ (fun b a ha hb => sf_inputStep (hp a ha) pm b hb) _ (outs_nil _)
  | output pm =>
    refine sf_bind (R := fun r => Outs pm.vals r) (sf_foldlM _ (fun out p hpm hout => ?_) _ (outs_nil _)) fun r hr => sf_ok hr
    refine sf_then (sf_dataLast (hp p hpm)) fun m => ?_
    split
    · exact sf_ub _
    · rename_i q hq; exact hout.emplace (value_mem hq) m
  | collector => exact outs_nil _
  | filter f v => exact sf_procLast _ _ fun m => outs_ite _ _
  | add v => exact sf_procLast _ _ fun m => outs_single _
  | scale v => exact sf_procLast _ _ fun m => outs_single _
  | power v => exact sf_procLast _ _ fun m => outs_single _
  | constant v => exact sf_procLast _ _ fun m => outs_single _
  | identity => exact sf_bind (sf_solePort _) fun _ h => sf_then (sf_dataFirst h) fun _ => outs_single _
  | count n => exact sf_procLast _ _ fun m => outs_single _
  | cumSum a => exact sf_procLast _ _ fun m => outs_single _
  | difference b =>
    exact sf_bind (sf_solePort _) fun _ h => sf_then (sf_dataMsg h _) fun _ => sf_then (sf_dataMsg h _) fun _ =>
      sf_then (sf_toTime _) fun _ => outs_single _
  | movAvg =>
    exact sf_bind (sf_solePort _) fun _ h => sf_then (sf_dataPort h) fun _ => sf_then (sf_dataLast h) fun _ => outs_single _
  | stdDev =>
    exact sf_bind (sf_solePort _) fun _ h => sf_then (sf_dataPort h) fun _ => sf_then (sf_dataLast h) fun _ => outs_single _
  | peak =>
    refine sf_bind (sf_solePort _) fun _ h => sf_then (sf_dataPort h) fun _ => sf_then (sf_dataMsg h _) fun _ => ?_
    refine sf_ok ?_
    dsimp only
    split
    · exact outs_nil _
    · exact outs_single _
  | fir a =>
    exact sf_bind (sf_solePort _) fun _ h => sf_then (sf_dataPort h) fun _ => sf_then (sf_dataLast h) fun _ =>
      sf_then (sf_firLoop _ _ _) fun _ => outs_single _
  | timeShift dt n => exact sf_procLast _ _ fun m => outs_single _
  | constRes dt ne ini lv =>
    refine sf_procLast _ _ fun m => ?_
    split
    · refine sf_then (sf_constLoop _ _ _ _ _) fun r => ?_
      exact outs_list _
    · exact outs_nil _
  | cosRes dt carry =>
    exact sf_bind (sf_solePort _) fun _ h => sf_then (sf_dataMsg h _) fun _ => sf_then (sf_dataMsg h _) fun _ =>
      sf_then (sf_gridLoop _ _ _ _ _) fun _ => outs_list _
  | hermRes dt carry before =>
    refine sf_bind (sf_solePort _) fun _ h => ?_
    cases before with
    | none =>
      exact sf_then (sf_lookAt h _ _ _ _) fun _ => sf_then (sf_lookAt h _ _ _ _) fun _ => sf_then (sf_t _) fun _ => outs_list _
    | some z => exact sf_then (sf_lookAt h _ _ _ _) fun _ => outs_list _
  | function pts t => exact sf_procLast _ _ fun m => sf_then (sf_functionValue _ _ _) fun _ => outs_single _
  | rsi prev =>
    refine sf_bind (sf_solePort _) fun _ h => sf_then (sf_dataPort h) fun _ => ?_
    cases prev with
    | none => exact sf_then (sf_t _) fun _ => sf_then (sf_dataLast h) fun _ => outs_single _
    | some q =>
      exact sf_then (sf_dataMsg h _) fun _ => sf_then (sf_dataMsg h _) fun _ => sf_then (sf_t _) fun _ =>
        sf_then (sf_dataLast h) fun _ => outs_single _
  | _ => exact outs_nil _

/-! ## executeData, executeControl -/

/-- `Safe` for methods. -/
def SafeR {σ α : Type} (Q : α → Prop) : Res σ α → Prop
  | .ok a _ => Q a
  | .err e _ => e ≠ .exc .badPort

theorem sr_of {σ α β : Type} {Q : β → Prop} {R : α → Prop} {x : Except Err α} {e : Err} {s : σ} (h : Safe R x) (he : x = .error e) :
    SafeR Q (.err e s : Res σ β) := by
  rw [he] at h; exact h

theorem sr_execBase (o : Op V) (hp : o.core.Pending) : SafeR (Outs (outNames o.kind)) o.execBase := by
  have h1 : o.core.readyPorts = .ok (o.core.toProcess.filter fun p => match o.core.dataIn.find? p with
      | some i => i.max ≤ i.data.length
      | none => false) := by
    unfold Core.readyPorts
    have : o.core.toProcess.all o.core.isData = true := List.all_eq_true.2 hp
    rw [if_pos this]
    rfl
  unfold Op.execBase
  rw [h1]
  dsimp only
  split
  · exact outs_nil _
  · have := sf_process ⟨{ o.core with toProcess := o.core.toProcess.filter fun p => match o.core.dataIn.find? p with
      | some i => i.max ≤ i.data.length
      | none => false }, o.kind⟩ (fun p hpm => hp p (List.mem_filter.1 hpm).1)
    split
    · rename_i he; exact sr_of this he
    · rename_i he; rw [he] at this; exact this

theorem sf_joinMessages (cm : Map Str) (l : Map (Inp V)) : ∀ out, Outs cm.vals out → Safe (Outs cm.vals) (joinMessages cm l out) := by
  induction l with
  | nil => intro out h; exact h
  | cons e l ih =>
    obtain ⟨p, i⟩ := e
    intro out h
    rw [joinMessages]
    split
    · exact sf_ub _
    · exact sf_ub _
    · rename_i hq; exact ih _ (h.emplace (value_mem hq) _)

theorem sf_linearLoop (l : Map (Inp V)) : ∀ (as : List V) out, Safe T (linearLoop l as out) := by
  induction l with
  | nil => intro as out; exact sf_t _
  | cons e l ih =>
    obtain ⟨p, i⟩ := e
    intro as out
    rw [linearLoop.eq_def]
    dsimp only
    split
    · exact sf_ub _
    · exact sf_exc (by simp)
    · exact ih _ _

theorem sf_popAll (l : Map (Inp V)) : Safe T (popAll l) := by
  induction l with
  | nil => exact sf_t _
  | cons e l ih =>
    obtain ⟨p, i⟩ := e
    rw [popAll]
    split
    · exact sf_then (sf_ub _) fun _ => sf_then ih fun _ => sf_t _
    · exact sf_then (sf_t _) fun _ => sf_then ih fun _ => sf_t _

/-- The two ports a BinaryJoin reads exist. -/
def BinaryPorts (o : Op V) : Prop := ∀ b, o.kind = .binary b → o.core.dataIn.has i1 = true ∧ o.core.dataIn.has i2 = true

theorem sf_joinProcess (o : Op V) (hb : BinaryPorts o) : Safe (Outs (outNames o.kind)) (joinProcess o) := by
  unfold joinProcess
  split
  · rename_i cm hk; rw [hk]; exact sf_joinMessages _ _ _ (outs_nil _)
  · rename_i b hk
    rw [hk]
    refine sf_then (sf_dataMsg (hb b hk).2 _) fun _ => sf_then (sf_dataMsg (hb b hk).1 _) fun _ => ?_
    split
    · exact outs_nil _
    · exact outs_single _
  · rename_i hk; rw [hk]; exact sf_then (sf_linearLoop _ _ _) fun _ => outs_single _
  · exact outs_nil _

theorem has_map {β γ : Type} (f : Str × β → γ) (m : Map β) (p : Str) :
    Map.has (m.map fun e => (e.1, f e)) p = m.has p := by
  unfold Map.has
  induction m with
  | nil => rfl
  | cons e m ih =>
    obtain ⟨k, v⟩ := e
    simp only [List.map_cons, Map.find?_cons]
    split
    · rfl
    · exact ih

theorem sr_execJoin (o : Op V) (hb : BinaryPorts o) : SafeR (Outs (outNames o.kind)) o.execJoin := by
  unfold Op.execJoin
  split
  · exact fun h => by cases h
  · rename_i p0 i0 rest hd
    split
    · exact outs_nil _
    · split
      · exact outs_nil _
      · rename_i ref t _
        dsimp only
        have := sf_joinProcess (⟨{ o.core with dataIn := o.core.dataIn.map fun e => (e.1, if e.1 = ref then e.2 else e.2.dropOlder t) },
          o.kind⟩ : Op V) (fun b hk => by simp only [has_map (fun e : Str × Inp V => if e.1 = ref then e.2 else e.2.dropOlder t)]; exact hb b hk)
        split
        · split
          · rename_i he; exact sr_of this he
          · rename_i out he
            rw [he] at this
            split
            · rename_i he; exact sr_of (sf_popAll _) he
            · exact this
        · exact outs_nil _

theorem sf_demuxScan (t : UInt64) (l : Map (Inp V)) : Safe T (demuxScan t l).2 := by
  induction l with
  | nil => exact sf_t _
  | cons e l ih =>
    obtain ⟨p, i⟩ := e
    rw [demuxScan]
    dsimp only
    split
    · exact ih
    · split
      · dsimp only
        cases h : (demuxScan t l).2 with
        | ok n => exact sf_t _
        | error e => rw [h] at ih; exact ih
      · exact sf_exc (by simp)

theorem sf_demuxMessages (cm : Map Str) (m : Msg V) (l : Map (Inp V)) :
    ∀ out, Outs cm.vals out → Safe (Outs cm.vals) (demuxMessages cm m l out) := by
  induction l with
  | nil => intro out h; exact h
  | cons e l ih =>
    obtain ⟨p, i⟩ := e
    intro out h
    rw [demuxMessages]
    split
    · exact sf_ub _
    · split
      · split
        · exact sf_ub _
        · rename_i hq; exact ih _ (h.emplace (value_mem hq) _)
      · exact ih _ h

theorem sr_execDemux (o : Op V) (cm : Map Str) : SafeR (Outs cm.vals) (o.execDemux cm) := by
  unfold Op.execDemux
  split
  · split
    · exact outs_nil _
    · rename_i m ms _
      have := sf_demuxScan m.time o.core.ctrlIn
      dsimp only
      split
      · rename_i he; exact sr_of this he
      · split
        · have h2 := sf_demuxMessages cm m (demuxScan m.time o.core.ctrlIn).1 [] (outs_nil _)
          split
          · rename_i he; exact sr_of h2 he
          · rename_i he
            rw [he] at h2
            split
            · rename_i he; exact sr_of (sf_popAll _) he
            · exact h2
        · exact outs_nil _
  · exact fun h => by cases h

theorem sf_arLoop (n : Nat) : ∀ (acc : V) (ms : List (Msg V)) (as : List V), Safe T (arLoop n acc ms as) := by
  induction n with
  | zero => intro acc ms as; exact sf_t _
  | succ n ih =>
    intro acc ms as
    rw [arLoop.eq_def]
    dsimp only
    split
    · exact sf_ub _
    · split
      · exact sf_exc (by simp)
      · exact ih _ _ _

theorem sr_execAR (o : Op V) (as : List V) : SafeR (Outs [o1]) (o.execAR as) := by
  unfold Op.execAR
  split
  · split
    · exact fun h => by cases h
    · split
      · rename_i he; exact sr_of (sf_arLoop _ _ _ _) he
      · split
        · exact fun h => by cases h
        · exact outs_single _
  · exact fun h => by cases h

theorem sr_execVariable (o : Op V) (v : V) (ini : Bool) : SafeR (Outs [o1]) (o.execVariable v ini) := by
  unfold Op.execVariable
  split
  · split
    · exact outs_nil _
    · exact outs_nil _
    · dsimp only
      split
      · split
        · exact fun h => by cases h
        · exact outs_single _
      · split
        · exact outs_single _
        · split
          · exact outs_single _
          · exact outs_nil _
  · exact fun h => by cases h

/-- Consistent port tables. -/
structure PortsOK (o : Op V) : Prop where
  pending : o.core.Pending
  names : ∀ q ∈ outNames o.kind, q ∈ o.core.outIds
  binary : BinaryPorts o

theorem sr_execData (o : Op V) (h : PortsOK o) : SafeR (Outs (outNames o.kind)) o.execData := by
  have hb := sr_execBase o h.pending
  have hj := sr_execJoin o h.binary
  unfold Op.execData
  cases hk : o.kind with
  | autoReg as => exact sr_execAR o as
  | join => rw [hk] at hj; exact hj
  | binary => rw [hk] at hj; exact hj
  | linear => rw [hk] at hj; exact hj
  | demux cm => exact sr_execDemux o cm
  | «variable» v ini => exact sr_execVariable o v ini
  | _ => rw [hk] at hb; exact hb

theorem sr_execCtrl (o : Op V) : SafeR (Outs (outNames o.kind)) o.execCtrl := by
  unfold Op.execCtrl
  cases hk : o.kind with
  | demux cm => exact sr_execDemux o cm
  | «variable» v ini => exact sr_execVariable o v ini
  | _ => exact outs_nil _

/-! ## receiveData, receiveControl -/

theorem sf_receive (i : Inp V) (m : Msg V) : Safe T (i.receive m) := by
  unfold Inp.receive
  split
  · split
    · exact sf_ub _
    · exact sf_t _
  · split
    · exact sf_exc (by simp)
    · exact sf_t _

theorem ne_nil_of_has {m : Map (Inp V)} (hw : ∀ i, m.find? [] = some i → False) {p : Str} (h : m.has p = true) : p ≠ [] := by
  rintro rfl
  obtain ⟨i, hi⟩ := has_find h
  exact hw i hi

/-- `receiveData` on an existing port (or the only one, by default) does not complain about the port. -/
theorem sf_recvData (o : Op V) (m : Msg V) (p : Str) (h : o.core.dataIn.has (o.core.resolveData p) = true) : Safe T (o.recvData m p) := by
  unfold Op.recvData
  obtain ⟨i, hi⟩ := has_find h
  have hb : Safe T (o.core.receiveDataBase m p) := by
    unfold Core.receiveDataBase
    dsimp only
    rw [hi]
    exact sf_then (sf_receive _ _) fun _ => sf_t _
  have hj : Safe T (o.core.receiveDataJoin m p) := by
    unfold Core.receiveDataJoin
    split
    · exact sf_exc (by simp)
    · rename_i hp
      have : o.core.resolveData p = p := by unfold Core.resolveData; rw [if_neg hp]
      rw [this] at hi
      rw [hi]
      exact sf_t _
  have hd : Safe T (o.core.receiveDataDemux m p) := by
    unfold Core.receiveDataDemux
    dsimp only
    rw [hi]
    exact sf_t _
  have ha : Safe T (o.core.receiveDataAR m p) := by
    unfold Core.receiveDataAR
    dsimp only
    rw [hi]
    dsimp only
    split
    · exact fun h => by cases h
    · exact sf_t _
  cases hk : o.kind with
  | autoReg => exact sf_then ha fun _ => sf_t _
  | _ => first | exact sf_then hj fun _ => sf_t _ | exact sf_then hd fun _ => sf_t _ | exact sf_then hb fun _ => sf_t _

theorem sf_recvCtrl (o : Op V) (m : Msg V) (p : Str) (h : o.core.ctrlIn.has (o.core.resolveCtrl p) = true) : Safe T (o.recvCtrl m p) := by
  unfold Op.recvCtrl
  obtain ⟨i, hi⟩ := has_find h
  have hb : Safe T (o.core.receiveCtrlBase m p) := by
    unfold Core.receiveCtrlBase
    dsimp only
    rw [hi]
    exact sf_then (sf_receive _ _) fun _ => sf_t _
  have hd : Safe T (o.core.receiveCtrlDemux m p) := by
    unfold Core.receiveCtrlDemux
    dsimp only
    rw [hi]
    exact sf_t _
  cases hk : o.kind with
  | _ => first | exact sf_then hd fun _ => sf_t _ | exact sf_then hb fun _ => sf_t _

end Rtbot
