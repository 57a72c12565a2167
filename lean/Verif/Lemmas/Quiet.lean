import Verif.Lemmas.DefinedBuilt
import Verif.Lemmas.Terminate
import Verif.Spec.Quiet
import Verif.Props.Ports

set_option linter.unusedSectionVars false

/-! # Methods of operators throw nothing -/

namespace Rtbot
variable {V : Type} [Num V]
open Spec

/-- The result is not an exception. -/
def Qt {α : Type} (x : Except Err α) : Prop := ∀ e, x ≠ .error (.exc e)

theorem qt_ok {α : Type} (a : α) : Qt (.ok a : Except Err α) := fun _ h => by cases h
theorem qt_ub {α : Type} (u : UB) : Qt (undefined u : Except Err α) := fun _ h => by cases h
theorem qt_div {α : Type} : Qt (.error .diverge : Except Err α) := fun _ h => by cases h

theorem qt_bind {α β : Type} {x : Except Err α} {f : α → Except Err β} (h : Qt x) (hf : ∀ a, x = .ok a → Qt (f a)) : Qt (x >>= f) := by
  cases x with
  | ok a => exact hf a rfl
  | error e => exact fun e' he => h e' (by cases he; rfl)

theorem qt_then {α β : Type} {x : Except Err α} {f : α → Except Err β} (h : Qt x) (hf : ∀ a, Qt (f a)) : Qt (x >>= f) := qt_bind h fun a _ => hf a

theorem qt_okb {α β : Type} {a : α} {f : α → Except Err β} (h : Qt (f a)) : Qt ((.ok a : Except Err α) >>= f) := h

theorem qt_foldlM {α β : Type} {f : β → α → Except Err β} (l : List α) (hf : ∀ b, ∀ a ∈ l, Qt (f b a)) : ∀ b, Qt (l.foldlM f b) := by
  induction l with
  | nil => intro b; exact qt_ok b
  | cons x l ih =>
    intro b
    rw [List.foldlM_cons]
    exact qt_then (hf b x List.mem_cons_self) (ih fun b a ha => hf b a (List.mem_cons_of_mem _ ha))

section ports
variable {c : Core V} {p : Str} {i : Inp V} (h : c.dataIn.find? p = some i)
include h

theorem qt_dataMsg {n : Nat} (hn : i.data ≠ [] → n < i.data.length) : Qt (c.dataMsg p n) := by
  unfold Core.dataMsg
  rw [h]
  dsimp only
  split
  · exact qt_ok _
  · rename_i hd
    rw [List.getElem?_eq_getElem (hn hd)]
    exact qt_ok _

theorem qt_dataLast : Qt (c.dataLast p) := by
  unfold Core.dataLast
  rw [h]
  dsimp only
  split <;> exact qt_ok _

theorem qt_dataFirst : Qt (c.dataFirst p) := by
  unfold Core.dataFirst
  rw [h]
  dsimp only
  split <;> exact qt_ok _

theorem qt_dataPort : Qt (c.dataPort p) := by
  unfold Core.dataPort
  rw [h]
  exact qt_ok _

end ports

theorem qt_toTime (x : V) : Qt (toTimeE x) := by
  unfold toTimeE
  split
  · exact qt_ok _
  · exact qt_ub _

theorem qt_firLoop (ms : List (Msg V)) : ∀ (acc : V) (as : List V), ms.length ≤ as.length → Qt (firLoop acc ms as) := by
  induction ms with
  | nil => intro acc as _; cases as <;> exact qt_ok _
  | cons m ms ih =>
    intro acc as h
    cases as with
    | nil => simp at h
    | cons a as => exact ih _ _ (by simpa using h)

theorem qt_constLoop (dt t : UInt64) (v : V) (fuel : Nat) : ∀ next, Qt (constLoop dt t v fuel next) := by
  induction fuel with
  | zero => intro j; exact qt_div
  | succ fuel ih =>
    intro j
    unfold constLoop
    split
    · exact qt_then (ih _) fun _ => qt_ok _
    · exact qt_ok _

theorem qt_pointAt (ps : List (V × V)) (i : Nat) : Qt (pointAt ps i) := by
  unfold pointAt
  split
  · exact qt_ok _
  · exact qt_ub _

theorem qt_tangent (ps : List (V × V)) (i : Nat) : Qt (tangent ps i) := by
  unfold tangent
  dsimp only
  exact qt_then (qt_pointAt _ _) fun _ => qt_then (qt_pointAt _ _) fun _ => qt_ok _

theorem qt_functionValue (ps : List (V × V)) (t : Interp) (x : V) : Qt (functionValue ps t x) := by
  unfold functionValue
  split
  · exact qt_ub _
  · refine qt_then (qt_pointAt _ _) fun p0 => ?_
    cases t with
    | linear => exact qt_then (qt_pointAt _ _) fun _ => qt_then (qt_pointAt _ _) fun _ => qt_ok _
    | hermite =>
      exact qt_then (qt_pointAt _ _) fun _ => qt_then (qt_pointAt _ _) fun _ => qt_then (qt_tangent _ _) fun _ => qt_then (qt_tangent _ _) fun _ => qt_ok _

/-! ## What the constructors provide -/

/-- The kinds that look for their only data port. -/
def sole : Kind V → Bool
  | .filter _ _ | .add _ | .scale _ | .power _ | .constant _ | .identity | .count _ | .cumSum _ | .difference _ | .movAvg | .stdDev | .peak | .fir _
  | .timeShift _ _ | .constRes _ _ _ _ | .cosRes _ _ | .hermRes _ _ _ | .function _ _ | .rsi _ => true
  | _ => false

/-- The number of messages a kind relies on. -/
def need : Kind V → Nat
  | .difference _ | .rsi _ => 2
  | _ => 0

/-- The kinds that receive by the base class. -/
def based : Kind V → Bool
  | .join _ | .binary _ | .linear _ | .demux _ | .autoReg _ | .variable _ _ => false
  | _ => true

/-- The static part. -/
structure Tight (o : Op V) : Prop where
  sole : sole o.kind = true → ∃ i, o.core.dataIn = [(i1, i)] ∧ need o.kind ≤ i.max
  fir : ∀ as, o.kind = .fir as → ∀ e ∈ o.core.dataIn, e.2.max = as.length
  join : based o.kind = false → o.core.dataIn ≠ []
  linear : ∀ as, o.kind = .linear as → o.core.dataIn.length ≤ as.length
  unnamed : o.core.dataIn.has [] = false
  sturdy : Sturdy o
  ctrl : o.core.ctrlIn = []

/-- The dynamic part: buffers do not exceed their limits. -/
def Snug (o : Op V) : Prop := based o.kind = true → ∀ e ∈ o.core.dataIn, e.2.data.length ≤ e.2.max

theorem qt_solePort {c : Core V} {k : Str} {i : Inp V} (h : c.dataIn = [(k, i)]) : c.solePort = .ok k := by
  unfold Core.solePort
  rw [h]

theorem find_sole {k : Str} {i : Inp V} : Map.find? [(k, i)] k = some i := by simp [Map.find?_cons]

theorem qt_procLast {c : Core V} {k : Str} {i : Inp V} (h : c.dataIn = [(k, i)]) {f : Msg V → Except Err (OpMsg V × Kind V)} (hf : ∀ m, Qt (f m)) :
    Qt (procLast c f) := by
  unfold procLast
  rw [qt_solePort h]
  exact qt_okb (qt_then (qt_dataLast (i := i) (by rw [h]; exact find_sole)) hf)

theorem subSize_lt {n k : Nat} (h : k ≤ n) (hk : 0 < k) (hk2 : k < 2 ^ 64) : subSize n k < n := by
  unfold subSize
  rw [Nat.mod_eq_of_lt hk2, show n + 2 ^ 64 - k = (n - k) + 2 ^ 64 by omega, Nat.add_mod_right]
  have := Nat.mod_le (n - k) (2 ^ 64)
  omega

/-- Processing, when the only port is full. -/
theorem qt_process {o : Op V} (h : Tight o) (hs : Snug o) (htame : Tame o) (hpend : o.core.Pending)
    (hfull : ∀ i, o.core.dataIn = [(i1, i)] → i.max ≤ i.data.length) : Qt o.process := by
  unfold Op.process
  dsimp only
  have hsole : ∀ {k}, o.kind = k → Rtbot.sole k = true → ∃ i, o.core.dataIn = [(i1, i)] ∧ need k ≤ i.data.length := by
    intro k hk hsk
    obtain ⟨i, h1, h2⟩ := h.sole (by rw [hk]; exact hsk)
    rw [hk] at h2
    exact ⟨i, h1, Nat.le_trans h2 (hfull i h1)⟩
  have hfind : ∀ {i}, o.core.dataIn = [(i1, i)] → o.core.dataIn.find? i1 = some i := fun h => by rw [h]; exact find_sole
  have hlast : ∀ {k}, o.kind = k → Rtbot.sole k = true → ∀ {f : Msg V → Except Err (OpMsg V × Kind V)}, (∀ m, Qt (f m)) → Qt (procLast o.core f) := by
    intro k hk hsk f hf
    obtain ⟨i, h1, _⟩ := hsole hk hsk
    exact qt_procLast h1 hf
  cases hk : o.kind with
  | input pm last =>
    refine qt_then (qt_foldlM _ (fun acc p hp => ?_) _) fun _ => qt_ok _
    unfold inputStep
    obtain ⟨i, hi⟩ := has_find (hpend p hp)
    refine qt_then (qt_dataMsg hi (fun hd => List.length_pos_iff.2 hd)) fun m => ?_
    obtain ⟨out, last'⟩ := acc
    dsimp only
    split
    · split
      · split
        · exact qt_ub _
        · exact qt_ok _
      · exact qt_ok _
    · split
      · exact qt_ub _
      · exact qt_ok _
  | output pm =>
    refine qt_then (qt_foldlM _ (fun acc p hp => ?_) _) fun _ => qt_ok _
    obtain ⟨i, hi⟩ := has_find (hpend p hp)
    refine qt_then (qt_dataLast hi) fun m => ?_
    split
    · exact qt_ub _
    · exact qt_ok _
  | filter f v => exact hlast hk rfl fun m => qt_ok _
  | add v => exact hlast hk rfl fun m => qt_ok _
  | scale v => exact hlast hk rfl fun m => qt_ok _
  | power v => exact hlast hk rfl fun m => qt_ok _
  | constant v => exact hlast hk rfl fun m => qt_ok _
  | count n => exact hlast hk rfl fun m => qt_ok _
  | cumSum a => exact hlast hk rfl fun m => qt_ok _
  | timeShift dt n => exact hlast hk rfl fun m => qt_ok _
  | constRes dt ne ini lv =>
    refine hlast hk rfl fun m => ?_
    split
    · exact qt_then (qt_constLoop _ _ _ _ _) fun r => qt_ok _
    · exact qt_ok _
  | function pts t => exact hlast hk rfl fun m => qt_then (qt_functionValue _ _ _) fun _ => qt_ok _
  | identity =>
    obtain ⟨i, h1, _⟩ := hsole hk rfl
    dsimp only
    unfold procIdentity
    rw [qt_solePort h1]
    exact qt_okb (qt_then (qt_dataFirst (hfind h1)) fun _ => qt_ok _)
  | difference b =>
    obtain ⟨i, h1, h2⟩ := hsole hk rfl
    have h2 : 2 ≤ i.data.length := h2
    dsimp only
    unfold procDifference
    rw [qt_solePort h1]
    exact qt_okb (qt_then (qt_dataMsg (hfind h1) (fun _ => by omega)) fun _ => qt_then (qt_dataMsg (hfind h1) (fun _ => by omega)) fun _ =>
      qt_then (qt_toTime _) fun _ => qt_ok _)
  | movAvg =>
    obtain ⟨i, h1, _⟩ := hsole hk rfl
    dsimp only
    unfold procMovAvg
    rw [qt_solePort h1]
    exact qt_okb (qt_then (qt_dataPort (hfind h1)) fun _ => qt_then (qt_dataLast (hfind h1)) fun _ => qt_ok _)
  | stdDev =>
    obtain ⟨i, h1, _⟩ := hsole hk rfl
    dsimp only
    unfold procStdDev
    rw [qt_solePort h1]
    exact qt_okb (qt_then (qt_dataPort (hfind h1)) fun _ => qt_then (qt_dataLast (hfind h1)) fun _ => qt_ok _)
  | peak =>
    obtain ⟨i, h1, _⟩ := hsole hk rfl
    dsimp only
    unfold procPeak
    have hp : o.core.dataPort i1 = .ok i := by unfold Core.dataPort; rw [hfind h1]
    rw [qt_solePort h1]
    refine qt_okb ?_
    rw [hp]
    refine qt_okb (qt_then (qt_dataMsg (hfind h1) (fun hd => ?_)) fun _ => qt_ok _)
    have := List.length_pos_iff.2 hd
    omega
  | fir a =>
    obtain ⟨i, h1, _⟩ := hsole hk rfl
    dsimp only
    unfold procFir
    have hp : o.core.dataPort i1 = .ok i := by unfold Core.dataPort; rw [hfind h1]
    rw [qt_solePort h1]
    refine qt_okb ?_
    rw [hp]
    refine qt_okb (qt_then (qt_dataLast (hfind h1)) fun _ => qt_then (qt_firLoop _ _ _ ?_) fun _ => qt_ok _)
    have hm : (i1, i) ∈ o.core.dataIn := by rw [h1]; simp
    have e1 := h.fir a hk _ hm
    have e2 := hs (by rw [hk]; rfl) _ hm
    rw [List.length_reverse]
    dsimp only at e1 e2
    omega
  | cosRes dt carry => simp [Tame, hk] at htame
  | hermRes dt carry before => simp [Tame, hk] at htame
  | rsi prev =>
    obtain ⟨i, h1, h2⟩ := hsole hk rfl
    have h2 : 2 ≤ i.data.length := h2
    dsimp only
    unfold procRsi
    have hp : o.core.dataPort i1 = .ok i := by unfold Core.dataPort; rw [hfind h1]
    rw [qt_solePort h1]
    refine qt_okb ?_
    rw [hp]
    refine qt_okb ?_
    dsimp only
    cases prev with
    | none => exact qt_okb (qt_then (qt_dataLast (hfind h1)) fun _ => qt_ok _)
    | some q =>
      exact qt_then (qt_dataMsg (hfind h1) (fun _ => subSize_lt (by omega) (by omega) (by omega))) fun _ =>
        qt_then (qt_dataMsg (hfind h1) (fun _ => subSize_lt (by omega) (by omega) (by omega))) fun _ => qt_okb (qt_then (qt_dataLast (hfind h1)) fun _ => qt_ok _)
  | _ => exact qt_ok _

/-! ## executeData -/

/-- `Qt` for methods. -/
def QtR {σ α : Type} (r : Res σ α) : Prop := ∀ e s, r ≠ .err (.exc e) s

theorem qr_ok {σ α : Type} (a : α) (s : σ) : QtR (.ok a s) := fun _ _ h => by cases h

theorem qr_of {σ α β : Type} {x : Except Err α} {e : Err} {s : σ} (h : Qt x) (he : x = .error e) : QtR (.err e s : Res σ β) := by
  intro e' s' hc
  cases hc
  exact h _ he

theorem Tight.pending {o : Op V} (h : Tight o) (l : List Str) : Tight { o with core := { o.core with toProcess := l } } :=
  ⟨h.sole, h.fir, h.join, h.linear, h.unnamed, h.sturdy, h.ctrl⟩

theorem qr_execBase {o : Op V} (h : Tight o) (hs : Snug o) (htame : Tame o) (hpend : o.core.Pending) : QtR o.execBase := by
  have h1 : o.core.readyPorts = .ok (o.core.toProcess.filter fun p => match o.core.dataIn.find? p with
      | some i => i.max ≤ i.data.length
      | none => false) := by
    unfold Core.readyPorts
    have : o.core.toProcess.all o.core.isData = true := List.all_eq_true.2 hpend
    rw [if_pos this]
    rfl
  unfold Op.execBase
  rw [h1]
  dsimp only
  split
  · exact qr_ok _ _
  · rename_i hne
    have := qt_process (h.pending (o.core.toProcess.filter fun p => match o.core.dataIn.find? p with
      | some i => i.max ≤ i.data.length
      | none => false)) hs htame (fun p hpm => hpend p (List.mem_filter.1 hpm).1) ?_
    · split
      · rename_i he; exact qr_of this he
      · exact qr_ok _ _
    · intro i hi
      have hi : o.core.dataIn = [(i1, i)] := hi
      obtain ⟨p, hp⟩ := List.exists_mem_of_ne_nil _ hne
      obtain ⟨_, hp⟩ := List.mem_filter.1 hp
      rw [hi, Map.find?_cons] at hp
      by_cases hk : p = i1
      · simpa [hk] using hp
      · rw [if_neg fun h => hk h.symm] at hp
        cases hp

theorem qt_joinMessages (cm : Map Str) (l : Map (Inp V)) : ∀ out, Qt (joinMessages cm l out) := by
  induction l with
  | nil => intro out; exact qt_ok _
  | cons e l ih =>
    obtain ⟨p, i⟩ := e
    intro out
    rw [joinMessages]
    split
    · exact qt_ub _
    · exact qt_ub _
    · exact ih _

theorem qt_linearLoop (l : Map (Inp V)) : ∀ (as : List V) out, l.length ≤ as.length → Qt (linearLoop l as out) := by
  induction l with
  | nil => intro as out _; exact qt_ok _
  | cons e l ih =>
    obtain ⟨p, i⟩ := e
    intro as out hl
    rw [linearLoop.eq_def]
    dsimp only
    split
    · exact qt_ub _
    · simp at hl
    · exact ih _ _ (by simpa using hl)

theorem qt_popAll (l : Map (Inp V)) : Qt (popAll l) := by
  induction l with
  | nil => exact qt_ok _
  | cons e l ih =>
    obtain ⟨p, i⟩ := e
    rw [popAll]
    split
    · exact qt_then (qt_ub _) fun _ => qt_then ih fun _ => qt_ok _
    · exact qt_okb (qt_then ih fun _ => qt_ok _)

theorem qt_joinProcess {o : Op V} (hl : ∀ as, o.kind = .linear as → o.core.dataIn.length ≤ as.length) (hb : BinaryPorts o) : Qt (joinProcess o) := by
  unfold joinProcess
  split
  · exact qt_joinMessages _ _ _
  · rename_i b hk
    obtain ⟨h1, h2⟩ := hb b hk
    obtain ⟨x, hx⟩ := has_find h1
    obtain ⟨y, hy⟩ := has_find h2
    unfold binaryMessages
    refine qt_then (qt_dataMsg hy fun hd => List.length_pos_iff.2 hd) fun _ => qt_then (qt_dataMsg hx fun hd => List.length_pos_iff.2 hd) fun _ => ?_
    split <;> exact qt_ok _
  · rename_i as hk
    exact qt_then (qt_linearLoop _ _ _ (hl as hk)) fun _ => qt_ok _
  · exact qt_ok _

theorem qr_execJoin {o : Op V} (h : Tight o) (hb : BinaryPorts o) (hk : based o.kind = false) : QtR o.execJoin := by
  unfold Op.execJoin
  split
  · rename_i hd; exact absurd hd (h.join hk)
  · split
    · exact qr_ok _ _
    · split
      · exact qr_ok _ _
      · rename_i ref t _
        dsimp only
        split
        · have hj : Qt (joinProcess (⟨{ o.core with dataIn := o.core.dataIn.map fun e => (e.1, if e.1 = ref then e.2 else e.2.dropOlder t) }, o.kind⟩ : Op V)) := by
            refine qt_joinProcess (fun as ha => ?_) fun b hb' => ?_
            · simpa using h.linear as ha
            · have hhas : ∀ p, Map.has (o.core.dataIn.map fun e => (e.1, if e.1 = ref then e.2 else e.2.dropOlder t)) p = o.core.dataIn.has p :=
                has_map (fun e : Str × Inp V => if e.1 = ref then e.2 else e.2.dropOlder t) _
              obtain ⟨h1, h2⟩ := hb b hb'
              exact ⟨(hhas _).trans h1, (hhas _).trans h2⟩
          split
          · rename_i he; exact qr_of hj he
          · split
            · rename_i he; exact qr_of (qt_popAll _) he
            · exact qr_ok _ _
        · exact qr_ok _ _

theorem qt_arLoop : ∀ (n : Nat) (acc : V) (ms : List (Msg V)) (as : List V), n ≤ ms.length → Qt (arLoop n acc ms as) := by
  intro n
  induction n with
  | zero => intro acc ms as _; exact qt_ok _
  | succ n ih =>
    intro acc ms as h
    rw [arLoop.eq_def]
    dsimp only
    split
    · exact qt_ub _
    · split
      · simp at h
      · exact ih _ _ _ (by simpa using h)

theorem qr_execAR {o : Op V} {as : List V} (h : Sound o) (hk : o.kind = .autoReg as) (hc : Stocked 1 o) : QtR (o.execAR as) := by
  obtain ⟨i, hi, hm⟩ := h.coeff as hk
  have hst := hc as hk (i1, i) (by rw [hi]; simp)
  rcases hst with ⟨_, h0⟩ | ⟨hne, hlen⟩
  · omega
  · dsimp only at hlen
    have hpos : as.length ≠ 0 := by simpa using hne
    rw [if_neg hpos] at hm
    unfold Op.execAR
    rw [hi]
    dsimp only
    split
    · exact fun _ _ hc => by cases hc
    · split
      · rename_i he; exact qr_of (qt_arLoop _ _ _ _ (by omega)) he
      · split
        · exact fun _ _ hc => by cases hc
        · exact qr_ok _ _

/-- Executing an operator throws nothing. -/
theorem qr_execData {o : Op V} (h : Tight o) (hs : Snug o) (hp : PortsOK o) (hsound : Sound o) (hc : Stocked 1 o) : QtR o.execData := by
  have hst := h.sturdy
  unfold Sturdy at hst
  unfold Op.execData
  cases hk : o.kind with
  | autoReg as => exact qr_execAR hsound hk hc
  | join => exact qr_execJoin h hp.binary (by rw [hk]; rfl)
  | binary => exact qr_execJoin h hp.binary (by rw [hk]; rfl)
  | linear => exact qr_execJoin h hp.binary (by rw [hk]; rfl)
  | demux cm => rw [hk] at hst; exact hst.elim
  | «variable» v ini => rw [hk] at hst; exact hst.elim
  | _ => exact qr_execBase h hs hsound.tame hp.pending

theorem qr_execCtrl {o : Op V} (h : Tight o) : QtR o.execCtrl := by
  have hst := h.sturdy
  unfold Sturdy at hst
  unfold Op.execCtrl
  cases hk : o.kind with
  | demux cm => rw [hk] at hst; exact hst.elim
  | «variable» v ini => rw [hk] at hst; exact hst.elim
  | _ => exact qr_ok _ _

/-! ## receiveData -/

theorem qt_receive {i : Inp V} (h : i.data.length ≤ i.max) (m : Msg V) : Qt (i.receive m) := by
  unfold Inp.receive
  split
  · split
    · exact qt_ub _
    · exact qt_ok _
  · split
    · omega
    · exact qt_ok _

theorem receive_le {i i' : Inp V} {m : Msg V} (h : i.data.length ≤ i.max) (hr : i.receive m = .ok i') : i'.data.length ≤ i'.max := by
  unfold Inp.receive at hr
  split at hr
  · split at hr
    · cases hr
    · rename_i x hx
      cases hr
      unfold Inp.popSum at hx
      split at hx
      · cases hx
      · rename_i hd
        cases hx
        rw [hd] at h
        simpa [Inp.push] using h
  · split at hr
    · cases hr
    · cases hr
      simp only [Inp.push, List.length_append, List.length_cons, List.length_nil]
      omega

theorem qt_recvData {o : Op V} (h : Tight o) (hs : Snug o) (m : Msg V) {p : Str} (hp : o.core.dataIn.has p = true) : Qt (o.recvData m p) := by
  have hne : p ≠ [] := fun he => by rw [he, h.unnamed] at hp; cases hp
  obtain ⟨i, hi⟩ := has_find hp
  obtain ⟨x, hx⟩ := has_find (has_resolve hp)
  unfold Op.recvData
  have hb : based o.kind = true → Qt (o.core.receiveDataBase m p) := by
    intro hbk
    unfold Core.receiveDataBase
    dsimp only
    rw [hx]
    exact qt_then (qt_receive (hs hbk _ (find?_mem hx)) m) fun _ => qt_ok _
  have hj : Qt (o.core.receiveDataJoin m p) := by
    unfold Core.receiveDataJoin
    rw [if_neg hne, hi]
    exact qt_ok _
  have hd : Qt (o.core.receiveDataDemux m p) := by
    unfold Core.receiveDataDemux
    dsimp only
    rw [hx]
    exact qt_ok _
  have ha : Qt (o.core.receiveDataAR m p) := by
    unfold Core.receiveDataAR
    dsimp only
    rw [hx]
    dsimp only
    split
    · exact qt_div
    · exact qt_ok _
  have hst := h.sturdy
  unfold Sturdy at hst
  cases hk : o.kind with
  | autoReg => exact qt_then ha fun _ => qt_ok _
  | «variable» => rw [hk] at hst; exact hst.elim
  | demux => exact qt_then hd fun _ => qt_ok _
  | join => exact qt_then hj fun _ => qt_ok _
  | binary => exact qt_then hj fun _ => qt_ok _
  | linear => exact qt_then hj fun _ => qt_ok _
  | _ => exact qt_then (hb (by rw [hk]; rfl)) fun _ => qt_ok _

/-! ## Stability -/

theorem based_fresh (k : Kind V) : based k.fresh = based k := by cases k <;> rfl
theorem sole_fresh (k : Kind V) : sole k.fresh = sole k := by cases k <;> rfl
theorem need_fresh (k : Kind V) : need k.fresh = need k := by cases k <;> rfl

theorem Tight.of_fresh {o o' : Op V} (h : o'.fresh = o.fresh) (ht : Tight o) : Tight o' := by
  have hd : freshMap o'.core.dataIn = freshMap o.core.dataIn := congrArg (fun x : Op V => x.core.dataIn) h
  have hc : freshMap o'.core.ctrlIn = freshMap o.core.ctrlIn := congrArg (fun x : Op V => x.core.ctrlIn) h
  have hk : o'.kind.fresh = o.kind.fresh := congrArg Op.kind h
  have hlen : o'.core.dataIn.length = o.core.dataIn.length := by
    have := congrArg List.length hd
    simpa [freshMap] using this
  refine ⟨fun hs => ?_, fun as ho e he => ?_, fun hb => ?_, fun as ho => ?_, ?_, ?_, ?_⟩
  · rw [← sole_fresh, hk, sole_fresh] at hs
    obtain ⟨i, h1, h2⟩ := ht.sole hs
    rw [h1] at hd
    have hl := congrArg List.length hd
    simp only [freshMap, List.length_map, List.length_cons, List.length_nil, Nat.zero_add] at hl
    obtain ⟨e, he⟩ := List.length_eq_one_iff.1 hl
    obtain ⟨k, i'⟩ := e
    rw [he] at hd
    simp only [freshMap, List.map_cons, List.map_nil, List.cons.injEq, Prod.mk.injEq, and_true] at hd
    refine ⟨i', by rw [he, hd.1], ?_⟩
    rw [← need_fresh, hk, need_fresh]
    have : i'.max = i.max := (congrArg Inp.max hd.2 : i'.fresh.max = i.fresh.max)
    omega
  · rw [ho] at hk
    cases hx : o.kind <;> rw [hx] at hk <;> simp [Kind.fresh] at hk
    subst hk
    obtain ⟨e0, h1, _, h2⟩ := mem_fresh hd he
    rw [← h2]; exact ht.fir _ hx e0 h1
  · rw [← based_fresh, hk, based_fresh] at hb
    have := ht.join hb
    intro hn
    rw [hn] at hlen
    exact this (List.eq_nil_of_length_eq_zero hlen.symm)
  · rw [ho] at hk
    cases hx : o.kind <;> rw [hx] at hk <;> simp [Kind.fresh] at hk
    subst hk
    rw [hlen]; exact ht.linear _ hx
  · rw [has_of_fresh h]; exact ht.unnamed
  · have := ht.sturdy
    unfold Sturdy at this ⊢
    cases hx : o.kind <;> cases hy : o'.kind <;> rw [hx, hy] at hk <;> simp [Kind.fresh] at hk <;> simp only [hx] at this <;>
      first | trivial | exact this.elim | (subst hk; exact this) | skip
    intro e he
    obtain ⟨e0, h1, _, h2⟩ := mem_fresh hd he
    rw [← h2]; exact this e0 h1
  · rw [ht.ctrl] at hc
    simpa [freshMap] using hc


/-! ## Newly built operators -/

theorem put_length {β : Type} (m : Map β) (k : Str) (v : β) : (m.put k v).length ≤ m.length + 1 := by
  induction m with
  | nil => simp [Map.put]
  | cons e m ih =>
    obtain ⟨k', v'⟩ := e
    rw [Map.put]
    split
    · simp
    · split
      · simp
      · simp only [List.length_cons]; omega

theorem emplace_length {β : Type} (m : Map β) (k : Str) (v : β) : (m.emplace k v).length ≤ m.length + 1 := by
  unfold Map.emplace
  split
  · omega
  · exact put_length m k v

theorem addInputs_length {c : Core V} (hc : Begun c) (max n : Nat) : ∀ {c'}, addInputs c max n = .ok c' →
    c'.dataIn.length ≤ c.dataIn.length + n ∧ (c.dataIn.has [] = false → c'.dataIn.has [] = false) ∧ (0 < n → c'.dataIn ≠ []) := by
  induction n with
  | zero => intro c' h; cases h; exact ⟨Nat.le_refl _, id, fun h => absurd h (by omega)⟩
  | succ n ih =>
    intro c' h
    simp only [addInputs] at h
    obtain ⟨c1, h1, h3⟩ := bind_eq_ok.1 h
    obtain ⟨d1, d2, d3, d4, d5⟩ := (addInputs_begun hc max n h1).1.addDataInput h3
    obtain ⟨e1, e2, _⟩ := ih h1
    rw [d3]
    refine ⟨?_, fun hn => ?_, fun _ he => ?_⟩
    · have := emplace_length c1.dataIn (iPort (n + 1)) (Inp.new (iPort (n + 1)) max)
      omega
    · have := e2 hn
      rw [← Bool.not_eq_true, has_emplace']
      rintro (h | h)
      · simp [iPort] at h
      · rw [this] at h; cases h
    · have : (c1.dataIn.emplace (iPort (n + 1)) (Inp.new (iPort (n + 1)) max)).has (iPort (n + 1)) = true := (has_emplace' _ _ _ _).2 (Or.inl rfl)
      rw [he] at this
      cases this

theorem addPorts_named {c : Core V} (hc : Begun c) (max n : Nat) : ∀ {c' pm}, addPorts c max n = .ok (c', pm) →
    (c.dataIn.has [] = false → c'.dataIn.has [] = false) ∧ (0 < n → c'.dataIn ≠ []) := by
  induction n with
  | zero => intro c' pm h; cases h; exact ⟨id, fun h => absurd h (by omega)⟩
  | succ n ih =>
    intro c' pm h
    simp only [addPorts] at h
    obtain ⟨⟨c1, pm1⟩, h1, h2⟩ := bind_eq_ok.1 h
    obtain ⟨c2, h3, h4⟩ := bind_eq_ok.1 h2
    cases h4
    obtain ⟨d1, d2, d3, d4, d5⟩ := (addPorts_begun hc max n h1).1.addDataInput h3
    obtain ⟨e2, _⟩ := ih h1
    show (_ → c2.dataIn.has [] = false) ∧ (_ → c2.dataIn ≠ [])
    rw [d3]
    refine ⟨fun hn => ?_, fun _ he => ?_⟩
    · have := e2 hn
      rw [← Bool.not_eq_true, has_emplace']
      rintro (h | h)
      · simp [iPort] at h
      · rw [this] at h; cases h
    · have : (c1.dataIn.emplace (iPort (n + 1)) (Inp.new (iPort (n + 1)) max)).has (iPort (n + 1)) = true := (has_emplace' _ _ _ _).2 (Or.inl rfl)
      rw [he] at this
      cases this

theorem tight_simple (id : Str) (max : Nat) {k : Kind V} (hs : Sturdy (⟨Core.simple id max, k⟩ : Op V)) (hl : ∀ as, k ≠ .linear as)
    (hn : need k ≤ (Inp.new i1 max : Inp V).max) (hf : ∀ as, k = .fir as → (Inp.new i1 max : Inp V).max = as.length) :
    Tight (⟨Core.simple id max, k⟩ : Op V) := by
  refine ⟨fun _ => ⟨_, rfl, hn⟩, fun as hk e he => ?_, fun _ h => (by cases h), fun as hk => absurd hk (hl as), rfl, hs, rfl⟩
  simp only [Core.simple, List.mem_singleton] at he
  subst he
  exact hf as hk

theorem Spec.Built.tight {o : Op V} (h : Built o) (hs : Sturdy o) : Tight o := by
  have hb := h.new
  cases h with
  | input h =>
    unfold Op.newInput at h
    obtain ⟨⟨c, pm⟩, h1, h2⟩ := bind_eq_ok.1 h
    cases h2
    obtain ⟨_, b2, _, _⟩ := addPorts_begun (begun_new _) _ _ h1
    exact ⟨(fun h => by cases h), (fun _ h => by cases h), (fun h => by cases h), (fun _ h => by cases h), (addPorts_named (begun_new _) _ _ h1).1 rfl, hs, b2⟩
  | output h =>
    unfold Op.newOutput at h
    obtain ⟨⟨c, pm⟩, h1, h2⟩ := bind_eq_ok.1 h
    cases h2
    obtain ⟨_, b2, _, _⟩ := addPorts_begun (begun_new _) _ _ h1
    exact ⟨(fun h => by cases h), (fun _ h => by cases h), (fun h => by cases h), (fun _ h => by cases h), (addPorts_named (begun_new _) _ _ h1).1 rfl, hs, b2⟩
  | join h =>
    unfold Op.newJoin at h
    split at h
    · cases h
    · rename_i hn
      obtain ⟨⟨c, pm⟩, h1, h2⟩ := bind_eq_ok.1 h
      cases h2
      obtain ⟨_, b2, _, _⟩ := addPorts_begun (begun_new _) _ _ h1
      obtain ⟨b5, b6⟩ := addPorts_named (begun_new _) _ _ h1
      exact ⟨(fun h => by cases h), (fun _ h => by cases h), (fun _ => b6 (by omega)), (fun _ h => by cases h), b5 rfl, hs, b2⟩
  | linear h =>
    unfold Op.newLinear at h
    split at h
    · cases h
    · rename_i hn
      obtain ⟨c, h1, h2⟩ := bind_eq_ok.1 h
      cases h2
      obtain ⟨b1, b2, _, b4⟩ := addInputs_begun (begun_new _) _ _ h1
      obtain ⟨b5, b6, b7⟩ := addInputs_length (begun_new _) _ _ h1
      refine ⟨(fun h => by cases h), (fun _ h => by cases h), (fun _ => b7 (by omega)), (fun as h => ?_), b6 rfl, hs, b2⟩
      cases h
      have b5 : c.dataIn.length ≤ 0 + _ := b5
      rw [Nat.zero_add] at b5
      exact b5
  | demux h =>
    unfold Op.newDemux at h
    split at h
    · cases h
    · obtain ⟨⟨c, pm⟩, h1, h2⟩ := bind_eq_ok.1 h
      obtain ⟨c2, h3, h4⟩ := bind_eq_ok.1 h2
      cases h4
      exact hs.elim
  | constRes h =>
    unfold Op.newConstRes at h
    split at h
    · cases h
    · cases h; exact tight_simple _ _ hs (fun _ h => by cases h) (Nat.zero_le _) (fun _ h => by cases h)
  | function h =>
    unfold Op.newFunction at h
    split at h
    · cases h
    · split at h
      · cases h
      · cases h; exact tight_simple _ _ hs (fun _ h => by cases h) (Nat.zero_le _) (fun _ h => by cases h)
  | binary id op =>
    exact ⟨(fun h => by cases h), (fun _ h => by cases h), (fun _ h => by cases h), (fun _ h => by cases h), rfl, hs, rfl⟩
  | «variable» id v => exact hs.elim
  | collector id n =>
    exact ⟨(fun h => by cases h), (fun _ h => by cases h), (fun h => by cases h), (fun _ h => by cases h), rfl, hs, rfl⟩
  | fir id as =>
    refine tight_simple _ _ hs (fun _ h => by cases h) (Nat.zero_le _) fun as' h => ?_
    cases h
    have hs : as ≠ [] := hs
    have : as.length ≠ 0 := by simpa using hs
    simp [Inp.new, this]
  | rsi id n =>
    refine tight_simple _ _ hs (fun _ h => by cases h) ?_ (fun _ h => by cases h)
    have hs : ∀ e ∈ [(i1, (Inp.new i1 ((n + 1) % 2 ^ 64) : Inp V))], 2 ≤ e.2.max := hs
    exact hs _ List.mem_cons_self
  | difference id b => exact tight_simple _ _ hs (fun _ h => by cases h) (Nat.le_refl 2) (fun _ h => by cases h)
  | _ => exact tight_simple _ _ hs (fun _ h => by cases h) (Nat.zero_le _) (fun _ h => by cases h)

theorem EmptyIns.snug {o : Op V} (h : EmptyIns o.core.dataIn) : Snug o := by
  intro _ e he
  obtain ⟨max, h1⟩ := h e he
  rw [h1]
  exact Nat.zero_le _

/-! ## Buffers stay within their limits -/

theorem snug_recvData {o o' : Op V} (hs : Snug o) {m : Msg V} {p : Str} (h : o.recvData m p = .ok o') : Snug o' := by
  intro hb e he
  have hk0 : o'.kind = o.kind := by
    obtain ⟨_, _, rfl⟩ := recvData_cases h
    rfl
  rw [hk0] at hb
  unfold Op.recvData at h
  have h : (o.core.receiveDataBase m p >>= fun c => (.ok ⟨c, o.kind⟩ : Except Err (Op V))) = .ok o' := by
    cases hk : o.kind <;> rw [hk] at hb <;> simp only [hk] at h <;> first | exact h | cases hb
  obtain ⟨c, h1, h2⟩ := bind_eq_ok.1 h
  cases h2
  unfold Core.receiveDataBase at h1
  dsimp only at h1
  split at h1
  · cases h1
  · rename_i i hi
    obtain ⟨i', h3, h4⟩ := bind_eq_ok.1 h1
    cases h4
    rcases mem_put he with h | h
    · exact hs hb e h
    · rw [h]
      exact receive_le (hs hb _ (find?_mem hi)) h3

theorem snug_same {o o' : Op V} (hs : Snug o) (hk : o'.kind.fresh = o.kind.fresh) (hd : o'.core.dataIn = o.core.dataIn) : Snug o' := by
  intro hb e he
  rw [← based_fresh, hk, based_fresh] at hb
  rw [hd] at he
  exact hs hb e he

theorem snug_recvCtrl {o o' : Op V} (hs : Snug o) {m : Msg V} {p : Str} (h : o.recvCtrl m p = .ok o') : Snug o' := by
  obtain ⟨cc, h1, rfl⟩ := recvCtrl_cases h
  refine snug_same hs rfl ?_
  rcases h1 with h1 | h1
  · unfold Core.receiveCtrlDemux at h1
    dsimp only at h1
    split at h1
    · cases h1
    · cases h1; rfl
  · unfold Core.receiveCtrlBase at h1
    dsimp only at h1
    split at h1
    · cases h1
    · obtain ⟨_, _, h2⟩ := bind_eq_ok.1 h1
      cases h2; rfl

theorem execBase_data (o : Op V) : o.execBase.state.core.dataIn = o.core.dataIn := by
  unfold Op.execBase
  split
  · rfl
  · dsimp only
    split
    · rfl
    · split <;> rfl

theorem snug_act {o : Op V} (hw : o.core.WF) (hs : Snug o) (x : Act V) : Snug (act o x).1 := by
  have hf := act_fresh o hw x
  have hk : (act o x).1.kind.fresh = o.kind.fresh := congrArg Op.kind hf
  cases x with
  | recvData p m =>
    simp only [act]
    cases h : o.recvData m p with
    | ok o' => exact snug_recvData hs h
    | error e => exact hs
  | recvCtrl p m =>
    simp only [act]
    cases h : o.recvCtrl m p with
    | ok o' => exact snug_recvCtrl hs h
    | error e => exact hs
  | execData =>
    intro hb
    have hb0 := hb
    rw [← based_fresh, hk, based_fresh] at hb
    have he : o.execData = o.execBase := by
      unfold Op.execData
      cases h : o.kind <;> rw [h] at hb <;> first | rfl | cases hb
    have h1 : (act o .execData).1.core.dataIn = o.core.dataIn := by
      simp only [act]
      rw [← execBase_data o, ← he]
      cases o.execData <;> rfl
    exact snug_same hs hk h1 hb0
  | execCtrl =>
    intro hb
    have hb0 := hb
    rw [← based_fresh, hk, based_fresh] at hb
    have h1 : (act o .execCtrl).1 = o := by
      simp only [act]
      unfold Op.execCtrl
      cases h : o.kind <;> rw [h] at hb <;> first | rfl | cases hb
    rw [h1] at hb0 ⊢
    exact hs hb0

theorem snug_after {o : Op V} (hw : o.core.WF) (hs : Snug o) (as : List (Act V)) : Snug (after o as) := by
  induction as generalizing o with
  | nil => exact hs
  | cons x as ih => exact ih (Core.WF.of_fresh (congrArg Op.core (act_fresh o hw x)) hw) (snug_act hw hs x)

end Rtbot
