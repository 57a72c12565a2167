import Verif.Spec.Times
import Verif.Spec.Built
import Verif.Lemmas.PortRun
import Verif.Lemmas.Sync
import Verif.Lemmas.Built

/-! # Operators emit at the times of the messages they got -/

set_option linter.unusedSectionVars false

namespace Rtbot
open Spec
variable {V : Type} [Num V]

namespace Times

/-- All buffered messages have times in `T`. -/
structure Held (T : UInt64 → Prop) (c : Core V) : Prop where
  data : ∀ e ∈ c.dataIn, 1 ≤ e.2.max ∧ ∀ m ∈ e.2.data, T m.time
  ctrl : ∀ e ∈ c.ctrlIn, ∀ m ∈ e.2.data, T m.time

/-- All messages have times in `T`. -/
def In (T : UInt64 → Prop) (out : OpMsg V) : Prop := ∀ e ∈ out, ∀ m ∈ e.2, T m.time

theorem Held.mono {T T' : UInt64 → Prop} {c : Core V} (h : Held T c) (hT : ∀ t, T t → T' t) : Held T' c :=
  ⟨fun e he => ⟨(h.data e he).1, fun m hm => hT _ ((h.data e he).2 m hm)⟩, fun e he m hm => hT _ (h.ctrl e he m hm)⟩

theorem in_nil (T : UInt64 → Prop) : In T ([] : OpMsg V) := by intro e he; cases he

theorem in_single {T : UInt64 → Prop} {m : Msg V} (h : T m.time) : In T (single m) := by
  intro e he x hx
  rw [List.mem_singleton.1 he] at hx
  rw [List.mem_singleton.1 hx]
  exact h

theorem in_emplace {T : UInt64 → Prop} {out : OpMsg V} {m : Msg V} (h : In T out) (hm : T m.time) (q : Str) : In T (Map.emplace out q [m]) := by
  intro e he x hx
  rcases mem_emplace he with h' | rfl
  · exact h e h' x hx
  · rw [List.mem_singleton.1 hx]; exact hm

theorem in_ite {T : UInt64 → Prop} {m : Msg V} (h : T m.time) (b : Bool) : In T (if b = true then single m else []) := by
  split
  · exact in_single h
  · exact in_nil _

/-- The ports scheduled for processing have messages. -/
def Filled (c : Core V) : Prop := c.toProcess ≠ [] ∧ ∀ p ∈ c.toProcess, ∃ i, c.dataIn.find? p = some i ∧ i.data ≠ []

theorem filled_sole {c : Core V} (hf : Filled c) {p : Str} (h : c.solePort = .ok p) : ∃ i, c.dataIn = [(p, i)] ∧ i.data ≠ [] ∧ p ∈ c.toProcess := by
  unfold Core.solePort at h
  split at h
  · next k i hd =>
    cases h
    obtain ⟨q, hq⟩ := List.exists_mem_of_ne_nil _ hf.1
    obtain ⟨j, hj, hne⟩ := hf.2 q hq
    rw [hd, Map.find?_cons] at hj
    split at hj
    · next he =>
      cases hj
      subst he
      exact ⟨i, hd, hne, hq⟩
    · cases hj
  · cases h

theorem dataLast_eq {c : Core V} {p : Str} {i : Inp V} (h : c.dataIn.find? p = some i) (hne : i.data ≠ []) {m : Msg V} (hm : c.dataLast p = .ok m) :
    i.data.getLast? = some m := by
  simp only [Core.dataLast, h] at hm
  split at hm
  · next h' => cases hm; exact h'
  · next h' => exact absurd (List.getLast?_eq_none_iff.1 h') hne

theorem dataFirst_eq {c : Core V} {p : Str} {i : Inp V} (h : c.dataIn.find? p = some i) (hne : i.data ≠ []) {m : Msg V} (hm : c.dataFirst p = .ok m) :
    i.data.head? = some m := by
  simp only [Core.dataFirst, h] at hm
  split at hm
  · next h' => cases hm; exact h'
  · next h' => exact absurd (List.head?_eq_none_iff.1 h') hne

theorem dataMsg_eq {c : Core V} {p : Str} {i : Inp V} {n : Nat} (h : c.dataIn.find? p = some i) (hne : i.data ≠ []) {m : Msg V} (hm : c.dataMsg p n = .ok m) :
    i.data[n]? = some m := by
  simp only [Core.dataMsg, h, if_neg hne] at hm
  split at hm
  · next h' => cases hm; exact h'
  · cases hm

theorem procLast_eq {c : Core V} (hf : Filled c) {f : Msg V → Except Err (OpMsg V × Kind V)} {r : OpMsg V × Kind V} (h : procLast c f = .ok r) :
    ∃ p i l, c.dataIn = [(p, i)] ∧ p ∈ c.toProcess ∧ i.data.getLast? = some l ∧ f l = .ok r := by
  unfold procLast at h
  obtain ⟨p, hp, h⟩ := bind_eq_ok.1 h
  obtain ⟨l, hl, h⟩ := bind_eq_ok.1 h
  obtain ⟨i, hd, hne, hq⟩ := filled_sole hf hp
  exact ⟨p, i, l, hd, hq, dataLast_eq (by rw [hd, Map.find?_cons, if_pos rfl]) hne hl, h⟩

theorem mem_of_sole {T : UInt64 → Prop} {c : Core V} (h : Held T c) {p : Str} {i : Inp V} (hd : c.dataIn = [(p, i)]) {m : Msg V} (hm : m ∈ i.data) : T m.time :=
  (h.data (p, i) (by rw [hd]; simp)).2 m hm

theorem procLast_times {T : UInt64 → Prop} {c : Core V} (h : Held T c) (hf : Filled c) {f : Msg V → Except Err (OpMsg V × Kind V)} {r : OpMsg V × Kind V}
    (hr : procLast c f = .ok r) (hF : ∀ l, T l.time → ∀ r, f l = .ok r → In T r.1) : In T r.1 := by
  obtain ⟨p, i, l, hd, _, hl, hfl⟩ := procLast_eq hf hr
  exact hF l (mem_of_sole h hd (List.mem_of_getLast? hl)) _ hfl

theorem find_sole {p : Str} {i : Inp V} {c : Core V} (hd : c.dataIn = [(p, i)]) : c.dataIn.find? p = some i := by rw [hd, Map.find?_cons, if_pos rfl]

theorem window_times {T : UInt64 → Prop} {c : Core V} (h : Held T c) (hf : Filled c) {p : Str} {l : Msg V} (hp : c.solePort = .ok p) (hl : c.dataLast p = .ok l) : T l.time := by
  obtain ⟨i, hd, hne, _⟩ := filled_sole hf hp
  exact mem_of_sole h hd (List.mem_of_getLast? (dataLast_eq (find_sole hd) hne hl))

theorem inputStep_times {T : UInt64 → Prop} {c : Core V} (h : Held T c) (hf : Filled c) {pm : Map Str} {acc r : OpMsg V × Map (Msg V)} {p : Str}
    (hp : p ∈ c.toProcess) (ha : In T acc.1) (hr : inputStep c pm acc p = .ok r) : In T r.1 := by
  obtain ⟨i, hi, hne⟩ := hf.2 p hp
  unfold inputStep at hr
  obtain ⟨m0, hm, hr⟩ := bind_eq_ok.1 hr
  have ht : T m0.time := (h.data _ (Sync.mem_of_find hi)).2 _ (List.mem_of_getElem? (dataMsg_eq hi hne hm))
  dsimp only at hr
  have hsend : ∀ r', (match pm.find? p with
      | none => undefined .endDeref
      | some q => .ok (Map.emplace acc.1 q [m0], (acc.2.erase p).emplace p m0) : Except Err (OpMsg V × Map (Msg V))) = .ok r' → In T r'.1 := by
    intro r' hr'
    split at hr'
    · cases hr'
    · cases hr'
      exact in_emplace ha ht _
  split at hr
  · split at hr
    · exact hsend _ hr
    · cases hr; exact ha
  · exact hsend _ hr

theorem foldlM_times {α β : Type} {P : β → Prop} {f : β → α → Except Err β} {l : List α} : ∀ {b r : β}, P b → l.foldlM f b = .ok r →
    (∀ b a r, a ∈ l → P b → f b a = .ok r → P r) → P r := by
  induction l with
  | nil => intro b r hb hr _; cases hr; exact hb
  | cons a l ih =>
    intro b r hb hr hf
    rw [List.foldlM_cons] at hr
    obtain ⟨b', h1, h2⟩ := bind_eq_ok.1 hr
    exact ih (hf b a b' List.mem_cons_self hb h1) h2 fun b a r ha => hf b a r (List.mem_cons_of_mem _ ha)

theorem process_times {T : UInt64 → Prop} {o : Op V} (h : Held T o.core) (hf : Filled o.core) (hk : ¬ OwnTimes o.kind) {r : OpMsg V × Kind V}
    (hr : o.process = .ok r) : In T r.1 := by
  unfold Op.process at hr
  dsimp only at hr
  split at hr
  case h_1 pm last he =>
    obtain ⟨x, hx, hr⟩ := bind_eq_ok.1 hr
    cases hr
    exact foldlM_times (P := fun b => In T b.1) (in_nil T) hx fun b p r hp hb hr => inputStep_times h hf hp hb hr
  case h_2 pm he =>
    obtain ⟨x, hx, hr⟩ := bind_eq_ok.1 hr
    cases hr
    refine foldlM_times (P := fun b => In T b) (in_nil T) hx fun b p r hp hb hr => ?_
    obtain ⟨i, hi, hne⟩ := hf.2 p hp
    obtain ⟨m0, hm, hr⟩ := bind_eq_ok.1 hr
    have ht : T m0.time := (h.data _ (Sync.mem_of_find hi)).2 _ (List.mem_of_getLast? (dataLast_eq hi hne hm))
    split at hr
    · cases hr
    · cases hr
      exact in_emplace hb ht _
  case h_3 => cases hr; exact in_nil T
  case h_4 => exact procLast_times h hf hr fun l hl r hr => by cases hr; exact in_ite hl _
  case h_5 => exact procLast_times h hf hr fun l hl r hr => by cases hr; exact in_single hl
  case h_6 => exact procLast_times h hf hr fun l hl r hr => by cases hr; exact in_single hl
  case h_7 => exact procLast_times h hf hr fun l hl r hr => by cases hr; exact in_single hl
  case h_8 => exact procLast_times h hf hr fun l hl r hr => by cases hr; exact in_single hl
  case h_9 =>
    obtain ⟨p, hp, hr⟩ := bind_eq_ok.1 hr
    obtain ⟨m, hm, hr⟩ := bind_eq_ok.1 hr
    cases hr
    obtain ⟨i, hd, hne, _⟩ := filled_sole hf hp
    exact in_single (mem_of_sole h hd (List.mem_of_head? (dataFirst_eq (find_sole hd) hne hm)))
  case h_10 => exact procLast_times h hf hr fun l hl r hr => by cases hr; exact in_single hl
  case h_11 => exact procLast_times h hf hr fun l hl r hr => by cases hr; exact in_single hl
  case h_12 he => exact absurd (by rw [he]; trivial) hk
  case h_13 =>
    obtain ⟨p, hp, hr⟩ := bind_eq_ok.1 hr
    obtain ⟨i, _, hr⟩ := bind_eq_ok.1 hr
    obtain ⟨l, hl, hr⟩ := bind_eq_ok.1 hr
    cases hr
    exact in_single (m := ⟨_, _⟩) (window_times (l := l) h hf hp hl)
  case h_14 =>
    obtain ⟨p, hp, hr⟩ := bind_eq_ok.1 hr
    obtain ⟨i, _, hr⟩ := bind_eq_ok.1 hr
    obtain ⟨l, hl, hr⟩ := bind_eq_ok.1 hr
    cases hr
    exact in_single (m := ⟨_, _⟩) (window_times (l := l) h hf hp hl)
  case h_15 =>
    obtain ⟨p, hp, hr⟩ := bind_eq_ok.1 hr
    obtain ⟨i, _, hr⟩ := bind_eq_ok.1 hr
    obtain ⟨l, hl, hr⟩ := bind_eq_ok.1 hr
    cases hr
    obtain ⟨i, hd, hne, _⟩ := filled_sole hf hp
    dsimp only
    split
    · exact in_nil T
    · exact in_single (mem_of_sole h hd (List.mem_of_getElem? (dataMsg_eq (find_sole hd) hne hl)))
  case h_16 =>
    obtain ⟨p, hp, hr⟩ := bind_eq_ok.1 hr
    obtain ⟨i, _, hr⟩ := bind_eq_ok.1 hr
    obtain ⟨l, hl, hr⟩ := bind_eq_ok.1 hr
    obtain ⟨v, _, hr⟩ := bind_eq_ok.1 hr
    cases hr
    exact in_single (m := ⟨_, _⟩) (window_times (l := l) h hf hp hl)
  case h_17 he => exact absurd (by rw [he]; trivial) hk
  case h_18 he => exact absurd (by rw [he]; trivial) hk
  case h_19 he => exact absurd (by rw [he]; trivial) hk
  case h_20 he => exact absurd (by rw [he]; trivial) hk
  case h_21 =>
    refine procLast_times h hf hr fun l hl r hr => ?_
    obtain ⟨v, _, hr⟩ := bind_eq_ok.1 hr
    cases hr
    exact in_single hl
  case h_22 prev he =>
    unfold procRsi at hr
    obtain ⟨p, hp, hr⟩ := bind_eq_ok.1 hr
    obtain ⟨i, _, hr⟩ := bind_eq_ok.1 hr
    dsimp only at hr
    cases prev with
    | none =>
      obtain ⟨gl, _, hr⟩ := bind_eq_ok.1 hr
      obtain ⟨l, hl, hr⟩ := bind_eq_ok.1 hr
      cases hr
      exact in_single (m := ⟨_, _⟩) (window_times (l := l) h hf hp hl)
    | some pr =>
      obtain ⟨_, _, hr⟩ := bind_eq_ok.1 hr
      obtain ⟨_, _, hr⟩ := bind_eq_ok.1 hr
      obtain ⟨gl, _, hr⟩ := bind_eq_ok.1 hr
      obtain ⟨l, hl, hr⟩ := bind_eq_ok.1 hr
      cases hr
      exact in_single (m := ⟨_, _⟩) (window_times (l := l) h hf hp hl)
  case h_23 => cases hr; exact in_nil T

theorem filled_ready {T : UInt64 → Prop} {c : Core V} (h : Held T c) {ready : List Str} (hr : c.readyPorts = .ok ready) (hne : ready ≠ []) :
    Filled { c with toProcess := ready } := by
  unfold Core.readyPorts at hr
  split at hr
  · cases hr
    refine ⟨hne, fun p hp => ?_⟩
    have := (List.mem_filter.1 hp).2
    dsimp only at this ⊢
    split at this
    · next i hi =>
      refine ⟨i, hi, fun hx => ?_⟩
      have h1 := (h.data _ (Sync.mem_of_find hi)).1
      simp [hx] at this
      dsimp only at h1
      omega
    · cases this
  · cases hr

/-- What a call of `executeData` or `executeControl` may do. -/
def Fits (T : UInt64 → Prop) : Res (Op V) (OpMsg V) → Prop
  | .ok out o' => In T out ∧ Held T o'.core
  | .err _ o' => Held T o'.core

theorem execBase_times {T : UInt64 → Prop} {o : Op V} (h : Held T o.core)
    (hP : ∀ (c : Core V) r, Held T c → Filled c → (⟨c, o.kind⟩ : Op V).process = .ok r → In T r.1) : Fits T o.execBase := by
  unfold Op.execBase
  split
  · exact h
  · next ready hready =>
    dsimp only
    split
    · exact ⟨in_nil T, h.data, h.ctrl⟩
    · next hne =>
      split
      · exact ⟨h.data, h.ctrl⟩
      · next out k hr => exact ⟨hP { o.core with toProcess := ready } _ ⟨h.data, h.ctrl⟩ (filled_ready h hready hne) hr, h.data, h.ctrl⟩

/-! ## Join -/

theorem held_drop {T : UInt64 → Prop} {m : Map (Inp V)} (h : ∀ e ∈ m, 1 ≤ e.2.max ∧ ∀ x ∈ e.2.data, T x.time) (ref : Str) (t : UInt64) :
    ∀ e ∈ m.map (fun (p, i) => (p, if p = ref then i else i.dropOlder t)), 1 ≤ e.2.max ∧ ∀ x ∈ e.2.data, T x.time := by
  intro e he
  obtain ⟨⟨p, i⟩, hpi, rfl⟩ := List.mem_map.1 he
  dsimp only
  split
  · exact h _ hpi
  · have hd := Sync.dropOlder_data i t
    have hm : (i.dropOlder t).max = i.max := by
      have := congrArg Inp.max (Inp.fresh_dropOlder i t)
      exact this
    refine ⟨by rw [hm]; exact (h _ hpi).1, fun x hx => (h _ hpi).2 x ?_⟩
    rw [hd] at hx
    obtain ⟨d, hd', _⟩ := Sync.dropT_split t i.data
    dsimp only
    rw [hd']
    exact List.mem_append_right _ hx

theorem popAll_cons {p : Str} {i : Inp V} {m m' : Map (Inp V)} (h : popAll ((p, i) :: m) = .ok m') :
    ∃ a rest ms, i.data = a :: rest ∧ popAll m = .ok ms ∧ m' = (p, { i with data := rest, sum := i.sum -. a.value }) :: ms := by
  unfold popAll at h
  cases hd : i.data with
  | nil => simp only [Inp.popSum, hd] at h; cases h
  | cons a rest =>
    simp only [Inp.popSum, hd] at h
    obtain ⟨_, h0, h⟩ := bind_eq_ok.1 h
    cases h0
    obtain ⟨ms, h1, h2⟩ := bind_eq_ok.1 h
    cases h2
    exact ⟨a, rest, ms, rfl, h1, rfl⟩

theorem popAll_times {T : UInt64 → Prop} (m : Map (Inp V)) : ∀ {m'}, popAll m = .ok m' → (∀ e ∈ m, ∀ x ∈ e.2.data, T x.time) →
    (∀ e ∈ m', ∀ x ∈ e.2.data, T x.time) := by
  induction m with
  | nil => intro m' h; cases h; intro _ e he; cases he
  | cons e m ih =>
    obtain ⟨p, i⟩ := e
    intro m' h hT
    obtain ⟨a, rest, ms, hd, hms, rfl⟩ := popAll_cons h
    intro e he
    rcases List.mem_cons.1 he with rfl | he
    · intro x hx
      refine hT (p, i) List.mem_cons_self x ?_
      dsimp only
      rw [hd]
      exact List.mem_cons_of_mem _ hx
    · exact ih hms (fun e he => hT e (List.mem_cons_of_mem _ he)) e he

theorem popAll_max (m : Map (Inp V)) : ∀ {m'}, popAll m = .ok m' → (∀ e ∈ m, 1 ≤ e.2.max) → (∀ e ∈ m', 1 ≤ e.2.max) := by
  induction m with
  | nil => intro m' h; cases h; intro _ e he; cases he
  | cons e m ih =>
    obtain ⟨p, i⟩ := e
    intro m' h hT
    obtain ⟨a, rest, ms, hd, hms, rfl⟩ := popAll_cons h
    intro e he
    rcases List.mem_cons.1 he with rfl | he
    · exact hT (p, i) List.mem_cons_self
    · exact ih hms (fun e he => hT e (List.mem_cons_of_mem _ he)) e he

theorem joinMessages_times {T : UInt64 → Prop} (cm : Map Str) (m : Map (Inp V)) : ∀ {out r}, joinMessages cm m out = .ok r →
    (∀ e ∈ m, ∀ x ∈ e.2.data, T x.time) → In T out → In T r := by
  induction m with
  | nil => intro out r h _ ho; cases h; exact ho
  | cons e m ih =>
    obtain ⟨p, i⟩ := e
    intro out r h hT ho
    unfold joinMessages at h
    split at h
    · cases h
    · cases h
    · next a rest q hd hq =>
      refine ih h (fun e he => hT e (List.mem_cons_of_mem _ he)) (in_emplace ho (hT (p, i) List.mem_cons_self a ?_) _)
      dsimp only
      rw [hd]
      exact List.mem_cons_self

theorem linearLoop_times {T : UInt64 → Prop} (m : Map (Inp V)) : ∀ {cs : List V} {out r : Msg V}, linearLoop m cs out = .ok r →
    (∀ e ∈ m, ∀ x ∈ e.2.data, T x.time) → m ≠ [] ∨ T out.time → T r.time := by
  induction m with
  | nil =>
    intro cs out r h _ ho
    cases h
    rcases ho with h | h
    · exact absurd rfl h
    · exact h
  | cons e m ih =>
    obtain ⟨p, i⟩ := e
    intro cs out r h hT _
    unfold linearLoop at h
    split at h
    · cases h
    · cases h
    · next a rest c cs' hd =>
      refine ih h (fun e he => hT e (List.mem_cons_of_mem _ he)) (Or.inr (hT (p, i) List.mem_cons_self a ?_))
      dsimp only
      rw [hd]
      exact List.mem_cons_self

theorem execJoin_times {T : UInt64 → Prop} {o : Op V} (h : Held T o.core) : Fits T o.execJoin := by
  unfold Op.execJoin
  split
  · exact h
  · next p0 i0 rest hd =>
    split
    · exact ⟨in_nil T, h⟩
    · split
      · exact ⟨in_nil T, h⟩
      · next ref t _ =>
        have hdrop := held_drop h.data ref t
        dsimp only
        split
        · next hready =>
          split
          · exact ⟨hdrop, h.ctrl⟩
          · next out hout =>
            split
            · exact ⟨hdrop, h.ctrl⟩
            · next popped hpop =>
              refine ⟨?_, ?_, h.ctrl⟩
              · have hT := fun e he => (hdrop e he).2
                unfold joinProcess at hout
                dsimp only at hout
                split at hout
                · exact joinMessages_times _ _ hout hT (in_nil T)
                · unfold binaryMessages at hout
                  obtain ⟨m1, hm1, hout⟩ := bind_eq_ok.1 hout
                  obtain ⟨m0, hm0, hout⟩ := bind_eq_ok.1 hout
                  have ht : T m0.time := by
                    unfold Core.dataMsg at hm0
                    dsimp only at hm0
                    split at hm0
                    · cases hm0
                    · next i hi =>
                      have hmem := Sync.mem_of_find hi
                      split at hm0
                      · next hnil =>
                        have := List.all_eq_true.1 hready _ hmem
                        dsimp only at this
                        rw [hnil] at this
                        cases this
                      · split at hm0
                        · next m hm => cases hm0; exact hT _ hmem _ (List.mem_of_getElem? hm)
                        · cases hm0
                  split at hout
                  · cases hout; exact in_nil T
                  · cases hout; exact in_single ht
                · obtain ⟨m, hm, hout⟩ := bind_eq_ok.1 hout
                  cases hout
                  refine in_single (linearLoop_times _ hm hT (Or.inl ?_))
                  rw [hd]
                  simp
                · cases hout; exact in_nil T
              · exact fun e he => ⟨popAll_max _ hpop (fun e he => (hdrop e he).1) e he, popAll_times _ hpop (fun e he => (hdrop e he).2) e he⟩
        · exact ⟨in_nil T, hdrop, h.ctrl⟩

/-! ## Demultiplexer and Variable -/

theorem dropOlder_times {T : UInt64 → Prop} {i : Inp V} (h : ∀ x ∈ i.data, T x.time) (t : UInt64) : ∀ x ∈ (i.dropOlder t).data, T x.time := by
  intro x hx
  rw [Sync.dropOlder_data] at hx
  obtain ⟨d, hd', _⟩ := Sync.dropT_split t i.data
  exact h x (by rw [hd']; exact List.mem_append_right _ hx)

theorem demuxScan_times {T : UInt64 → Prop} (t : UInt64) (m : Map (Inp V)) : (∀ e ∈ m, ∀ x ∈ e.2.data, T x.time) →
    ∀ e ∈ (demuxScan t m).1, ∀ x ∈ e.2.data, T x.time := by
  induction m with
  | nil => intro _ e he; cases he
  | cons e m ih =>
    obtain ⟨p, i⟩ := e
    intro hT
    have h1 := dropOlder_times (hT (p, i) List.mem_cons_self) t
    have h2 := ih fun e he => hT e (List.mem_cons_of_mem _ he)
    unfold demuxScan
    dsimp only
    split
    · intro e he
      rcases List.mem_cons.1 he with rfl | he
      · exact h1
      · exact h2 e he
    · split
      · intro e he
        rcases List.mem_cons.1 he with rfl | he
        · exact h1
        · exact h2 e he
      · intro e he
        rcases List.mem_cons.1 he with rfl | he
        · exact h1
        · exact hT e (List.mem_cons_of_mem _ he)

theorem demuxMessages_times {T : UInt64 → Prop} (cm : Map Str) {a : Msg V} (ha : T a.time) (m : Map (Inp V)) : ∀ {out r}, demuxMessages cm a m out = .ok r →
    In T out → In T r := by
  induction m with
  | nil => intro out r h ho; cases h; exact ho
  | cons e m ih =>
    obtain ⟨p, i⟩ := e
    intro out r h ho
    unfold demuxMessages at h
    split at h
    · cases h
    · split at h
      · split at h
        · cases h
        · exact ih h (in_emplace ho ha _)
      · exact ih h ho

theorem execDemux_times {T : UInt64 → Prop} {o : Op V} (cm : Map Str) (h : Held T o.core) : Fits T (o.execDemux cm) := by
  unfold Op.execDemux
  split
  · next p i hd =>
    have hi := h.data (p, i) (by rw [hd]; exact List.mem_cons_self)
    split
    · exact ⟨in_nil T, h⟩
    · next a ms hdata =>
      have hs := demuxScan_times a.time o.core.ctrlIn h.ctrl
      dsimp only
      split
      · exact ⟨h.data, hs⟩
      · split
        · split
          · exact ⟨h.data, hs⟩
          · next out hout =>
            split
            · exact ⟨h.data, hs⟩
            · next ctrl' hpop =>
              dsimp only at hi
              refine ⟨demuxMessages_times cm (hi.2 a (by rw [hdata]; exact List.mem_cons_self)) _ hout (in_nil T), ?_, popAll_times _ hpop hs⟩
              intro e he
              rw [List.mem_singleton.1 he]
              exact ⟨hi.1, fun m hm => hi.2 m (by rw [hdata]; exact List.mem_cons_of_mem _ hm)⟩
        · exact ⟨in_nil T, h.data, hs⟩
  · exact h

theorem varSearch_sub (q : UInt64) : ∀ (l : List (Msg V)), ∀ m ∈ (varSearch q l).1, m ∈ l
  | [], m, h => h
  | [a], m, h => h
  | a :: b :: rest, m, h => by
    unfold varSearch at h
    split at h
    · exact h
    · split at h
      · exact List.mem_cons_of_mem _ h
      · exact List.mem_cons_of_mem _ (varSearch_sub q (b :: rest) m h)

theorem execVariable_times {T : UInt64 → Prop} {o : Op V} (v : V) (ini : Bool) (h : Held T o.core) : Fits T (o.execVariable v ini) := by
  unfold Op.execVariable
  split
  · next p i cp ci hd hc =>
    have hi := h.data (p, i) (by rw [hd]; exact List.mem_cons_self)
    have hci := h.ctrl (cp, ci) (by rw [hc]; exact List.mem_cons_self)
    dsimp only at hi hci
    split
    · exact ⟨in_nil T, h⟩
    · exact ⟨in_nil T, h⟩
    · next a ms q qs hdata hcd =>
      have hq : T q.time := hci q (by rw [hcd]; exact List.mem_cons_self)
      have hqs : ∀ m ∈ qs, T m.time := fun m hm => hci m (by rw [hcd]; exact List.mem_cons_of_mem _ hm)
      have done : ∀ (data : List (Msg V)) (b : Bool) (x : V), (∀ m ∈ data, m ∈ i.data) → Fits T (.ok (single ⟨q.time, x⟩)
          ({ core := { o.core with dataIn := [(p, { i with data := data })], ctrlIn := [(cp, { ci with data := qs })] }, kind := .variable v b } : Op V)) := by
        intro data b x hsub
        refine ⟨in_single hq, ?_, ?_⟩
        · intro e he
          rw [List.mem_singleton.1 he]
          exact ⟨hi.1, fun m hm => hi.2 m (hsub m hm)⟩
        · intro e he
          rw [List.mem_singleton.1 he]
          exact hqs
      dsimp only
      split
      · split
        · exact h
        · exact done _ _ _ fun m hm => hm
      · split
        · exact done _ _ _ fun m hm => hm
        · have hsub := varSearch_sub q.time (a :: ms)
          rw [← hdata] at hsub
          split
          · next data x hs =>
            rw [← hdata] at hs
            exact done _ _ _ fun m hm => hsub m (by rw [hs]; exact hm)
          · next data hs =>
            rw [← hdata] at hs
            refine ⟨in_nil T, ?_, h.ctrl⟩
            intro e he
            rw [List.mem_singleton.1 he]
            exact ⟨hi.1, fun m hm => hi.2 m (hsub m (by rw [hs]; exact hm))⟩
  · exact h

/-! ## Receiving -/

theorem receive_times {T : UInt64 → Prop} {i i' : Inp V} {m : Msg V} (hr : i.receive m = .ok i') (hm : T m.time) (h : ∀ x ∈ i.data, T x.time) :
    i'.max = i.max ∧ ∀ x ∈ i'.data, T x.time := by
  unfold Inp.receive at hr
  have hpush : ∀ j : Inp V, (∀ x ∈ j.data, T x.time) → ∀ x ∈ (j.push m).data, T x.time := by
    intro j hj x hx
    simp only [Inp.push, List.mem_append, List.mem_singleton] at hx
    rcases hx with hx | rfl
    · exact hj x hx
    · exact hm
  split at hr
  · unfold Inp.popSum at hr
    split at hr
    · cases hr
    · next i1 he =>
      split at he
      · cases he
      · next a rest hd =>
        cases he
        cases hr
        exact ⟨rfl, hpush _ fun x hx => h x (by rw [hd]; exact List.mem_cons_of_mem _ hx)⟩
  · split at hr
    · cases hr
    · cases hr
      exact ⟨rfl, hpush _ h⟩

theorem Held.putData {T : UInt64 → Prop} {c : Core V} (h : Held T c) {p : Str} {i : Inp V} (h1 : 1 ≤ i.max) (h2 : ∀ x ∈ i.data, T x.time) (tp : List Str) :
    Held T { c with dataIn := c.dataIn.put p i, toProcess := tp } :=
  ⟨fun e he => by
    rcases mem_put he with h' | rfl
    · exact h.data e h'
    · exact ⟨h1, h2⟩, h.ctrl⟩

theorem Held.putCtrl {T : UInt64 → Prop} {c : Core V} (h : Held T c) {p : Str} {i : Inp V} (h2 : ∀ x ∈ i.data, T x.time) :
    Held T { c with ctrlIn := c.ctrlIn.put p i } :=
  ⟨h.data, fun e he => by
    rcases mem_put he with h' | rfl
    · exact h.ctrl e h'
    · exact h2⟩

theorem push_times {T : UInt64 → Prop} {i : Inp V} {m : Msg V} (hm : T m.time) (h : ∀ x ∈ i.data, T x.time) : ∀ x ∈ (i.push m).data, T x.time := by
  intro x hx
  simp only [Inp.push, List.mem_append, List.mem_singleton] at hx
  rcases hx with hx | rfl
  · exact h x hx
  · exact hm

/-- Not an AutoRegressive operator. -/
def NotAR : Kind V → Prop
  | .autoReg _ => False
  | _ => True

theorem recvData_cases' {o o' : Op V} {m : Msg V} {q : Str} (h : o.recvData m q = .ok o') (hn : NotAR o.kind) :
    ∃ c, (o.core.receiveDataJoin m q = .ok c ∨ o.core.receiveDataDemux m q = .ok c ∨ o.core.receiveDataBase m q = .ok c) ∧ o' = { o with core := c } := by
  unfold Op.recvData at h
  cases hk : o.kind with
  | autoReg => rw [hk] at hn; exact hn.elim
  | _ =>
    simp only [hk] at h
    obtain ⟨c, h1, h2⟩ := bind_eq_ok.1 h
    cases h2
    refine ⟨c, ?_, by rw [← hk]⟩
    first | exact Or.inl h1 | exact Or.inr (Or.inl h1) | exact Or.inr (Or.inr h1)

theorem recvData_times {T : UInt64 → Prop} {o o' : Op V} {m : Msg V} {p : Str} (h : Held T o.core) (hk : NotAR o.kind) (hm : T m.time)
    (hr : o.recvData m p = .ok o') : Held T o'.core ∧ o'.kind = o.kind := by
  obtain ⟨c, hc, rfl⟩ := recvData_cases' hr hk
  refine ⟨?_, rfl⟩
  dsimp only
  rcases hc with hc | hc | hc
  · unfold Core.receiveDataJoin at hc
    split at hc
    · cases hc
    · split at hc
      · cases hc
      · next i hi =>
        cases hc
        have := h.data _ (Sync.mem_of_find hi)
        exact h.putData (i := i.push m) this.1 (push_times hm this.2) _
  · unfold Core.receiveDataDemux at hc
    dsimp only at hc
    split at hc
    · cases hc
    · next i hi =>
      cases hc
      have := h.data _ (Sync.mem_of_find hi)
      exact h.putData (i := i.push m) this.1 (push_times hm this.2) _
  · unfold Core.receiveDataBase at hc
    dsimp only at hc
    split at hc
    · cases hc
    · next i hi =>
      obtain ⟨i', hi', hc⟩ := bind_eq_ok.1 hc
      cases hc
      have := h.data _ (Sync.mem_of_find hi)
      obtain ⟨h1, h2⟩ := receive_times hi' hm this.2
      exact h.putData (by rw [h1]; exact this.1) h2 _

theorem recvCtrl_times {T : UInt64 → Prop} {o o' : Op V} {m : Msg V} {p : Str} (h : Held T o.core) (hm : T m.time)
    (hr : o.recvCtrl m p = .ok o') : Held T o'.core ∧ o'.kind = o.kind := by
  obtain ⟨c, hc, rfl⟩ := recvCtrl_cases hr
  refine ⟨?_, rfl⟩
  dsimp only
  rcases hc with hc | hc
  · unfold Core.receiveCtrlDemux at hc
    dsimp only at hc
    split at hc
    · cases hc
    · next i hi =>
      cases hc
      exact h.putCtrl (push_times hm (h.ctrl _ (Sync.mem_of_find hi)))
  · unfold Core.receiveCtrlBase at hc
    dsimp only at hc
    split at hc
    · cases hc
    · next i hi =>
      obtain ⟨i', hi', hc⟩ := bind_eq_ok.1 hc
      cases hc
      exact h.putCtrl (receive_times hi' hm (h.ctrl _ (Sync.mem_of_find hi))).2

/-! ## Sequences of calls -/

theorem in_msgsOn {T : UInt64 → Prop} {out : OpMsg V} (h : In T out) {q : Str} {m : Msg V} (hm : m ∈ msgsOn q out) : T m.time := by
  unfold msgsOn at hm
  split at hm
  · next ms hms => exact h _ (Sync.mem_of_find hms) m hm
  · cases hm

/-- The messages of a successful call. -/
def outOf : Except Err (OpMsg V) → OpMsg V
  | .ok out => out
  | .error _ => []

/-- The messages of the call all have times in `T`. -/
def Takes (T : UInt64 → Prop) (as : List (Act V)) : Prop := ∀ m p, .recvData p m ∈ as ∨ .recvCtrl p m ∈ as → T m.time

theorem execData_times {T : UInt64 → Prop} {o : Op V} (h : Held T o.core) (hn : NotAR o.kind)
    (hP : ∀ (c : Core V) r, Held T c → Filled c → (⟨c, o.kind⟩ : Op V).process = .ok r → In T r.1) : Fits T o.execData := by
  unfold Op.execData
  split
  · exact execJoin_times h
  · exact execJoin_times h
  · exact execJoin_times h
  · exact execDemux_times _ h
  · next he => rw [he] at hn; exact hn.elim
  · exact execVariable_times _ _ h
  · exact execBase_times h hP

theorem execCtrl_times {T : UInt64 → Prop} {o : Op V} (h : Held T o.core) : Fits T o.execCtrl := by
  unfold Op.execCtrl
  split
  · exact execDemux_times _ h
  · exact execVariable_times _ _ h
  · exact ⟨in_nil T, h⟩

theorem notAR_fresh {k k' : Kind V} (h : k'.fresh = k.fresh) (hk : NotAR k) : NotAR k' := by
  cases k' <;> first | trivial | (cases k <;> first | exact hk | cases h)

/-- All messages that the operator emits have times in `T`. -/
theorem run_times {T : UInt64 → Prop} (as : List (Act V)) : ∀ {o : Op V}, Held T o.core → NotAR o.kind →
    (∀ (c : Core V) k r, k.fresh = o.kind.fresh → Held T c → Filled c → (⟨c, k⟩ : Op V).process = .ok r → In T r.1) → Takes T as →
    ∀ q, ∀ m ∈ sent q (results o as), T m.time := by
  induction as with
  | nil => intro o _ _ _ _ q m hm; cases hm
  | cons a as ih =>
    intro o h hn hP ht q m hm
    have ht' : Takes T as := fun m p h => ht m p (h.imp (List.mem_cons_of_mem _) (List.mem_cons_of_mem _))
    have main : In T (outOf (act o a).2) ∧ Held T (act o a).1.core ∧ (act o a).1.kind.fresh = o.kind.fresh := by
      cases a with
      | recvData p x =>
        simp only [act]
        cases ho : o.recvData x p with
        | ok o' =>
          obtain ⟨h1, h2⟩ := recvData_times h hn (ht x p (Or.inl List.mem_cons_self)) ho
          exact ⟨in_nil T, h1, by rw [h2]⟩
        | error e => exact ⟨in_nil T, h, rfl⟩
      | recvCtrl p x =>
        simp only [act]
        cases ho : o.recvCtrl x p with
        | ok o' =>
          obtain ⟨h1, h2⟩ := recvCtrl_times h (ht x p (Or.inr List.mem_cons_self)) ho
          exact ⟨in_nil T, h1, by rw [h2]⟩
        | error e => exact ⟨in_nil T, h, rfl⟩
      | execData =>
        have h1 := execData_times h hn fun c r => hP c o.kind r rfl
        have h2 := congrArg Op.kind (execData_fresh o)
        simp only [act]
        cases hx : o.execData with
        | ok out o' => rw [hx] at h1 h2; exact ⟨h1.1, h1.2, h2⟩
        | err e o' => rw [hx] at h1 h2; exact ⟨in_nil T, h1, h2⟩
      | execCtrl =>
        have h1 := execCtrl_times h
        have h2 := congrArg Op.kind (execCtrl_fresh o)
        simp only [act]
        cases hx : o.execCtrl with
        | ok out o' => rw [hx] at h1 h2; exact ⟨h1.1, h1.2, h2⟩
        | err e o' => rw [hx] at h1 h2; exact ⟨in_nil T, h1, h2⟩
    obtain ⟨h1, h2, h3⟩ := main
    simp only [results, sent, List.flatMap_cons, List.mem_append] at hm
    rcases hm with hm | hm
    · split at hm
      · next out ho => rw [ho] at h1; exact in_msgsOn h1 hm
      · cases hm
    · exact ih h2 (notAR_fresh h3 hn) (fun c k r hk => hP c k r (hk.trans h3)) ht' q m hm

theorem ownTimes_fresh {k k' : Kind V} (h : k'.fresh = k.fresh) (hk : ¬ OwnTimes k) : ¬ OwnTimes k' := by
  intro h'
  apply hk
  cases k' <;> first | exact h'.elim | (cases k <;> first | trivial | cases h)

theorem held_new {o : Op V} (h : Built o) (T : UInt64 → Prop) : Held T o.core := by
  have hn := h.new.core
  refine ⟨fun e he => ?_, fun e he m hm => ?_⟩
  · obtain ⟨max, hm⟩ := hn.dataEmpty e he
    rw [hm]
    refine ⟨?_, fun m hm => by cases hm⟩
    simp only [Inp.new]
    split
    · decide
    · omega
  · obtain ⟨max, hmax⟩ := hn.ctrlEmpty e he
    rw [hmax] at hm
    cases hm

theorem takes_given (as : List (Act V)) : Takes (Given as) as := fun m p h => ⟨m, p, rfl, h⟩

/-! ## AutoRegressive -/

/-- The newest buffered message has a time in `T`. -/
def HeldLast (T : UInt64 → Prop) (c : Core V) : Prop := ∀ e ∈ c.dataIn, ∀ l, e.2.data.getLast? = some l → T l.time

theorem run_ar {T : UInt64 → Prop} (as : List (Act V)) : ∀ {o : Op V} {coeff : List V}, HeldLast T o.core → o.kind = .autoReg coeff → Takes T as →
    ∀ q, ∀ m ∈ sent q (results o as), T m.time := by
  induction as with
  | nil => intro o _ _ _ _ q m hm; cases hm
  | cons a as ih =>
    intro o coeff h hk ht q m hm
    have ht' : Takes T as := fun m p h => ht m p (h.imp (List.mem_cons_of_mem _) (List.mem_cons_of_mem _))
    have main : In T (outOf (act o a).2) ∧ HeldLast T (act o a).1.core ∧ (act o a).1.kind = .autoReg coeff := by
      cases a with
      | recvData p x =>
        simp only [act]
        cases ho : o.recvData x p with
        | ok o' =>
          simp only [Op.recvData, hk] at ho
          obtain ⟨c, hc, ho⟩ := bind_eq_ok.1 ho
          cases ho
          refine ⟨in_nil T, ?_, rfl⟩
          unfold Core.receiveDataAR at hc
          dsimp only at hc
          split at hc
          · cases hc
          · split at hc
            · cases hc
            · cases hc
              intro e he l hl
              rcases mem_put he with h' | rfl
              · exact h e h' l hl
              · dsimp only at hl
                rw [List.getLast?_concat] at hl
                cases hl
                exact ht _ p (Or.inl List.mem_cons_self)
        | error e => exact ⟨in_nil T, h, hk⟩
      | recvCtrl p x =>
        simp only [act]
        cases ho : o.recvCtrl x p with
        | ok o' =>
          simp only [Op.recvCtrl, hk] at ho
          obtain ⟨c, hc, ho⟩ := bind_eq_ok.1 ho
          cases ho
          refine ⟨in_nil T, ?_, rfl⟩
          unfold Core.receiveCtrlBase at hc
          dsimp only at hc
          split at hc
          · cases hc
          · obtain ⟨i', hi', hc⟩ := bind_eq_ok.1 hc
            cases hc
            exact h
        | error e => exact ⟨in_nil T, h, hk⟩
      | execData =>
        have h1 : Res.rec (motive := fun _ => Prop) (fun out o' => In T out ∧ HeldLast T o'.core ∧ o'.kind = .autoReg coeff)
            (fun _ o' => HeldLast T o'.core ∧ o'.kind = .autoReg coeff) o.execData := by
          simp only [Op.execData, hk, Op.execAR]
          split
          · next p i hd =>
            split
            · exact ⟨h, hk⟩
            · next l hl =>
              have hT := h (p, i) (by rw [hd]; exact List.mem_cons_self) l hl
              split
              · exact ⟨h, hk⟩
              · split
                · exact ⟨h, hk⟩
                · refine ⟨in_single hT, ?_, rfl⟩
                  intro e he l' hl'
                  rw [List.mem_singleton.1 he] at hl'
                  dsimp only at hl'
                  rw [List.getLast?_concat] at hl'
                  cases hl'
                  exact hT
          · exact ⟨h, hk⟩
        simp only [act]
        cases hx : o.execData with
        | ok out o' => rw [hx] at h1; exact h1
        | err e o' => rw [hx] at h1; exact ⟨in_nil T, h1⟩
      | execCtrl =>
        have : (act o .execCtrl) = (o, .ok []) := by simp only [act, Op.execCtrl, hk]
        rw [this]
        exact ⟨in_nil T, h, hk⟩
    obtain ⟨h1, h2, h3⟩ := main
    simp only [results, sent, List.flatMap_cons, List.mem_append] at hm
    rcases hm with hm | hm
    · split at hm
      · next out ho => rw [ho] at h1; exact in_msgsOn h1 hm
      · cases hm
    · exact ih h2 h3 ht' q m hm

theorem heldLast_new {o : Op V} (h : Built o) (T : UInt64 → Prop) : HeldLast T o.core := by
  intro e he l hl
  obtain ⟨max, hm⟩ := h.new.core.dataEmpty e he
  rw [hm] at hl
  cases hl

/-! ## ConstantResampler and Difference -/

theorem constLoop_le {dt t : UInt64} {v : V} : ∀ (fuel : Nat) {next : UInt64} {r : List (Msg V) × UInt64}, constLoop dt t v fuel next = .ok r →
    ∀ m ∈ r.1, m.time < t
  | 0, next, r, h => by cases h
  | fuel + 1, next, r, h => by
    unfold constLoop at h
    split at h
    · next hlt =>
      obtain ⟨x, hx, h⟩ := bind_eq_ok.1 h
      cases h
      intro m hm
      rcases List.mem_cons.1 hm with rfl | hm
      · exact hlt
      · exact constLoop_le fuel hx m hm
    · cases h; intro m hm; cases hm

theorem in_o1 {T : UInt64 → Prop} {ms : List (Msg V)} (h : ∀ m ∈ ms, T m.time) : In T (if ms = [] then [] else [(o1, ms)]) := by
  split
  · exact in_nil T
  · intro e he
    rw [List.mem_singleton.1 he]
    exact h

theorem constRes_times {T : UInt64 → Prop} (hT : ∀ s t, T t → s ≤ t → T s) {c : Core V} (h : Held T c) (hf : Filled c) {dt next : UInt64} {ini : Bool} {v : V}
    {r : OpMsg V × Kind V} (hr : procConstRes c dt next ini v = .ok r) : In T r.1 := by
  refine procLast_times h hf hr fun l hl r hr => ?_
  split at hr
  · obtain ⟨⟨ms, nx⟩, hx, hr⟩ := bind_eq_ok.1 hr
    have hle := constLoop_le _ hx
    dsimp only at hr hle
    split at hr
    · cases hr
      refine in_o1 fun m hm => ?_
      rcases List.mem_append.1 hm with hm | hm
      · exact hT _ _ hl (UInt64.le_of_lt (hle m hm))
      · rw [List.mem_singleton.1 hm]; exact hl
    · cases hr
      exact in_o1 fun m hm => hT _ _ hl (UInt64.le_of_lt (hle m hm))
  · cases hr; exact in_nil T

theorem difference_times {T : UInt64 → Prop} {c : Core V} (h : Held T c) (hf : Filled c) (hT : ∀ t, T t → ∀ t', toTimeE (V := V) (ofTime t) = .ok t' → T t')
    {r : OpMsg V × Kind V} (hr : procDifference c true = .ok r) : In T r.1 := by
  unfold procDifference at hr
  obtain ⟨p, hp, hr⟩ := bind_eq_ok.1 hr
  obtain ⟨m1, h1, hr⟩ := bind_eq_ok.1 hr
  obtain ⟨m0, _, hr⟩ := bind_eq_ok.1 hr
  obtain ⟨t, ht, hr⟩ := bind_eq_ok.1 hr
  cases hr
  obtain ⟨i, hd, hne, _⟩ := filled_sole hf hp
  exact in_single (m := ⟨_, _⟩) (hT _ (mem_of_sole h hd (List.mem_of_getElem? (dataMsg_eq (find_sole hd) hne h1))) _ ht)

end Times
end Rtbot
