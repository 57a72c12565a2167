import Verif.Lemmas.DefinedBuilt
import Verif.Props.Ports
import Verif.Props.Pipeline
import Verif.Props.Schema
import Verif.Props.Times
import Verif.Lemmas.DoubleArith
import Verif.Spec.Exact

set_option linter.unusedSectionVars false

/-! # C65: calls are never undefined -/

namespace Rtbot
variable {V : Type} [Num V]
open Spec

/-! ## One program -/

/-- What is kept between calls. -/
structure Steady (h0 : Nat → Option (Op V)) (P : Prog V) : Prop where
  ground : Ground h0
  live : Live h0 (fun _ => 0) P.st
  listed : ∀ e ∈ P.ops, ∃ o, h0 e.2 = some o

theorem Steady.call {h0 : Nat → Option (Op V)} {P : Prog V} (h : Steady h0 P) (fuel : Nat) (msgs : OpMsg V) :
    ¬ Undefined (P.receiveDebug fuel msgs) ∧ Steady h0 (P.receiveDebug fuel msgs).state := by
  unfold Prog.receiveDebug
  cases hf : P.ops.find? P.entry with
  | none => exact ⟨fun ⟨u, s, hc⟩ => (by cases hc), h⟩
  | some a =>
    dsimp only
    have := dk_feedAll h.ground fuel (h.listed _ (find?_mem hf)) msgs (fun _ => 0) P.st h.live
    cases hr : feedAll fuel a msgs P.st with
    | ok r s =>
      rw [hr] at this
      exact ⟨fun ⟨u, s, hc⟩ => (by cases hc), h.ground, this, h.listed⟩
    | err e s =>
      rw [hr] at this
      refine ⟨fun ⟨u, s, hc⟩ => ?_, h.ground, this.2, h.listed⟩
      simp only [Res.err.injEq] at hc
      exact this.1 u hc.1

theorem receive_state (fuel : Nat) (P : Prog V) (msgs : OpMsg V) : (P.receive fuel msgs).state = (P.receiveDebug fuel msgs).state := by
  unfold Prog.receive
  cases P.receiveDebug fuel msgs <;> rfl

theorem Steady.answer {h0 : Nat → Option (Op V)} {P : Prog V} (h : Steady h0 P) (debug : Bool) (fuel : Nat) (msgs : OpMsg V) :
    ¬ Undefined (P.answer debug fuel msgs) ∧ Steady h0 (P.answer debug fuel msgs).state := by
  obtain ⟨h1, h2⟩ := h.call fuel msgs
  unfold Prog.answer
  cases debug with
  | true => exact ⟨h1, h2⟩
  | false =>
    refine ⟨?_, by rw [if_neg (by simp), receive_state]; exact h2⟩
    rintro ⟨u, s, hc⟩
    rw [if_neg (by simp)] at hc
    unfold Prog.receive at hc
    cases hr : P.receiveDebug fuel msgs with
    | ok r s => rw [hr] at hc; cases hc
    | err e s =>
      rw [hr] at hc
      cases hc
      exact h1 ⟨u, s, hr⟩

theorem Steady.history {h0 : Nat → Option (Op V)} (fuel : Nat) (calls : List (OpMsg V)) : ∀ {P : Prog V}, Steady h0 P →
    Steady h0 (history fuel calls P) := by
  induction calls with
  | nil => intro P h; exact h
  | cons m calls ih => intro P h; exact ih (h.call fuel m).2

/-- C65: after any history of calls, also ones that failed, a call ends with a report or an exception, or not at all; it is never undefined. The program consists
of operators as the constructors build them, connected in any way, none of which does arithmetic that may be undefined.

Missing: CosineResampler, HermiteResampler, and a Difference that takes a value for a time, for all of which it is false. (Composites: `C65_composites`.) -/
theorem C65_run_partial {P : Prog V} (h : ∀ b o, P.st.heap b = some o → Connected o) (ht : ∀ b o, P.st.heap b = some o → Tame o)
    (hc : ConnsOK P.st.heap) (he : ∀ e ∈ P.ops, ∃ o, P.st.heap e.2 = some o) (fuel : Nat) (calls : List (OpMsg V)) (msgs : OpMsg V) :
    ¬ Undefined ((history fuel calls P).receiveDebug fuel msgs) ∧ ¬ Undefined ((history fuel calls P).receive fuel msgs) := by
  have hm : ∀ a o, P.st.heap a = some o → Made (bare o) := by
    intro a o ho
    obtain ⟨o0, outs, hb, rfl⟩ := h a o ho
    have : bare ({ o0 with core := { o0.core with outputs := outs } } : Op V) = o0 := (Made.built hb).bare_eq
    rw [this]
    exact .built hb
  have hs : Steady P.st.heap P := by
    refine ⟨ground_of_made hm ht hc ?_, live_of_made hm, he⟩
    intro b o ho ins outs pm hk
    obtain ⟨o0, outs', hb, rfl⟩ := h b o ho
    have := hb.new.simple
    unfold Simple at this
    rw [show o0.kind = _ from hk] at this
    exact this.elim
  have := hs.history fuel calls
  exact ⟨(this.answer true fuel msgs).1, (this.answer false fuel msgs).1⟩

theorem created_own {junk : Junk V} {json : Str} {j : Json V} {P : Prog V} (h : Prog.initWith junk json j = .ok P) (hm : Mild P.st.heap) :
    Steady P.st.heap P := by
  rcases initWith_orderly h with rfl | ⟨m, h1, h2, a, o, h3, h4, _⟩
  · exact ⟨⟨fun _ _ h => (by cases h), fun _ _ h => (by cases h), fun _ _ h => (by cases h), fun _ _ h => (by cases h), fun _ _ h => (by cases h)⟩,
      ⟨fun _ => rfl, fun _ _ h => (by cases h)⟩, fun _ h => by cases h⟩
  · have hmade : ∀ a o, P.st.heap a = some o → Made (bare o) := by rw [h2]; exact h1.made
    refine ⟨ground_of_made hmade hm.tame (by rw [h2]; exact h1.conns) ?_, live_of_made hmade, fun e hb => ?_⟩
    · intro b o' ho ins outs pm hk k t hf
      obtain ⟨tbl, g1, _⟩ := C50_program h ho hk
      obtain ⟨id, p, _, g2, ⟨ot, g3, _⟩, _⟩ := (g1.inputs k t).1 hf
      exact ⟨ot, g3, fun ⟨as, has⟩ => hm.shielded b o' ins outs pm ho hk k t ot as hf g3 has⟩
    · rcases initWith_wired h with rfl | ⟨_, _, _, m', _, _, g1, _, g2, _⟩
      · cases hb
      · obtain ⟨_, o', g3, _⟩ := g2.listed e.1 e.2 ((mem_of_find g2.sorted).2 hb)
        exact ⟨o', by rw [g1]; exact g3⟩

theorem created_steady {junk : Junk V} {json : Str} {j : Json V} {P : Prog V} (h : Prog.initWith junk json j = .ok P) (hm : Mild P.st.heap) :
    ∃ h0, Steady h0 P := ⟨_, created_own h hm⟩

/-- C65: the same for a program created from a description, with pipelines nested to any depth.

Missing: descriptions with a CosineResampler, a HermiteResampler, a Difference that takes a value for a time, or an AutoRegressive that receives
messages directly from the pipeline it is in. For all of them it is false. -/
theorem C65_created_partial {junk : Junk V} {json : Str} {j : Json V} {P : Prog V} (h : Prog.initWith junk json j = .ok P) (hm : Mild P.st.heap) (fuel : Nat)
    (calls : List (OpMsg V)) (msgs : OpMsg V) :
    ¬ Undefined ((history fuel calls P).receiveDebug fuel msgs) ∧ ¬ Undefined ((history fuel calls P).receive fuel msgs) := by
  obtain ⟨h0, hs⟩ := created_steady h hm
  have := hs.history fuel calls
  exact ⟨(this.answer true fuel msgs).1, (this.answer false fuel msgs).1⟩

/-! ## The registry -/

/-- All programs of the registry are steady. -/
def AllSteady (F : Factory V) : Prop := ∀ id P, F.programs.find? id = some P → ∃ h0, Steady h0 P

theorem AllSteady.put {F : Factory V} (h : AllSteady F) (id : Str) {P : Prog V} (hP : ∃ h0, Steady h0 P) :
    AllSteady { F with programs := F.programs.put id P } := by
  intro id' P' hf
  dsimp only at hf
  rw [Map.find?_put] at hf
  split at hf
  · cases hf; exact hP
  · exact h id' P' hf

theorem AllSteady.emplace {F : Factory V} (h : AllSteady F) (id : Str) {P : Prog V} (hP : ∃ h0, Steady h0 P) :
    AllSteady { F with programs := F.programs.emplace id P } := by
  intro id' P' hf
  dsimp only at hf
  rw [Map.find?_emplace] at hf
  split at hf
  · cases hq : F.programs.find? id with
    | none => rw [hq] at hf; cases hf; exact hP
    | some Q => rw [hq] at hf; cases hf; exact h id _ hq
  · exact h id' P' hf

/-- The call is defined and keeps the programs steady. -/
def Decent {α : Type} (r : Res (Factory V) α) : Prop := ¬ Undefined r ∧ AllSteady r.state

theorem decent_ok {α : Type} {F : Factory V} (h : AllSteady F) (x : α) : Decent (.ok x F) := ⟨fun ⟨_, _, hc⟩ => (by cases hc), h⟩

theorem decent_exc {α : Type} {F : Factory V} (h : AllSteady F) (e : Exc) : Decent (.err (.exc e) F : Res (Factory V) α) :=
  ⟨fun ⟨_, _, hc⟩ => (by cases hc), h⟩

theorem Decent.as {α : Type} {r : Res (Factory V) α} (h : Decent r) (f : α → Reply V) : Decent (r.as f) := by
  cases r with
  | ok x F => exact decent_ok h.2 _
  | err e F =>
    refine ⟨fun ⟨u, s, hc⟩ => h.1 ?_, h.2⟩
    cases hc
    exact ⟨u, _, rfl⟩

theorem Steady.op {h0 : Nat → Option (Op V)} {P : Prog V} (h : Steady h0 P) {id : Str} {a : Nat} (ha : P.ops.find? id = some a) :
    ∃ o, P.st.heap a = some o := by
  obtain ⟨o, ho⟩ := h.listed _ (find?_mem ha)
  obtain ⟨o', ho', _⟩ := h.live.shape.get ho
  exact ⟨o', ho'⟩

theorem serializeOps_total {h : Nat → Option (Op V)} (ops : Map Nat) : (∀ e ∈ ops, ∃ o, h e.2 = some o) → ∃ bs, serializeOps h ops = .ok bs := by
  induction ops with
  | nil => intro _; exact ⟨_, rfl⟩
  | cons e ops ih =>
    intro hs
    obtain ⟨o, ho⟩ := hs e (by simp)
    obtain ⟨bs, hb⟩ := ih fun e he => hs e (by simp [he])
    obtain ⟨id, a⟩ := e
    dsimp only at ho
    unfold serializeOps
    rw [ho, hb]
    exact ⟨_, rfl⟩

theorem decent_create {env : Env V} {F : Factory V} (h : AllSteady F) {junk : Junk V} {s : Str} (hm : MildText env.parse junk s) (id : Str) :
    Decent (F.createJson env.parse junk id s) := by
  unfold Factory.createJson
  cases hc : Prog.create env.parse junk s with
  | error e =>
    cases e with
    | exc e => cases e <;> first | exact decent_ok h _ | exact decent_exc h _
    | ub u => exact absurd hc (hm.1 u)
    | diverge => exact ⟨fun ⟨_, _, hc⟩ => (by cases hc), h⟩
  | ok P =>
    refine decent_ok (h.emplace id ?_) _
    have hP := hm.2 P hc
    unfold Prog.create at hc
    cases hp : env.parse s with
    | error e => rw [hp] at hc; cases hc
    | ok j =>
      rw [hp] at hc
      exact created_steady hc hP

theorem decent_map {F : Factory V} (h : AllSteady F) (debug : Bool) (fuel : Nat) (id : Str) (msgs : OpMsg V) : Decent (F.processMap debug fuel id msgs) := by
  unfold Factory.processMap
  cases hf : F.programs.find? id with
  | none => exact decent_ok h _
  | some P =>
    obtain ⟨h0, hs⟩ := h id P hf
    obtain ⟨h1, h2⟩ := hs.answer debug fuel msgs
    dsimp only
    cases hr : P.answer debug fuel msgs with
    | ok r P' =>
      rw [hr] at h2
      exact decent_ok (h.put id ⟨h0, h2⟩) _
    | err e P' =>
      rw [hr] at h1 h2
      refine ⟨fun ⟨u, s, hc⟩ => h1 ?_, h.put id ⟨h0, h2⟩⟩
      cases hc
      exact ⟨u, _, rfl⟩

theorem decent_buffer {F : Factory V} (h : AllSteady F) (debug : Bool) (fuel : Nat) (id : Str) : Decent (F.processBuffer debug fuel id) := by
  unfold Factory.processBuffer
  split
  · split
    · exact decent_ok h _
    · exact decent_ok h _
    · rename_i msgs _ _
      have := decent_map h debug fuel id msgs
      cases hr : F.processMap debug fuel id msgs with
      | err e F' => rw [hr] at this; exact this
      | ok r F' => rw [hr] at this; exact ⟨fun ⟨_, _, hc⟩ => (by cases hc), fun id' P hf => this.2 id' P hf⟩
  · exact decent_exc h _

theorem addAll_decent (id : Str) (xs : List (UInt64 × V × Str)) : ∀ {F : Factory V}, AllSteady F → Decent (F.addAll id xs) := by
  induction xs with
  | nil => intro F h; exact decent_ok h _
  | cons x xs ih =>
    intro F h
    obtain ⟨t, v, port⟩ := x
    unfold Factory.addAll Factory.add
    split
    · rename_i hr
      split at hr
      · cases hr
      · cases hr; exact decent_exc h _
    · rename_i hr
      split at hr
      · cases hr; exact ih h
      · cases hr

theorem serve_decent {env : Env V} {F : Factory V} (h : AllSteady F) {r : Req V} (hr : MildCall env r) : Decent (F.serve env r) := by
  cases r with
  | serialize id =>
    refine Decent.as ?_ _
    unfold Factory.serialize
    cases hf : F.programs.find? id with
    | none => exact decent_exc h _
    | some P =>
      obtain ⟨h0, hs⟩ := h id P hf
      dsimp only
      have hl : ∀ e ∈ P.ops, ∃ o, P.st.heap e.2 = some o := by
        intro e he
        obtain ⟨o, ho⟩ := hs.listed e he
        obtain ⟨o', ho', _⟩ := hs.live.shape.get ho
        exact ⟨o', ho'⟩
      obtain ⟨bs, hb⟩ := serializeOps_total P.ops hl
      have : P.serialize = .ok (putStr P.json ++ bs) := by unfold Prog.serialize; rw [hb]; rfl
      rw [this]
      exact decent_ok h _
  | createBytes junk id bytes => exact hr.elim
  | createJson junk id s => exact (decent_create h hr id).as _
  | createChecked junk id s =>
    refine Decent.as ?_ _
    unfold Factory.createChecked
    cases hv : env.valid s with
    | some t => exact decent_ok h _
    | none => exact decent_create h (hr hv) id
  | delete id =>
    refine (decent_ok ?_ _).as _
    intro id' P hf
    dsimp only at hf
    rw [Map.find?_erase] at hf
    split at hf
    · cases hf
    · exact h id' P hf
  | add id port m =>
    refine Decent.as ?_ _
    unfold Factory.add
    split
    · exact ⟨fun ⟨_, _, hc⟩ => (by cases hc), fun id' P hf => h id' P hf⟩
    · exact decent_exc h _
  | processBuffer debug id => exact (decent_buffer h debug env.fuel id).as _
  | processMap debug id msgs => exact (decent_map h debug env.fuel id msgs).as _
  | batch debug id ts vs ps =>
    refine Decent.as ?_ _
    unfold Factory.batch
    have : Decent (F.addBatch id ts vs ps) := by
      unfold Factory.addBatch
      split
      · exact decent_exc h _
      · exact addAll_decent id _ h
    cases hb : F.addBatch id ts vs ps with
    | err e F' =>
      rw [hb] at this
      refine ⟨fun ⟨u, s, hc⟩ => this.1 ?_, this.2⟩
      cases hc
      exact ⟨u, _, rfl⟩
    | ok x F' => rw [hb] at this; exact decent_buffer this.2 debug env.fuel id
  | entryId id =>
    refine Decent.as ?_ _
    unfold Factory.entryId
    cases F.programs.find? id with
    | none => exact decent_exc h _
    | some P => exact decent_ok h _
  | entryPorts id =>
    refine Decent.as ?_ _
    unfold Factory.entryPorts
    cases hf : F.programs.find? id with
    | none => exact decent_exc h _
    | some P =>
      obtain ⟨h0, hs⟩ := h id P hf
      dsimp only
      unfold Prog.entryPorts
      by_cases he : P.entry = []
      · rw [if_pos he]; exact decent_exc h _
      · rw [if_neg he]
        cases ha : P.ops.find? P.entry with
        | none => exact decent_exc h _
        | some a =>
          obtain ⟨o, ho⟩ := hs.op ha
          dsimp only
          rw [ho]
          exact decent_ok h _
  | outputFilter id =>
    refine Decent.as ?_ _
    unfold Factory.outputFilter
    cases F.programs.find? id with
    | none => exact decent_exc h _
    | some P => exact decent_ok h _

/-- C65: no sequence of calls of the interface, in any order, with any arguments and going on after exceptions, contains a call that is undefined. The programs are
created from texts; creating them is defined (see C63) and none has an operator for which the property is false.

Missing: programs with a CosineResampler, a HermiteResampler, a Difference that takes a value for a time, or an AutoRegressive that receives
messages directly from the pipeline it is in. Creation from a serialized program. -/
theorem C65_sessions_partial (env : Env V) (rs : List (Req V)) (h : ∀ r ∈ rs, MildCall env r) :
    ∀ x ∈ outcomes env Factory.empty rs, ∀ u, x ≠ .error (.ub u) := by
  have key : ∀ (rs : List (Req V)) (F : Factory V), AllSteady F → (∀ r ∈ rs, MildCall env r) → ∀ x ∈ outcomes env F rs, ∀ u, x ≠ .error (.ub u) := by
    intro rs
    induction rs with
    | nil => intro F _ _ x hx; cases hx
    | cons r rs ih =>
      intro F hF hr x hx u hu
      obtain ⟨h1, h2⟩ := serve_decent hF (hr r (by simp))
      simp only [outcomes, List.mem_cons] at hx
      rcases hx with rfl | hx
      · cases hs : F.serve env r with
        | ok y F' => rw [hs] at hu; cases hu
        | err e F' =>
          rw [hs] at hu h1
          cases hu
          exact h1 ⟨u, _, rfl⟩
      · exact ih _ h2 (fun r hr' => hr r (by simp [hr'])) x hx u hu
  exact key rs _ (fun _ _ h => by cases h) h

/-! ## Examples -/

theorem timesConvert_rat : TimesConvert ℚ := fun t => ⟨t, toTime_ofTime t⟩

/-- A text for every program of the examples. -/
def described (j : Json ℚ) : Parser ℚ := fun _ => .ok j

/-- An AutoRegressive behind an Input in a pipeline, connected to a Difference: mild. -/
def mildProgram : Json ℚ := .obj [
  (b!"connections", .arr [.obj [(b!"from", .str b!"p"), (b!"to", .str b!"d")]]), (b!"entryOperator", .str b!"p"),
  (b!"operators", .arr [.obj [(b!"id", .str b!"p"), (b!"prog", .obj [
      (b!"connections", .arr [.obj [(b!"from", .str b!"in"), (b!"to", .str b!"ar")]]),
      (b!"operators", .arr [.obj [(b!"id", .str b!"in"), (b!"type", .str b!"Input")],
        .obj [(b!"coeff", .arr [.uint 1]), (b!"id", .str b!"ar"), (b!"type", .str b!"AutoRegressive")]])]), (b!"type", .str b!"Pipeline")],
    .obj [(b!"id", .str b!"d"), (b!"type", .str b!"Difference"), (b!"useOldestTime", .bool true)]])]

/-- The memory holds the Input, the AutoRegressive, the pipeline and the Difference. -/
theorem mildProgram_mild : ∃ P, Prog.initWith (fun _ => (0, 0)) [] mildProgram = .ok P ∧ Mild P.st.heap ∧ P.st.heap 1 ≠ none := by
  refine ⟨_, rfl, ⟨?_, ?_⟩, fun h => by cases h⟩
  · intro a o ho
    match a, ho with
    | 0, ho => cases ho; trivial
    | 1, ho => cases ho; trivial
    | 2, ho => cases ho; trivial
    | 3, ho => cases ho; exact ⟨rfl, timesConvert_rat⟩
    | n + 4, ho => cases ho
  · intro a o ins outs pm ho hk k t ot as hf ht ha
    match a, ho with
    | 0, ho => cases ho; cases hk
    | 1, ho => cases ho; cases hk
    | 2, ho =>
      cases ho
      cases hk
      obtain rfl : t = 0 := by
        have : (k, t) ∈ [(b!"in:i1", 0)] := find?_mem hf
        simp only [List.mem_singleton, Prod.mk.injEq] at this
        exact this.2
      cases ht
      cases ha
    | 3, ho => cases ho; cases hk
    | n + 4, ho => cases ho

/-- A session with that program: it is created, used and serialized. -/
example : ∀ r ∈ ([.createJson (fun _ => (0, 0)) b!"a" [], .processMap true b!"a" [(i1, [⟨1, 2⟩])], .processMap false b!"a" [(b!"?", [⟨1, 2⟩])],
    .serialize b!"a"] : List (Req ℚ)), MildCall ⟨described mildProgram, fun _ => none, 30⟩ r := by
  intro r hr
  simp only [List.mem_cons, List.not_mem_nil, or_false] at hr
  rcases hr with rfl | rfl | rfl | rfl
  · obtain ⟨P, h1, h2, _⟩ := mildProgram_mild
    have hc : Prog.create (described mildProgram) (fun _ => (0, 0)) [] = .ok P := h1
    refine ⟨fun u h => ?_, fun P' h => ?_⟩
    · rw [hc] at h; cases h
    · rw [hc] at h; cases h; exact h2
  all_goals trivial

/-! ## Violations -/

theorem gridLoop_undefined (d : UInt64) : ∀ (fuel j : Nat), gridLoop d 0 0 fuel j = undefined .signedOverflow := by
  intro fuel
  induction fuel with
  | zero =>
    intro j
    unfold gridLoop
    simp
  | succ fuel ih =>
    intro j
    unfold gridLoop
    dsimp only
    rw [ih]
    simp only [UInt64.mul_zero, UInt64.sub_self, UInt64.zero_le, ge_iff_le, if_true]
    rfl

/-- A resampler as the entry operator. -/
def resampling (V : Type) (type : Str) : Json V := .obj [(b!"connections", .arr []), (b!"entryOperator", .str b!"r"),
  (b!"operators", .arr [.obj [(b!"dt", .uint 0), (b!"id", .str b!"r"), (b!"type", .str type)]])]

theorem procCosRes_undefined {c : Core V} {m m' : Msg V} (hs : c.solePort = .ok i1) (h1 : c.dataMsg i1 1 = .ok m') (h0 : c.dataMsg i1 0 = .ok m) :
    procCosRes c 0 0 = .error (.ub .signedOverflow) := by
  have : ∃ f, procCosRes c 0 0 = (gridLoop (m'.time - m.time) 0 0 intFuel 1).bind f := by
    rw [procCosRes, hs, show ∀ (k : Str → Except Err (OpMsg V × Kind V)), (Except.ok i1 >>= k) = k i1 from fun _ => rfl, h1,
      show ∀ (k : Msg V → Except Err (OpMsg V × Kind V)), (Except.ok m' >>= k) = k m' from fun _ => rfl, h0,
      show ∀ (k : Msg V → Except Err (OpMsg V × Kind V)), (Except.ok m >>= k) = k m from fun _ => rfl]
    exact ⟨_, rfl⟩
  obtain ⟨f, hf⟩ := this
  rw [hf, gridLoop_undefined]
  rfl

theorem process_cosine (c : Core V) : (⟨c, .cosRes 0 0⟩ : Op V).process = procCosRes c 0 0 := by
  unfold Op.process
  dsimp only

theorem execData_cosine {c : Core V} {i : Inp V} {m m' : Msg V} (hd : c.dataIn = [(i1, i)]) (hi : i.data = [m, m']) (hm : i.max = 2) (hp : c.toProcess = [i1]) :
    (⟨c, .cosRes 0 0⟩ : Op V).execData = .err (.ub .signedOverflow) ⟨c, .cosRes 0 0⟩ := by
  have hr : c.readyPorts = .ok [i1] := by
    simp [Core.readyPorts, hp, Core.isData, hd, Map.has, hm, hi]
  have hproc : procCosRes c 0 0 = .error (.ub .signedOverflow) :=
    procCosRes_undefined (m := m) (m' := m') (by simp [Core.solePort, hd]) (by simp [Core.dataMsg, hd, hi]) (by simp [Core.dataMsg, hd, hi])
  have hc : ({ c with toProcess := [i1] } : Core V) = c := by rw [← hp]
  unfold Op.execData Op.execBase
  simp only [hr, hc, process_cosine, hproc, if_false, List.cons_ne_self]

/-- A call with one message that goes wrong in the entry operator. -/
theorem entry_undefined {P : Prog V} {a : Nat} {o o' o'' : Op V} {m : Msg V} {p : Str} {u : UB} (ha : P.ops.find? P.entry = some a) (ho : P.st.heap a = some o)
    (hr : o.recvData m p = .ok o') (hx : o'.execData = .err (.ub u) o'')
    (hk : ∀ i q, o.kind ≠ .composite i q) (hk' : ∀ i q, o'.kind ≠ .composite i q) (hp : ∀ i q m, o.kind ≠ .pipeline i q m)
    (hp' : ∀ i q m, o'.kind ≠ .pipeline i q m) (fuel : Nat) : Undefined (P.receiveDebug (fuel + 1) [(p, [m])]) := by
  have h1 : recvData (fuel + 1) none a m p P.st = .ok () ⟨fun b => if b = a then some o' else P.st.heap b, P.st.depth, P.st.log ++ [.recv none a p false m]⟩ := by
    unfold recvData
    simp only [bind, M.bind, logEv, getOp, ho]
    cases hkind : o.kind <;> rw [hkind] at hk hp <;>
      first
      | exact (hk _ _ rfl).elim
      | exact (hp _ _ _ rfl).elim
      | (simp only [localRun, updWith, ho, hr]; rfl)
  have h2 : ∃ s', exec (fuel + 1) false a ⟨fun b => if b = a then some o' else P.st.heap b, P.st.depth, P.st.log ++ [.recv none a p false m]⟩ = .err (.ub u) s' := by
    refine ⟨St.setOp ⟨fun b => if b = a then some o' else P.st.heap b, P.st.depth, P.st.log ++ [.recv none a p false m] ++ [.exec a false]⟩ a o'', ?_⟩
    unfold exec
    simp only [bind, M.bind, logEv, getOp, if_true]
    cases hkind : o'.kind <;> rw [hkind] at hk' hp' <;>
      first
      | exact (hk' _ _ rfl).elim
      | exact (hp' _ _ _ rfl).elim
      | simp only [M.bind, localRun, Bool.false_eq_true, if_false, if_true, hx]
  obtain ⟨s', h2⟩ := h2
  refine ⟨u, { P with st := s' }, ?_⟩
  unfold Prog.receiveDebug
  rw [ha]
  simp only [feedAll, M.fold, feedPort, feed, bind, M.bind, h1, h2]

/-- C65 is violated: a CosineResampler with "dt" 0, which the schema accepts, overflows its loop counter at the second message, whatever the messages. -/
theorem C65_violated_cosine (junk : Junk V) (m m' : Msg V) : ∃ P, Prog.initWith junk [] (resampling V b!"CosineResampler") = .ok P ∧
    ∀ fuel, ∃ P', P.receiveDebug (fuel + 1) [(i1, [m])] = .ok [] P' ∧ Undefined (P'.receiveDebug (fuel + 1) [(i1, [m'])]) := by
  refine ⟨_, rfl, fun fuel => ⟨_, rfl, ?_⟩⟩
  have := execData_cosine (V := V) (c := { (Core.simple b!"r" 2 : Core V) with dataIn := [(i1, ((Inp.new i1 2).push m).push m')], toProcess := [i1] })
    (m := m) (m' := m') rfl rfl rfl rfl
  exact entry_undefined (a := 0) rfl rfl rfl this (fun _ _ h => by cases h) (fun _ _ h => by cases h) (fun _ _ _ h => by cases h) (fun _ _ _ h => by cases h) fuel

theorem resampling_accepted : validates (described (resampling ℚ b!"CosineResampler")) [] = true := by decide +kernel

/-- A pipeline with an AutoRegressive whose output is the query of a Variable. -/
def retrying : Json ℚ := .obj [(b!"connections", .arr []), (b!"entryOperator", .str b!"p"),
  (b!"operators", .arr [.obj [(b!"id", .str b!"p"), (b!"prog", .obj [
    (b!"connections", .arr [.obj [(b!"from", .str b!"ar"), (b!"to", .str b!"v"), (b!"toPort", .str b!"c1")]]),
    (b!"operators", .arr [.obj [(b!"coeff", .arr [.uint 1]), (b!"id", .str b!"ar"), (b!"type", .str b!"AutoRegressive")],
      .obj [(b!"id", .str b!"v"), (b!"type", .str b!"Variable"), (b!"value", .uint 0)]])]), (b!"type", .str b!"Pipeline")]])]

/-- Which way calls end: with a report, an exception, undefined behaviour, or not at all. -/
inductive Ending
  | report
  | exception
  | undefined
  | none
  deriving DecidableEq

/-- The way a call ends. -/
def ending {σ α : Type} : Res σ α → Ending
  | .ok _ _ => .report
  | .err (.exc _) _ => .exception
  | .err (.ub _) _ => .undefined
  | .err .diverge _ => .none

/-- The ways the calls of a sequence end. -/
def endings (fuel : Nat) : List (OpMsg ℚ) → Prog ℚ → List Ending
  | [], _ => []
  | m :: ms, P => ending (P.receiveDebug fuel m) :: endings fuel ms (P.receiveDebug fuel m).state

/-- C65 is violated: after a query that comes too early the pipeline has not forgotten that its AutoRegressive is to be executed. The next call, for another
port, executes it again without a message, and it removes a message from an empty buffer. -/
theorem C65_violated_retry : (match Prog.initWith (fun _ => (0, 0)) [] retrying with
    | .ok P => endings 20 [[(i2, [⟨5, 1⟩])], [(i1, [⟨5, 1⟩])], [(i1, [⟨3, 1⟩])], [(i2, [⟨6, 1⟩])]] P
    | .error _ => []) = [.report, .report, .exception, .undefined] := by decide +kernel

/-- A Difference as the only operator. -/
def differing (V : Type) [Num V] (b : Bool) : Prog V := ⟨[], [(b!"d", 0)], b!"d", [], ⟨fun a => if a = 0 then some (Op.newDifference b!"d" b) else none, 0, []⟩⟩

/-- A Difference that carries the time of a message satisfies the hypotheses of `C65_run_partial`. -/
example : (∀ b o, (differing ℚ true).st.heap b = some o → Connected o ∧ Tame o) ∧ ConnsOK (differing ℚ true).st.heap ∧
    (∀ e ∈ (differing ℚ true).ops, ∃ o, (differing ℚ true).st.heap e.2 = some o) := by
  have h : ∀ b o, (differing ℚ true).st.heap b = some o → o = Op.newDifference b!"d" true := by
    intro b o hb
    dsimp only [differing] at hb
    split at hb <;> cases hb
    rfl
  refine ⟨fun b o hb => ?_, fun b o hb p cs hm => ?_, fun e he => ?_⟩
  · rw [h b o hb]
    exact ⟨⟨_, [], .difference _ _, rfl⟩, rfl, timesConvert_rat⟩
  · rw [h b o hb] at hm
    cases hm
  · rw [List.mem_singleton.1 he]
    exact ⟨_, rfl⟩

/-- C65 is violated: a Difference that takes the oldest value for the time is undefined when that value is negative. -/
theorem C65_violated_difference : endings 20 [[(i1, [⟨1, -5⟩])], [(i1, [⟨2, 7⟩])]] (differing ℚ false) = [.report, .undefined] := by decide +kernel

/-- The largest time, as a double, is 2^64. -/
theorem ofTime_top [F64.Platform] : Num.toTime (ofTime 18446744073709551615 : F64) = none := by
  have h1 : (18446744073709551615 : UInt64).toNat = 18446744073709551615 := by decide
  have h2 : F64.toTime (F64.ofFrac false (18446744073709551615 * F64.one) 1) = none := by decide +kernel
  unfold ofTime
  rw [h1]
  exact h2

/-- C65 is violated with doubles: a Difference is undefined when a message has the largest time. -/
theorem C65_violated_time [F64.Platform] (x y : F64) (t : UInt64) : ∃ P', (differing F64 true).receiveDebug 20 [(i1, [⟨t, x⟩])] = .ok [] P' ∧
    Undefined (P'.receiveDebug 20 [(i1, [⟨18446744073709551615, y⟩])]) := by
  refine ⟨_, rfl, ?_⟩
  have hx : ∀ (c : Core F64), c.dataIn = [(i1, ((Inp.new i1 2).push ⟨t, x⟩).push ⟨18446744073709551615, y⟩)] → c.toProcess = [i1] →
      ∃ o', (⟨c, .difference true⟩ : Op F64).execData = .err (.ub .badConversion) o' := by
    intro c hd hp
    have hr : c.readyPorts = .ok [i1] := by
      simp [Core.readyPorts, hp, Core.isData, hd, Map.has, Inp.push, Inp.new]
    have hc : ({ c with toProcess := [i1] } : Core F64) = c := by rw [← hp]
    have hproc : procDifference c true = .error (.ub .badConversion) := by
      have h0 : c.solePort = .ok i1 := by simp [Core.solePort, hd]
      have h1 : c.dataMsg i1 1 = .ok ⟨18446744073709551615, y⟩ := by simp [Core.dataMsg, hd, Inp.push, Inp.new]
      have h2 : c.dataMsg i1 0 = .ok ⟨t, x⟩ := by simp [Core.dataMsg, hd, Inp.push, Inp.new]
      simp only [procDifference, h0, h1, h2, bind, Except.bind, toTimeE, if_true, ofTime_top, undefined]
    have hq : (⟨c, .difference true⟩ : Op F64).process = procDifference c true := by
      unfold Op.process
      dsimp only
    unfold Op.execData Op.execBase
    simp only [hr, hc, hq, hproc, if_false, List.cons_ne_self]
    exact ⟨_, rfl⟩
  obtain ⟨o', ho'⟩ := hx { (Core.simple b!"d" 2 : Core F64) with dataIn := [(i1, ((Inp.new i1 2).push ⟨t, x⟩).push ⟨18446744073709551615, y⟩)], toProcess := [i1] }
    rfl rfl
  exact entry_undefined (a := 0) rfl rfl rfl ho' (fun _ _ h => by cases h) (fun _ _ h => by cases h) (fun _ _ _ h => by cases h) (fun _ _ _ h => by cases h) 19

end Rtbot
