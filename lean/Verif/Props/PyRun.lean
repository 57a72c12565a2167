import Verif.Lemmas.PyRun
import Verif.Props.Double

/-! # C72: running a program over a table in Python -/

namespace Rtbot
open Spec
variable {V : Type} [Num V]

/-- The situation in which a run starts: the description is valid and a program can be created from it, its id is free and nothing waits for it, and no row has
more values than the entry operator has ports. -/
structure Runnable (py : PyEnv V) (junk : Junk V) (p : PyProgram V) (rows : List (UInt64 × List V)) (F : Factory V) (P : Prog V) (ports : List Str) : Prop where
  valid : py.api.valid (py.dumps p.toJson) = none
  created : Prog.create py.api.parse junk (py.dumps p.toJson) = .ok P
  entry : P.entryPorts = .ok ports
  free : F.programs.find? p.id = none
  idle : F.buffered p.id = []
  short : ∀ r ∈ rows, r.2.length ≤ ports.length

/-- The ports of the entry operator are in order. -/
theorem entryPorts_sorted {junk : Junk V} {json : Str} {j : Json V} {P : Prog V} (h : Prog.initWith junk json j = .ok P) {ports : List Str}
    (hp : P.entryPorts = .ok ports) : ports.Pairwise fun p q => strLt p q = true := by
  unfold Prog.entryPorts at hp
  split at hp
  · cases hp
  · cases ha : P.ops.find? P.entry with
    | none => rw [ha] at hp; cases hp
    | some a =>
      rw [ha] at hp
      cases ho : P.st.heap a with
      | none => simp only [ho] at hp; cases hp
      | some o =>
        simp only [ho] at hp
        cases hp
        exact (created_wf h a o ho).data

theorem exec_start {py : PyEnv V} {junk : Junk V} {p : PyProgram V} {rows : List (UInt64 × List V)} {F : Factory V} {P : Prog V} {ports : List Str}
    (h : Runnable py junk p rows F P ports) : pyExec py junk p rows F =
      match pyRows py p.id ports rows [] { F with programs := F.programs.put p.id P } with
      | .err e F => .err e F
      | .ok c F => .ok c { F with programs := F.programs.erase p.id } := by
  have hh : F.programs.has p.id = false := by unfold Map.has; rw [h.free]; rfl
  have hcr : F.createChecked py.api.valid py.api.parse junk p.id (py.dumps p.toJson) = .ok (some []) { F with programs := F.programs.put p.id P } := by
    unfold Factory.createChecked
    rw [h.valid]
    simp only [Factory.createJson, h.created, Map.emplace, hh]
    rfl
  have hep : Factory.entryPorts { F with programs := F.programs.put p.id P } p.id = .ok ports { F with programs := F.programs.put p.id P } := by
    unfold Factory.entryPorts
    simp only [Map.find?_put_self, h.entry]
  unfold pyExec
  rw [hcr]
  simp only [hep, if_true]
  cases pyRows py p.id ports rows [] { F with programs := F.programs.put p.id P } <;> rfl

omit [Num V] in
theorem created_init {parse : Parser V} [Num V] {junk : Junk V} {s : Str} {P : Prog V} (h : Prog.create parse junk s = .ok P) :
    ∃ j, Prog.initWith junk s j = .ok P := by
  unfold Prog.create at h
  cases hj : parse s with
  | error e => rw [hj] at h; cases h
  | ok j => rw [hj] at h; exact ⟨j, h⟩

/-- C72: a run over a table calls the program once for each row, with the values on the ports in order. When all the calls return, the run returns the
columns: for each operator and each of its ports all that the reports list, in order, and there are no further columns. Afterwards the registry is as before.

`hw` says that the values of the reports can be read from their texts, which is not so for NaN and infinities. -/
theorem C72_columns {py : PyEnv V} {junk : Junk V} {p : PyProgram V} {rows : List (UInt64 × List V)} {F : Factory V} {P P' : Prog V} {ports : List Str}
    (h : Runnable py junk p rows F P ports) {rs : List (ProgMsg V)} (hr : debugRun py.api.fuel (tableCalls ports rows) P = .ok rs P')
    (hw : ∀ r ∈ rs, ∀ o q, ∀ m ∈ listed r o q, (py.wire m.value).isSome = true) :
    ∃ c F', pyExec py junk p rows F = .ok c F' ∧ (∀ b, SameView b F F') ∧
      (∀ o q, (58 : UInt8) ∉ q → ColumnOf py.wire c (o ++ [58] ++ q) (rs.flatMap fun r => listed r o q)) ∧
      ∀ k, c.find? k ≠ none → ∃ o q, k = o ++ [58] ++ q ∧ (58 : UInt8) ∉ q ∧ (rs.flatMap fun r => listed r o q) ≠ [] := by
  obtain ⟨j, hj⟩ := created_init h.created
  have hrun := pyRows_run (py := py) hj (entryPorts_sorted hj h.entry) (rows := rows) (id := p.id) (c := []) (F := { F with programs := F.programs.put p.id P })
    (g := fun _ => []) (K := fun _ => False) (Recalls.refl P) (by simp) h.idle h.short ⟨fun k => rfl, fun k hk => absurd rfl hk⟩
  rw [hr] at hrun
  obtain ⟨c, F', g1, g2, g3, g4, _, g5, g6⟩ := hrun hw
  refine ⟨c, { F' with programs := F'.programs.erase p.id }, ?_, fun b => ?_, fun o q hq => ?_, fun k hk => ?_⟩
  · rw [exec_start h, g1]
  · by_cases hb : b = p.id
    · subst hb
      refine ⟨?_, ?_⟩
      · simp only [Map.find?_erase, if_true, h.free]
      · rw [h.idle]
        exact g3
    · have := g4 b hb
      refine ⟨?_, this.buf⟩
      simp only [Map.find?_erase, if_neg hb]
      exact this.prog.trans (Map.find?_put_ne _ _ hb)
  · have := g5.1 (joinName o q)
    simp only [List.nil_append] at this
    have he : (rs.flatMap fun r => picked (joinName o q) (flat r)) = rs.flatMap fun r => listed r o q := by
      rw [List.flatMap_def, List.flatMap_def]
      congr 1
      refine List.map_congr_left fun r hrm => ?_
      exact picked_flat (g6 r hrm).1 (g6 r hrm).2 hq
    rw [he] at this
    exact this
  · rcases g5.2 k hk with hf | ⟨r, hrm, o, q, rfl, hl⟩
    · cases hf
    · refine ⟨o, q, rfl, (g6 r hrm).2 o q hl, fun hc => hl ?_⟩
      exact List.flatMap_eq_nil_iff.1 hc r hrm

/-- C72: when a call for a row fails, the run fails in the same way.

Missing: the program is not deleted, see `C72_violated_left` and `C72_violated_again`. -/
theorem C72_failed_partial {py : PyEnv V} {junk : Junk V} {p : PyProgram V} {rows : List (UInt64 × List V)} {F : Factory V} {P P' : Prog V} {ports : List Str}
    (h : Runnable py junk p rows F P ports) {e : Err} (hr : debugRun py.api.fuel (tableCalls ports rows) P = .err e P')
    (hw : ∀ rs k Q, debugRun py.api.fuel ((tableCalls ports rows).take k) P = .ok rs Q → ∀ r ∈ rs, ∀ o q, ∀ m ∈ listed r o q, (py.wire m.value).isSome = true) :
    ∃ F', pyExec py junk p rows F = .err e F' ∧ (∀ b, b ≠ p.id → SameView b F F') ∧ F'.programs.find? p.id = some P' := by
  obtain ⟨j, hj⟩ := created_init h.created
  have hrun := pyRows_run (py := py) hj (entryPorts_sorted hj h.entry) (rows := rows) (id := p.id) (c := []) (F := { F with programs := F.programs.put p.id P })
    (g := fun _ => []) (K := fun _ => False) (Recalls.refl P) (by simp) h.idle h.short ⟨fun k => rfl, fun k hk => absurd rfl hk⟩
  rw [hr] at hrun
  obtain ⟨F', g1, g2, g3⟩ := hrun fun rs k Q hk => hw rs k Q hk
  refine ⟨F', ?_, fun b hb => ?_, g2⟩
  · rw [exec_start h, g1]
  · have := g3 b hb
    exact ⟨this.prog.trans (Map.find?_put_ne _ _ hb), this.buf⟩

/-- C72: an invalid program is never run: an exception is raised and the registry stays as it is, if the id is free. -/
theorem C72_invalid (py : PyEnv V) (junk : Junk V) (p : PyProgram V) (rows : List (UInt64 × List V)) (F : Factory V) {t : Str}
    (hv : py.api.valid (py.dumps p.toJson) = some t) (hf : F.programs.find? p.id = none) : pyExec py junk p rows F = .err (.exc .runtime) F := by
  unfold pyExec Factory.createChecked
  rw [hv]
  simp only [Factory.entryPorts, hf]

/-- C72: nor is a program run that already is in the registry when the new description is invalid: an exception is raised and nothing changes. -/
theorem C72_refused (py : PyEnv V) (junk : Junk V) (p : PyProgram V) (rows : List (UInt64 × List V)) (F : Factory V) {t : Str} (ht : t ≠ [])
    (hv : py.api.valid (py.dumps p.toJson) = some t) : ∃ e F', pyExec py junk p rows F = .err e F' ∧ ∀ b, SameView b F F' := by
  unfold pyExec Factory.createChecked
  rw [hv]
  dsimp only
  unfold Factory.entryPorts
  cases hf : F.programs.find? p.id with
  | none => exact ⟨_, F, rfl, fun b => ⟨rfl, rfl⟩⟩
  | some P =>
    dsimp only
    cases P.entryPorts with
    | error e => exact ⟨_, F, rfl, fun b => ⟨rfl, rfl⟩⟩
    | ok ports =>
      dsimp only
      rw [if_neg (by simpa using ht)]
      exact ⟨_, F, rfl, fun b => ⟨rfl, rfl⟩⟩

/-! ## Concrete cases -/

/-- The program of the tests of the registry, which adds up its input, as a Python program. -/
def pySum : PyProgram Int64 :=
  { id := b!"1a2b", operators := .arr [], connections := .arr [], entryOperator := .str b!"in", title := .null, description := .null,
    apiVersion := .str b!"v1", date := .str b!"2000-01-01", author := .null, license := .null }

/-- The environment of these tests. -/
def pySumEnv : PyEnv Int64 := ⟨sumEnv, fun _ => b!"{}", some⟩

/-- The outcome of a run without the registry. -/
def ranWith (F : Factory Int64) (rows : List (UInt64 × List Int64)) : Except Err (Columns Int64) := outcome (pyExec pySumEnv (fun _ => (0, 0)) pySum rows F)

/-- A concrete case: three rows, one of them without a value. -/
example : ranWith Factory.empty [(1, [5]), (2, []), (3, [7])] =
    .ok [(b!"in:o1", [1, 3], [5, 7]), (b!"ma:o1", [3], [8]), (b!"sum:o1", [1, 3], [5, 12])] := by decide +kernel

/-- The registry after a run that failed because a row has two values for one port. -/
def afterFailure : Factory Int64 := (pyExec pySumEnv (fun _ => (0, 0)) pySum [(1, [5]), (2, [1, 2])] Factory.empty).state

/-- C72 is violated: after a run that failed the program is still in the registry, and a message waits for it. -/
theorem C72_violated_left : afterFailure.programs.has b!"1a2b" = true ∧ afterFailure.buffered b!"1a2b" = [(i1, [⟨2, 1⟩])] := by decide +kernel

/-- C72 is violated: when the program is run again, it goes on from where the failed run stopped, and nothing is reported. -/
theorem C72_violated_again : ranWith Factory.empty [(3, [7])] = .ok [(b!"in:o1", [3], [7]), (b!"sum:o1", [3], [7])] ∧
    ranWith afterFailure [(3, [7])] = .ok [(b!"in:o1", [2, 3], [1, 7]), (b!"ma:o1", [2, 3], [5, 9]), (b!"sum:o1", [2, 3], [6, 13])] := ⟨by decide +kernel, by decide +kernel⟩

/-- A concrete case for C72_refused: the program is in the registry, the new description is invalid. -/
example : outcome (pyExec { pySumEnv with api := { sumEnv with valid := fun _ => some b!"error" } } (fun _ => (0, 0)) pySum [(3, [7])] afterFailure) =
    .error (.exc .runtime) := by decide +kernel

/-- A program with doubles, which multiplies its input by 2^1023. -/
def pyScale : PyEnv F64 :=
  ⟨⟨fun _ => .ok (.obj [(b!"connections", .arr [.obj [(b!"from", .str b!"in"), (b!"to", .str b!"s")]]), (b!"entryOperator", .str b!"in"),
      (b!"operators", .arr [.obj [(b!"id", .str b!"in"), (b!"type", .str b!"Input")],
        .obj [(b!"id", .str b!"s"), (b!"type", .str b!"Scale"), (b!"value", .float ⟨0x7FE0000000000000⟩)]])]), fun _ => none, 9⟩,
   fun _ => b!"{}", fun v => if v.isFin then some v else none⟩

/-- Its description does not matter, since the text is always read as the program above. -/
def pyBare : PyProgram F64 :=
  { id := b!"1a2b", operators := .arr [], connections := .arr [], entryOperator := .str b!"in", title := .null, description := .null,
    apiVersion := .str b!"v1", date := .str b!"2000-01-01", author := .null, license := .null }

/-- C72 is violated with doubles: when a result is infinite, which the library writes as `null`, the run fails instead of returning it. -/
theorem C72_violated_infinite : letI := plainPlatform
    (match outcome (pyExec pyScale (fun _ => (0, ⟨0⟩)) pyBare [(1, [Num.ofNat 1])] Factory.empty) with
      | .ok c => c.keys
      | .error _ => []) = [b!"in:o1", b!"s:o1"] ∧
    (match outcome (pyExec pyScale (fun _ => (0, ⟨0⟩)) pyBare [(1, [Num.ofNat 2])] Factory.empty) with
      | .ok _ => none
      | .error e => some e) = some (.exc .runtime) := by
  decide +kernel

end Rtbot
