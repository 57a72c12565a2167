import Verif.Lemmas.JsRun
import Verif.Props.PyRun

/-! # C74: running a program in JavaScript -/

namespace Rtbot
open Spec
variable {V : Type} [Num V]

/-- The situation in which a run starts: the description is valid and a program can be created from it, its id is free and nothing waits for it, the entry operator has
ports, and each row has a time that the library can be given and a value for each port. -/
structure JsRunnable (js : JsEnv V) (junk : Junk V) (p : JsProgram V) (rows : List (V × List V)) (F : Factory V) (P : Prog V) (ports : List Str) : Prop where
  valid : js.api.valid (js.stringify p.toPlain) = none
  created : Prog.create js.api.parse junk (js.stringify p.toPlain) = .ok P
  entry : P.entryPorts = .ok ports
  some : ports ≠ []
  free : F.programs.find? p.programId = none
  idle : F.buffered p.programId = []
  full : ∀ r ∈ rows, (js.time r.1).isSome = true ∧ ports.length ≤ r.2.length

theorem jsCreate_ok {js : JsEnv V} {junk : Junk V} {p : JsProgram V} {F : Factory V} {P : Prog V} (hv : js.api.valid (js.stringify p.toPlain) = none)
    (hc : Prog.create js.api.parse junk (js.stringify p.toPlain) = .ok P) (hf : F.programs.find? p.programId = none) :
    jsCreate js junk p F = .ok () { F with programs := F.programs.put p.programId P } := by
  have hh : F.programs.has p.programId = false := by unfold Map.has; rw [hf]; rfl
  unfold jsCreate Factory.createChecked
  rw [hv]
  simp only [Factory.createJson, hc, Map.emplace, hh]
  rfl

theorem jsRun_start {O : Type} {js : JsEnv V} {record : List (Str × List (JsMsg V)) → JsReport V → O → O} {junk : Junk V} {p : JsProgram V} {rows : List (V × List V)}
    {out : O} {F : Factory V} {P : Prog V} {ports : List Str} (h : JsRunnable js junk p rows F P ports) : jsRun js record junk p rows out F =
      match jsRows js record p.programId ports rows out { F with programs := F.programs.put p.programId P } with
      | .err e F => .err e F
      | .ok c F => .ok c { F with programs := F.programs.erase p.programId } := by
  have hep : Factory.entryPorts { F with programs := F.programs.put p.programId P } p.programId = .ok ports { F with programs := F.programs.put p.programId P } := by
    unfold Factory.entryPorts
    simp only [Map.find?_put_self, h.entry]
  unfold jsRun
  rw [jsCreate_ok h.valid h.created h.free]
  simp only [hep]
  cases jsRows js record p.programId ports rows out { F with programs := F.programs.put p.programId P } <;> rfl

/-- What a run does, in terms of the calls of the program. -/
theorem jsRun_run {O : Type} {js : JsEnv V} {record : List (Str × List (JsMsg V)) → JsReport V → O → O} {junk : Junk V} {p : JsProgram V} {rows : List (V × List V)}
    {out : O} {F : Factory V} {P : Prog V} {ports : List Str} (h : JsRunnable js junk p rows F P ports) :
    match debugRun js.api.fuel (jsCalls js ports rows) P with
    | .err e P' => ∃ F', jsRun js record junk p rows out F = .err e F' ∧ F'.programs.find? p.programId = some P' ∧ ∀ b, b ≠ p.programId → SameView b F F'
    | .ok rs _ => ∃ F', jsRun js record junk p rows out F =
          .ok (((rows.map fun r => jsRow r.1 ports r.2).zip rs).foldl (fun o x => record x.1 (js.report x.2) o) out) F' ∧
        (∀ b, SameView b F F') ∧ rs.length = rows.length ∧ ∀ r ∈ rs, NoEmptyEntries r ∧ ∀ o p, listed r o p ≠ [] → (58 : UInt8) ∉ p := by
  obtain ⟨j, hj⟩ := created_init h.created
  have hrun := jsRows_run (js := js) (record := record) hj (entryPorts_sorted hj h.entry) h.some (rows := rows) (id := p.programId) (out := out)
    (F := { F with programs := F.programs.put p.programId P }) (Recalls.refl P) (by simp) h.idle h.full
  rw [jsRun_start h]
  revert hrun
  cases debugRun js.api.fuel (jsCalls js ports rows) P with
  | err e P' =>
    rintro ⟨F', g1, g2, g3⟩
    dsimp only
    rw [g1]
    refine ⟨F', rfl, g2, fun b hb => ?_⟩
    have := g3 b hb
    exact ⟨this.prog.trans (Map.find?_put_ne _ _ hb), this.buf⟩
  | ok rs P' =>
    rintro ⟨F', g1, g2, g3, g4, _, g6, g7⟩
    dsimp only
    rw [g1]
    refine ⟨{ F' with programs := F'.programs.erase p.programId }, rfl, fun b => ?_, g6, g7⟩
    by_cases hb : b = p.programId
    · subst hb
      refine ⟨?_, ?_⟩
      · simp only [Map.find?_erase, if_true, h.free]
      · rw [h.idle]
        exact g3
    · have := g4 b hb
      refine ⟨?_, this.buf⟩
      simp only [Map.find?_erase, if_neg hb]
      exact this.prog.trans (Map.find?_put_ne _ _ hb)

/-- C74: a run calls the program once for each row with the values on the ports in order. When all the calls return, the extended format has for each row what was
sent and the report. Afterwards the registry is as before. -/
theorem C74_extended {js : JsEnv V} {junk : Junk V} {p : JsProgram V} {rows : List (V × List V)} {F : Factory V} {P P' : Prog V} {ports : List Str}
    (h : JsRunnable js junk p rows F P ports) {rs : List (ProgMsg V)} (hr : debugRun js.api.fuel (jsCalls js ports rows) P = .ok rs P')
    (out : List (List (Str × List (JsMsg V)) × JsReport V)) :
    rs.length = rows.length ∧ ∃ F', (∀ b, SameView b F F') ∧ jsRunExtended js junk p rows out F =
      .ok (out ++ (rows.zip rs).map fun x => (jsRow x.1.1 ports x.1.2, js.report x.2)) F' := by
  have hrun := jsRun_run (record := fun s r (out : List (List (Str × List (JsMsg V)) × JsReport V)) => out ++ [(s, r)]) (out := out) h
  rw [hr] at hrun
  obtain ⟨F', g1, g2, g3, g4⟩ := hrun
  clear g4
  refine ⟨g3, F', g2, ?_⟩
  unfold jsRunExtended
  rw [g1]
  congr 1
  clear g1 g2 hr h
  induction rows generalizing rs out with
  | nil => simp
  | cons r rows ih =>
    cases rs with
    | nil => simp at g3
    | cons x rs =>
      simp only [List.map_cons, List.zip_cons_cons, List.foldl_cons]
      rw [ih (rs := rs) _ (by simpa using g3)]
      simp

/-- C74: in the collapsed format it has for each operator and each of its ports the times and the values of all that the reports list, in order; there is nothing else. -/
theorem C74_collapsed {js : JsEnv V} {junk : Junk V} {p : JsProgram V} {rows : List (V × List V)} {F : Factory V} {P P' : Prog V} {ports : List Str}
    (h : JsRunnable js junk p rows F P ports) {rs : List (ProgMsg V)} (hr : debugRun js.api.fuel (jsCalls js ports rows) P = .ok rs P') (c : Collapsed V) :
    ∃ c' F', (∀ b, SameView b F F') ∧ jsRunCollapsed js junk p rows c F = .ok c' F' ∧
      (∀ o q, (58 : UInt8) ∉ q → CollapsedOf js c c' (o ++ [58] ++ q) (rs.flatMap fun r => listed r o q)) ∧
      ∀ k, c'.find? k ≠ none → c.find? k ≠ none ∨ ∃ o q, k = o ++ [58] ++ q ∧ (58 : UInt8) ∉ q ∧ (rs.flatMap fun r => listed r o q) ≠ [] := by
  have hrun := jsRun_run (record := fun _ r (c : Collapsed V) => jsCollect r c) (out := c) h
  rw [hr] at hrun
  obtain ⟨F', g1, g2, g3, g4⟩ := hrun
  have hfold : ((rows.map fun r => jsRow r.1 ports r.2).zip rs).foldl (fun o x => jsCollect (js.report x.2) o) c = pushAll js (rs.flatMap flat) c := by
    clear g1 g2 hr h g4
    induction rs generalizing rows c with
    | nil => simp [pushAll]
    | cons x rs ih =>
      cases rows with
      | nil => simp at g3
      | cons r rows =>
        simp only [List.map_cons, List.zip_cons_cons, List.foldl_cons, List.flatMap_cons]
        rw [pushAll_append, ← collect_eq]
        exact ih _ (by simpa using g3)
  have hpick : ∀ k, picked k (rs.flatMap flat) = rs.flatMap fun r => picked k (flat r) := by
    intro k
    clear g1 g2 hr h g4 hfold g3
    induction rs with
    | nil => rfl
    | cons x rs ih => rw [List.flatMap_cons, List.flatMap_cons, picked_append, ih]
  refine ⟨pushAll js (rs.flatMap flat) c, F', g2, ?_, fun o q hq => ?_, fun k hk => ?_⟩
  · unfold jsRunCollapsed
    rw [g1, hfold]
  · have := find_pushAll js (joinName o q) (rs.flatMap flat) c
    have he : picked (joinName o q) (rs.flatMap flat) = rs.flatMap fun r => listed r o q := by
      rw [hpick, List.flatMap_def, List.flatMap_def]
      congr 1
      refine List.map_congr_left fun r hrm => ?_
      exact picked_flat (g4 r hrm).1 (g4 r hrm).2 hq
    rw [he] at this
    exact this
  · by_cases hc : c.find? k = none
    · refine Or.inr ?_
      have := find_pushAll js k (rs.flatMap flat) c
      unfold CollapsedOf at this
      rw [hc] at this
      cases hk' : (pushAll js (rs.flatMap flat) c).find? k with
      | none => exact absurd hk' hk
      | some y =>
        rw [hk'] at this
        have hne := this.1
        rw [hpick] at hne
        obtain ⟨m, hm⟩ := List.exists_mem_of_ne_nil _ hne
        obtain ⟨r, hr1, hm⟩ := List.mem_flatMap.1 hm
        unfold picked at hm
        obtain ⟨⟨k', m'⟩, hm', rfl⟩ := List.mem_map.1 hm
        obtain ⟨hm2, hkk⟩ := List.mem_filter.1 hm'
        simp only [decide_eq_true_eq] at hkk
        subst hkk
        obtain ⟨o, q, rfl, hl⟩ := mem_flat (g4 r hr1).1 hm2
        refine ⟨o, q, rfl, (g4 r hr1).2 o q (List.ne_nil_of_mem hl), List.ne_nil_of_mem (List.mem_flatMap.2 ⟨r, hr1, hl⟩)⟩
    · exact Or.inl hc

/-- C74: when a call for a row fails, the run fails in the same way.

Missing: the program is not deleted. -/
theorem C74_failed_partial {O : Type} {js : JsEnv V} {record : List (Str × List (JsMsg V)) → JsReport V → O → O} {junk : Junk V} {p : JsProgram V}
    {rows : List (V × List V)} {out : O} {F : Factory V} {P P' : Prog V} {ports : List Str} (h : JsRunnable js junk p rows F P ports) {e : Err}
    (hr : debugRun js.api.fuel (jsCalls js ports rows) P = .err e P') :
    ∃ F', jsRun js record junk p rows out F = .err e F' ∧ F'.programs.find? p.programId = some P' ∧ ∀ b, b ≠ p.programId → SameView b F F' := by
  have hrun := jsRun_run (record := record) (out := out) h
  rw [hr] at hrun
  exact hrun

/-- C74: an invalid program is never run: an exception is thrown and the registry stays as it is. -/
theorem C74_invalid {O : Type} (js : JsEnv V) (record : List (Str × List (JsMsg V)) → JsReport V → O → O) (junk : Junk V) (p : JsProgram V)
    (rows : List (V × List V)) (out : O) (F : Factory V) {t : Str} (hv : js.api.valid (js.stringify p.toPlain) = some t) (ht : t ≠ []) :
    jsRun js record junk p rows out F = .err (.exc .runtime) F := by
  unfold jsRun jsCreate Factory.createChecked
  rw [hv]
  simp [ht]

theorem jsPrepare_padded {js : JsEnv V} {u : V} (hu : js.undef = some u) (id : Str) (t : V) (n : Nat) : ∀ (ports : List Str) (vs : List V) (F : Factory V),
    jsPrepare js id (jsRow t ports vs) F = jsPrepare js id (jsRow t ports (vs ++ List.replicate n u)) F := by
  have one : ∀ (q : Str) (F : Factory V), jsSend js id q [(t, none)] F = jsSend js id q [(t, some u)] F := by
    intro q F
    simp only [jsSend, hu]
  intro ports
  induction ports generalizing n with
  | nil => intro vs F; simp [jsRow]
  | cons q ps ih =>
    intro vs F
    cases vs with
    | nil =>
      cases n with
      | zero => rfl
      | succ n =>
        simp only [List.nil_append, List.replicate_succ, jsRow, jsPrepare]
        rw [one]
        cases jsSend js id q [(t, some u)] F with
        | err => rfl
        | ok _ F' =>
          have := ih n [] F'
          simpa using this
    | cons v vs =>
      simp only [List.cons_append, jsRow, jsPrepare]
      cases jsSend js id q [(t, some v)] F with
      | err => rfl
      | ok _ F' => exact ih n vs F'

/-- C74: a row may have fewer values than there are ports: the missing ones are what the library makes of `undefined`. -/
theorem C74_missing {js : JsEnv V} {u : V} (hu : js.undef = some u) (junk : Junk V) (p : JsProgram V) (rows : List (V × List V)) (c : Collapsed V) (F : Factory V) (n : Nat) :
    jsRunCollapsed js junk p rows c F = jsRunCollapsed js junk p (rows.map fun r => (r.1, r.2 ++ List.replicate n u)) c F := by
  have hrows : ∀ (id : Str) (ports : List Str) (rows : List (V × List V)) (c : Collapsed V) (F : Factory V),
      jsRows js (fun _ r (c : Collapsed V) => jsCollect r c) id ports rows c F =
        jsRows js (fun _ r (c : Collapsed V) => jsCollect r c) id ports (rows.map fun r => (r.1, r.2 ++ List.replicate n u)) c F := by
    intro id ports rows
    induction rows with
    | nil => intro c F; rfl
    | cons r rows ih =>
      intro c F
      simp only [List.map_cons, jsRows, jsProcess]
      rw [jsPrepare_padded hu id r.1 n ports r.2 F]
      cases jsPrepare js id (jsRow r.1 ports (r.2 ++ List.replicate n u)) F with
      | err => rfl
      | ok _ F' =>
        dsimp only
        cases F'.processBuffer true js.api.fuel id with
        | err => rfl
        | ok _ F'' => exact ih _ F''
  unfold jsRunCollapsed jsRun
  cases jsCreate js junk p F with
  | err => rfl
  | ok _ F1 =>
    dsimp only
    cases F1.entryPorts p.programId with
    | err => rfl
    | ok ports F2 =>
      dsimp only
      rw [← hrows]

/-! ## Sessions: start, messages, stop -/

/-- C74: a program that the check accepts and that can be created is started under a free id; messages without a port then go to the first port of the entry operator. -/
theorem C74_start {js : JsEnv V} {junk : Junk V} {p : JsProgram V} {F : Factory V} {P : Prog V} {ports : List Str} (hck : js.check p.toPlain = true)
    (hv : js.api.valid (js.stringify p.toPlain) = none) (hc : Prog.create js.api.parse junk (js.stringify p.toPlain) = .ok P)
    (hf : F.programs.find? p.programId = none) (hp : P.entryPorts = .ok ports) :
    p.start js junk F = .ok { p with defaultPort := ports.head? } { F with programs := F.programs.put p.programId P } := by
  unfold JsProgram.start
  rw [if_pos hck, jsCreate_ok hv hc hf]
  unfold Factory.entryPorts
  simp only [Map.find?_put_self, hp]

/-- C74: a message that is sent to a program is answered as the program answers it, and nothing else changes in the registry. -/
theorem C74_send (js : JsEnv V) (debug : Bool) (p : JsProgram V) {F : Factory V} {P : Prog V} {t v : V} {t' : UInt64} {port : Option Str} {q : Str}
    (hf : F.programs.find? p.programId = some P) (hb : F.buffered p.programId = []) (ht : js.time t = some t')
    (hq : port = some q ∨ port = none ∧ p.defaultPort = some q) (hne : q ≠ []) :
    match P.answer debug js.api.fuel [(q, [⟨t', v⟩])] with
    | .err e P' => ∃ F', p.send js debug t v port F = .err e F' ∧ F'.programs.find? p.programId = some P' ∧ ∀ b, b ≠ p.programId → SameView b F F'
    | .ok r P' => ∃ F', p.send js debug t v port F = .ok (js.report r) F' ∧ F'.programs.find? p.programId = some P' ∧ F'.buffered p.programId = [] ∧
        ∀ b, b ≠ p.programId → SameView b F F' := by
  have hsend : p.send js debug t v port F = jsProcess js debug p.programId [(q, [(t, some v)])] F := by
    unfold JsProgram.send
    cases q with
    | nil => exact absurd rfl hne
    | cons c q =>
      rcases hq with rfl | ⟨rfl, h⟩
      · rfl
      · rw [h]
  have hadd : F.add p.programId q ⟨t', v⟩ = .ok true { F with buffer := F.buffer.put p.programId [(q, [⟨t', v⟩])] } := by
    unfold Factory.add
    rw [if_pos (has_of_find hf), hb]
    rfl
  have hprep : jsPrepare js p.programId [(q, [(t, some v)])] F = .ok () { F with buffer := F.buffer.put p.programId [(q, [⟨t', v⟩])] } := by
    unfold jsPrepare jsSend
    rw [ht]
    dsimp only
    rw [hadd]
    rfl
  have hbuf : Factory.buffered { F with buffer := F.buffer.put p.programId [(q, [⟨t', v⟩])] } p.programId = [(q, [⟨t', v⟩])] := by
    simp [Factory.buffered]
  rw [hsend]
  unfold jsProcess
  rw [hprep]
  dsimp only
  have hpb := processBuffer_eq (debug := debug) (fuel := js.api.fuel) (id := p.programId) (P := P)
    (F := { F with buffer := F.buffer.put p.programId [(q, [⟨t', v⟩])] }) hf
  rw [hbuf, if_neg (by simp)] at hpb
  rw [hpb]
  cases P.answer debug js.api.fuel [(q, [⟨t', v⟩])] with
  | err e P' =>
    refine ⟨_, rfl, by simp, fun b hbn => ⟨Map.find?_put_ne _ _ hbn, buffered_congr (Map.find?_put_ne _ _ hbn)⟩⟩
  | ok r P' =>
    refine ⟨_, rfl, by simp, buffered_erase .., fun b hbn => ⟨Map.find?_put_ne _ _ hbn, buffered_congr ?_⟩⟩
    rw [Map.find?_erase, if_neg hbn, Map.find?_put_ne _ _ hbn]

omit [Num V] in
/-- C74: stopping deletes the program and nothing else. -/
theorem C74_stop (p : JsProgram V) (F : Factory V) : ∃ F', p.stop F = .ok () F' ∧ F'.programs.find? p.programId = none ∧
    ∀ b, b ≠ p.programId → SameView b F F' := by
  refine ⟨{ F with programs := F.programs.erase p.programId }, rfl, by simp [Map.find?_erase], fun b hb => ⟨?_, rfl⟩⟩
  simp only [Map.find?_erase, if_neg hb]

/-! ## Concrete cases -/

/-- The program of the tests of the registry, which adds up its input. Times above 2^32 are not accepted, as with a 32 bit `unsigned long`. -/
def jsSumEnv : JsEnv Int64 :=
  ⟨sumEnv, fun _ => b!"{}", fun _ => true, fun t => if 0 ≤ t ∧ t < 4294967296 then some t.toUInt64 else none, none, fun t => t.toInt64, some⟩

/-- A program object; the text is always read as the same program. -/
def jsSum : JsProgram Int64 := .new b!"1a2b" (some b!"in") none none none none none

/-- A concrete case of a run in both formats; the second row has a value that is ignored. -/
example : outcome (jsRunCollapsed jsSumEnv (fun _ => (0, 0)) jsSum [(1, [5]), (2, [6, 1]), (3, [7])] [] Factory.empty) =
      .ok [(b!"in:o1", [1, 2, 3], [some 5, some 6, some 7]), (b!"ma:o1", [2, 3], [some 8, some 14]), (b!"sum:o1", [1, 2, 3], [some 5, some 11, some 18])] ∧
    (match jsRunExtended jsSumEnv (fun _ => (0, 0)) jsSum [(1, [5]), (2, [6])] [] Factory.empty with
      | .ok out _ => out.map (·.1)
      | .err _ _ => []) = [[(b!"i1", [(1, some 5)])], [(b!"i1", [(2, some 6)])]] ∧
    (match jsRunExtended jsSumEnv (fun _ => (0, 0)) jsSum [(1, [5]), (2, [6])] [] Factory.empty with
      | .ok out _ => out.map fun x => x.2.map fun e => (e.1, e.2.flatMap fun y => y.2)
      | .err _ _ => []) = [[(b!"in", [(1, some 5)]), (b!"sum", [(1, some 5)])],
        [(b!"in", [(2, some 6)]), (b!"ma", [(2, some 8)]), (b!"sum", [(2, some 11)])]] :=
  ⟨by decide +kernel, by decide +kernel, by decide +kernel⟩

/-- A concrete case for C74_missing: the second row has no value, which counts as 0 here, and the third has two. -/
example : outcome (jsRunCollapsed { jsSumEnv with undef := some 0 } (fun _ => (0, 0)) jsSum [(1, [5]), (2, []), (3, [4, 9])] [] Factory.empty) =
      outcome (jsRunCollapsed { jsSumEnv with undef := some 0 } (fun _ => (0, 0)) jsSum [(1, [5]), (2, [0]), (3, [4])] [] Factory.empty) ∧
    (match outcome (jsRunCollapsed { jsSumEnv with undef := some 0 } (fun _ => (0, 0)) jsSum [(1, [5]), (2, []), (3, [4, 9])] [] Factory.empty) with
      | .ok c => c.find? b!"sum:o1"
      | .error _ => none) = some ([1, 2, 3], [some 5, some 5, some 9]) := ⟨by decide +kernel, by decide +kernel⟩

/-- The registry after a run that failed at a row without a value. -/
def jsAfterFailure : Factory Int64 := (jsRunCollapsed jsSumEnv (fun _ => (0, 0)) jsSum [(1, [5]), (2, [])] [] Factory.empty).state

/-- C74 is violated: after a run that failed the program is still in the registry, and goes on from where it was when it is run again. -/
theorem C74_violated_again : jsAfterFailure.programs.has b!"1a2b" = true ∧
    outcome (jsRunCollapsed jsSumEnv (fun _ => (0, 0)) jsSum [(3, [7])] [] jsAfterFailure) =
      .ok [(b!"in:o1", [3], [some 7]), (b!"ma:o1", [3], [some 8]), (b!"sum:o1", [3], [some 12])] := ⟨by decide +kernel, by decide +kernel⟩

end Rtbot
