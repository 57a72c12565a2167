import Verif.Lemmas.Snapshot
import Verif.Spec.Toy

set_option linter.unusedSectionVars false

/-! # C36–C39: snapshots of programs -/

namespace Rtbot
variable {V : Type} [Num V] [Spec.LosslessBits V]
open Spec

/-- C36: the program created from the bytes of another program answers all further calls like that other program, whatever has happened to the
other program before. Neither program contains a RelativeStrengthIndex or a Pipeline; members that are not initialised have arbitrary values
in both. -/
theorem C36_continues {parse : Parser V} {junk : Junk V} (junk' : Junk V) {json : Str} {j : Json V} {P : Prog V} (hj : parse json = .ok j)
    (hf : Flat j) (hcr : Prog.create parse junk json = .ok P) (hr : NoRsi P) (fuel : Nat) (past : List (Feed V)) (hfit : ProgFits (afterCalls fuel P past)) :
    ∃ bytes Q, (afterCalls fuel P past).serialize = .ok bytes ∧ Prog.ofBytes parse junk' bytes = .ok Q ∧
      ∀ fuel' future, replies fuel' Q future = replies fuel' (afterCalls fuel P past) future := by
  obtain ⟨bytes, Q, h1, h2, h3⟩ := restored junk' hj hf hcr hr fuel past hfit
  have hb : Prog.initWith junk json j = .ok P := by
    unfold Prog.create at hcr
    rw [hj] at hcr
    exact hcr
  obtain ⟨m, hm, hst⟩ := initWith_making hf hb
  have hc : ConnsOK P.st.heap := by rw [hst]; exact hm.conns
  have hb : ∀ a o, P.st.heap a = some o → Connected o := by rw [hst]; exact hm.built
  exact ⟨bytes, Q, h1, h2, fun fuel' future =>
    (replies_alike revived_twins (fun a o ho => (hb a o ho).start.wf) (fun a o ho => (hb a o ho).simple) hc fuel' future h3).symm⟩

/-- C38: the restored program yields the bytes it was created from, and after the same further calls both programs yield the same bytes. -/
theorem C38_stable {parse : Parser V} {junk : Junk V} (junk' : Junk V) {json : Str} {j : Json V} {P : Prog V} (hj : parse json = .ok j)
    (hf : Flat j) (hcr : Prog.create parse junk json = .ok P) (hr : NoRsi P) (fuel : Nat) (past : List (Feed V)) (hfit : ProgFits (afterCalls fuel P past)) :
    ∃ bytes Q, (afterCalls fuel P past).serialize = .ok bytes ∧ Prog.ofBytes parse junk' bytes = .ok Q ∧ Q.serialize = .ok bytes ∧
      ∀ fuel' future, (afterCalls fuel' Q future).serialize = (afterCalls fuel' (afterCalls fuel P past) future).serialize := by
  obtain ⟨bytes, Q, h1, h2, h3⟩ := restored junk' hj hf hcr hr fuel past hfit
  have hb : Prog.initWith junk json j = .ok P := by
    unfold Prog.create at hcr
    rw [hj] at hcr
    exact hcr
  obtain ⟨m, hm, hst⟩ := initWith_making hf hb
  have hc : ConnsOK P.st.heap := by rw [hst]; exact hm.conns
  have hb : ∀ a o, P.st.heap a = some o → Connected o := by rw [hst]; exact hm.built
  refine ⟨bytes, Q, h1, h2, (serialize_alike h3).trans h1, fun fuel' future => serialize_alike (h0 := P.st.heap) ?_⟩
  exact afterCalls_alike revived_twins (fun a o ho => (hb a o ho).start.wf) (fun a o ho => (hb a o ho).simple) hc fuel' future h3

/-! ## A program -/

/-- A running sum behind an Input, and the average of the last two sums. -/
def Spec.sumDescription : Json Int64 :=
  .obj [(b!"connections", .arr [.obj [(b!"from", .str b!"in"), (b!"to", .str b!"sum")], .obj [(b!"from", .str b!"sum"), (b!"to", .str b!"ma")]]),
    (b!"entryOperator", .str b!"in"),
    (b!"operators", .arr [.obj [(b!"id", .str b!"in"), (b!"type", .str b!"Input")], .obj [(b!"id", .str b!"sum"), (b!"type", .str b!"CumulativeSum")],
      .obj [(b!"id", .str b!"ma"), (b!"n", .uint 2), (b!"type", .str b!"MovingAverage")]]),
    (b!"output", .obj [(b!"ma", .arr [.str b!"o1"])])]

theorem sumDescription_flat : Flat sumDescription := by
  rintro os ⟨m, h1, h2⟩ x hx ⟨m', h3, h4⟩
  cases h1
  cases h2
  simp only [Json.items, List.mem_cons, List.not_mem_nil, or_false] at hx
  rcases hx with rfl | rfl | rfl <;> cases h3 <;> cases h4

/-- Every text is taken for this description. -/
def Spec.always (j : Json Int64) : Parser Int64 := fun _ => .ok j

/-- Four messages, the third on a port that does not exist. -/
def Spec.somePast : List (Feed Int64) :=
  [.receive [(i1, [⟨1, 10⟩])], .receive [(i1, [⟨2, 20⟩])], .receive [(b!"x", [⟨3, 30⟩])], .receiveDebug [(i1, [⟨4, 40⟩])]]

/-- The program of that description. -/
def Spec.sumProgram : Except Err (Prog Int64) := Prog.create (always sumDescription) (fun _ => (0, 0)) b!"{}"

theorem sumProgram_ok : ∃ P, sumProgram = .ok P ∧ P.ops = [(b!"in", 0), (b!"ma", 2), (b!"sum", 1)] ∧ NoRsi P ∧
    ProgFits (afterCalls 9 P somePast) := by
  obtain ⟨P, hP⟩ : ∃ P, sumProgram = .ok P := ⟨_, rfl⟩
  have hnone : ∀ a, 3 ≤ a → P.st.heap a = none := by
    cases hP
    intro a ha
    match a, ha with
    | a + 3, _ => rfl
  have hi : Prog.initWith (fun _ => (0, 0)) b!"{}" sumDescription = .ok P := hP
  have hst : Steps Any P.st (afterCalls 9 P somePast).st := by
    obtain ⟨m, hm, hst⟩ := initWith_making sumDescription_flat hi
    refine afterCalls_steps 9 somePast P fun a o ho => ?_
    rw [hst] at ho
    exact (hm.built a o ho).start.wf
  have hops : P.ops = [(b!"in", 0), (b!"ma", 2), (b!"sum", 1)] := by cases hP; rfl
  refine ⟨P, hP, hops, ?_, ?_, ?_, ?_⟩
  · intro a o ho x
    match a with
    | 0 => cases hP; cases ho; exact fun h => (by cases h)
    | 1 => cases hP; cases ho; exact fun h => (by cases h)
    | 2 => cases hP; cases ho; exact fun h => (by cases h)
    | a + 3 => rw [hnone _ (by omega)] at ho; cases ho
  · rw [(afterCalls_frame 9 somePast P).1]
    cases hP
    decide
  · intro id a h
    rw [(afterCalls_frame 9 somePast P).2.1, hops] at h
    have := find?_mem h
    simp only [List.mem_cons, List.not_mem_nil, or_false] at this
    rcases this with h | h | h <;> cases h <;> decide
  · intro a o ho
    match a with
    | 0 =>
      have h : ((afterCalls 9 P somePast).st.heap 0).all (fun o => decide (Fits o)) = true := by
        cases hP
        decide +kernel
      rw [ho] at h
      exact of_decide_eq_true h
    | 1 =>
      have h : ((afterCalls 9 P somePast).st.heap 1).all (fun o => decide (Fits o)) = true := by
        cases hP
        decide +kernel
      rw [ho] at h
      exact of_decide_eq_true h
    | 2 =>
      have h : ((afterCalls 9 P somePast).st.heap 2).all (fun o => decide (Fits o)) = true := by
        cases hP
        decide +kernel
      rw [ho] at h
      exact of_decide_eq_true h
    | a + 3 =>
      obtain ⟨o', h1, _⟩ := hst.shape.get' ho
      rw [hnone _ (by omega)] at h1
      cases h1

/-- The calls of the past: the third one fails, the average starts with the second sum, and the debug call shows the running sum. -/
example : sumProgram.map (fun P => replies 9 P somePast) =
    .ok [.ok [], .ok [(b!"ma", [(o1, [⟨2, 20⟩])])], .error (.exc .badPort),
      .ok [(b!"in", [(o1, [⟨4, 40⟩])]), (b!"ma", [(o1, [⟨4, 50⟩])]), (b!"sum", [(o1, [⟨4, 70⟩])])]] := by
  decide +kernel

/-- The hypotheses of C36 and C38 are met by this program after these calls. -/
example : ∃ P, sumProgram = .ok P ∧ ∃ bytes Q, (afterCalls 9 P somePast).serialize = .ok bytes ∧
    Prog.ofBytes (always sumDescription) (fun _ => (7, 8)) bytes = .ok Q ∧ Q.serialize = .ok bytes := by
  obtain ⟨P, h1, _, h3, h4⟩ := sumProgram_ok
  obtain ⟨bytes, Q, g1, g2, g3, _⟩ := C38_stable (fun _ => (7, 8)) (j := sumDescription) rfl sumDescription_flat h1 h3 9 somePast h4
  exact ⟨P, h1, bytes, Q, g1, g2, g3⟩

/-! ## C37: operators whose state is not in the snapshot -/

/-- A program made of a RelativeStrengthIndex. -/
def Spec.rsiDescription : Json Int64 :=
  .obj [(b!"connections", .arr []), (b!"entryOperator", .str b!"r"),
    (b!"operators", .arr [.obj [(b!"id", .str b!"r"), (b!"n", .uint 2), (b!"type", .str b!"RelativeStrengthIndex")]])]

/-- A program with a running sum in a Pipeline. -/
def Spec.pipeDescription : Json Int64 :=
  .obj [(b!"connections", .arr [.obj [(b!"from", .str b!"in"), (b!"to", .str b!"p")]]), (b!"entryOperator", .str b!"in"),
    (b!"operators", .arr [.obj [(b!"id", .str b!"in"), (b!"type", .str b!"Input")],
      .obj [(b!"id", .str b!"p"), (b!"prog", .obj [(b!"connections", .arr []),
        (b!"operators", .arr [.obj [(b!"id", .str b!"c"), (b!"type", .str b!"CumulativeSum")]])]), (b!"type", .str b!"Pipeline")]])]

/-- What the program of the description answers in the future, first the one with the past, then the one restored from its snapshot. -/
def Spec.compared (j : Json Int64) (past future : List (Feed Int64)) : Except Err (List (Except Err (ProgMsg Int64)) × List (Except Err (ProgMsg Int64))) := do
  let P ← Prog.create (always j) (fun _ => (0, 0)) []
  let bytes ← (afterCalls 9 P past).serialize
  let Q ← Prog.ofBytes (always j) (fun _ => (0, 0)) bytes
  .ok (replies 9 (afterCalls 9 P past) future, replies 9 Q future)

/-- C37 is violated: the averages of a RelativeStrengthIndex are not in the snapshot. -/
theorem C37_violated_rsi : compared rsiDescription [.receive [(i1, [⟨1, 1⟩, ⟨2, 9⟩, ⟨3, 2⟩, ⟨4, 6⟩, ⟨5, 20⟩])]] [.receive [(i1, [⟨6, 7⟩])]] =
    .ok ([.ok [(b!"r", [(o1, [⟨6, 0⟩])])]], [.ok [(b!"r", [(o1, [⟨6, 50⟩])])]]) := by
  decide +kernel

/-- C37 is violated: the operators inside a Pipeline are not in the snapshot. -/
theorem C37_violated_pipeline : compared pipeDescription [.receive [(i1, [⟨1, 1⟩, ⟨2, 9⟩])]] [.receive [(i1, [⟨6, 7⟩])]] =
    .ok ([.ok [(b!"in", [(o1, [⟨6, 7⟩])]), (b!"p", [(o1, [⟨6, 17⟩])])]], [.ok [(b!"in", [(o1, [⟨6, 7⟩])]), (b!"p", [(o1, [⟨6, 7⟩])])]]) := by
  decide +kernel

/-- For comparison, a program whose snapshot is complete. -/
example : compared sumDescription somePast [.receive [(i1, [⟨6, 7⟩])]] =
    .ok ([.ok [(b!"ma", [(o1, [⟨6, 73⟩])])]], [.ok [(b!"ma", [(o1, [⟨6, 73⟩])])]]) := by
  decide +kernel

/-! ## C39: damaged snapshots -/

/-- The snapshot of the program of `sumDescription` after the past. -/
def Spec.sumBytes : Except Err Bytes := do
  let P ← sumProgram
  (afterCalls 9 P somePast).serialize

/-- What a program created from the first bytes of this snapshot answers in the future. -/
def Spec.truncated (n : Nat) (future : List (Feed Int64)) : Except Err (List (Except Err (ProgMsg Int64))) := do
  let bytes ← sumBytes
  let Q ← Prog.ofBytes (always sumDescription) (fun _ => (0, 0)) (bytes.take n)
  .ok (replies 9 Q future)

/-- C39 is violated: of the truncated snapshots almost all lead to reading behind the end. -/
theorem C39_violated_truncated : sumBytes.map List.length = .ok 267 ∧
    (List.range 267).filter (fun n => decide (truncated n [] ≠ .error (.ub .outOfBounds))) = [10, 138, 248] := by
  decide +kernel

/-- C39 is violated: the others are accepted, and the operators whose bytes are missing start anew. -/
theorem C39_violated_accepted : truncated 248 [.receive [(i1, [⟨6, 7⟩])]] = .ok [.ok [(b!"ma", [(o1, [⟨6, 38⟩])])]] ∧
    truncated 267 [.receive [(i1, [⟨6, 7⟩])]] = .ok [.ok [(b!"ma", [(o1, [⟨6, 73⟩])])]] := by
  decide +kernel

/-- C39, partial: when the text of the program can be read, a description that is not accepted and an operator that is not in it are reported
by exceptions. Missing: everything else, see the violations. -/
theorem C39_rejected_partial {parse : Parser V} {junk : Junk V} {json : Str} (hw : Word json.length) (rest : Bytes) :
    (∀ e, Prog.create parse junk json = .error e → Prog.ofBytes parse junk (putStr json ++ rest) = .error e) ∧
    (∀ e, parse json = .error e → Prog.ofBytes parse junk (putStr json ++ rest) = .error (.exc e)) ∧
    (∀ P id, Prog.create parse junk json = .ok P → Word id.length → P.ops.find? id = none →
      Prog.ofBytes parse junk (putStr json ++ (putStr id ++ rest)) = .error (.exc .outOfRange)) := by
  have h0 : ∀ e rest, Prog.create parse junk json = .error e → Prog.ofBytes parse junk (putStr json ++ rest) = .error e := by
    intro e rest h
    unfold Prog.ofBytes
    rw [reads_str hw]
    dsimp only [bind, Except.bind]
    rw [h]
  refine ⟨fun e h => h0 e rest h, fun e h => h0 _ _ ?_, ?_⟩
  · unfold Prog.create
    rw [h]
    rfl
  · intro P id h hid hf
    unfold Prog.ofBytes
    rw [reads_str hw]
    dsimp only [bind, Except.bind]
    rw [h]
    dsimp only
    have h8 : (putStr id ++ rest).length = (7 + id.length + rest.length) + 1 := by
      simp [putStr, putSize, length_leBytes]
      omega
    have hne : putStr id ++ rest ≠ [] := by
      intro he
      rw [he] at h8
      simp at h8
    rw [h8]
    unfold restoreOps
    rw [if_neg hne, reads_str hid]
    dsimp only
    rw [hf]
    rfl

/-- A text that is no JSON, and an operator that does not exist. -/
example : Prog.ofBytes (fun _ => .error .jsonParse : Parser Int64) (fun _ => (0, 0)) [1, 0, 0, 0, 0, 0, 0, 0, 123, 5] = .error (.exc .jsonParse) ∧
    Prog.ofBytes (always sumDescription) (fun _ => (0, 0)) [0, 0, 0, 0, 0, 0, 0, 0, 1, 0, 0, 0, 0, 0, 0, 0, 120] = .error (.exc .outOfRange) :=
  ⟨(C39_rejected_partial (json := [123]) (by decide) [5]).2.1 _ rfl, (C39_rejected_partial (json := []) (by decide) []).2.2 _ [120] rfl (by decide) rfl⟩

end Rtbot
