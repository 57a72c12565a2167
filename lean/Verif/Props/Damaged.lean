import Verif.Lemmas.Damaged
import Verif.Props.Snapshot

set_option linter.unusedSectionVars false

/-! # C39, C46: creation ends, and what arbitrary bytes can do -/

namespace Rtbot
variable {V : Type} [Num V]
open Spec

/-! ## C46: creation ends -/

/-- C46: creation from any description, with Pipelines nested to any depth, ends. -/
theorem C46_returns (junk : Junk V) (json : Str) (j : Json V) (parse : Parser V) :
    Prog.initWith junk json j ≠ .error .diverge ∧ Prog.create parse junk json ≠ .error .diverge := by
  refine ⟨initWith_end junk json j, ?_⟩
  unfold Prog.create
  split
  · exact en_exc _
  · exact initWith_end _ _ _

/-- A Pipeline in a Pipeline, and a Pipeline without operators. -/
example : (Prog.initWith (fun _ => (0, 0)) [] (.obj [(b!"connections", .arr []), (b!"entryOperator", .str b!"a"), (b!"operators", .arr [
      .obj [(b!"id", .str b!"a"), (b!"prog", .obj [(b!"connections", .arr []), (b!"operators", .arr [
        .obj [(b!"id", .str b!"b"), (b!"prog", .obj [(b!"connections", .arr []), (b!"operators", .arr [
          .obj [(b!"id", .str b!"c"), (b!"type", .str b!"Count")]])]), (b!"type", .str b!"Pipeline")]])]), (b!"type", .str b!"Pipeline")]])]) :
      Except Err (Prog Int64)).map (·.ops) = .ok [(b!"a", 2)] ∧
    (Prog.initWith (fun _ => (0, 0)) [] (.obj [(b!"connections", .arr []), (b!"entryOperator", .str b!"a"), (b!"operators", .arr [
      .obj [(b!"id", .str b!"a"), (b!"prog", .obj []), (b!"type", .str b!"Pipeline")]])]) : Except Err (Prog Int64)).map (·.ops) =
        .error (.exc .jsonOther) := by
  decide +kernel

/-! ## C39: arbitrary bytes -/

/-- C39: what creation from arbitrary bytes can lead to. Either the text of the program is not complete and bytes behind the end are read; or
the text is complete and creation from the text fails; or, with the program of that text, either an operator is named that does not exist, or
bytes behind the end are read, or a flag is neither 0 nor 1, or creation succeeds: then the program has the operators of the text, every one
with its identifier, its class, its outputs, its connections and at least its ports. -/
theorem C39_outcomes (parse : Parser V) (junk : Junk V) (bytes : Bytes) :
    Prog.ofBytes parse junk bytes = .error (.ub .outOfBounds) ∨
    ∃ json rest, bytes = putStr json ++ rest ∧ Word json.length ∧
      ((∃ e, Prog.create parse junk json = .error e ∧ Prog.ofBytes parse junk bytes = .error e) ∨
        ∃ P, Prog.create parse junk json = .ok P ∧
          ((∃ e, Prog.ofBytes parse junk bytes = .error e ∧ (e = .exc .outOfRange ∨ e = .ub .outOfBounds ∨ e = .ub .badBool)) ∨
            ∃ Q, Prog.ofBytes parse junk bytes = .ok Q ∧ Q.json = P.json ∧ Q.ops = P.ops ∧ Q.entry = P.entry ∧ Q.filter = P.filter ∧
              (∀ a o, P.st.heap a = some o → ∃ o', Q.st.heap a = some o' ∧ Outline o o') ∧ ∀ a, P.st.heap a = none → Q.st.heap a = none)) := by
  cases hg : getStr bytes with
  | error e =>
    left
    have : e = .ub .outOfBounds := by
      have hk : ∀ k bs e, getBytes k bs = .error e → e = .ub .outOfBounds := by
        intro k
        induction k with
        | zero => intro bs e h; cases h
        | succ k ih =>
          intro bs e h
          cases bs with
          | nil => cases h; rfl
          | cons b bs =>
            change Reader.bind (getBytes k) (fun rest => Reader.pure (b :: rest)) bs = _ at h
            unfold Reader.bind at h
            cases hg : getBytes k bs with
            | error e' => rw [hg] at h; cases h; exact ih _ _ hg
            | ok x => rw [hg] at h; cases h
      change Reader.bind (Reader.bind (getBytes 8) fun b => Reader.pure (ofLe b)) getBytes bytes = _ at hg
      unfold Reader.bind at hg
      cases h8 : getBytes 8 bytes with
      | error e' => rw [h8] at hg; cases hg; exact hk _ _ _ h8
      | ok x => rw [h8] at hg; exact hk _ _ _ hg
    unfold Prog.ofBytes
    rw [hg, this]
    rfl
  | ok x =>
    right
    obtain ⟨json, rest⟩ := x
    obtain ⟨hb, hw⟩ := getStr_take hg
    refine ⟨json, rest, hb, hw, ?_⟩
    unfold Prog.ofBytes
    rw [hg]
    dsimp only [bind, Except.bind]
    cases hc : Prog.create parse junk json with
    | error e => exact Or.inl ⟨e, rfl, rfl⟩
    | ok P =>
      right
      refine ⟨P, rfl, ?_⟩
      have hl : ∀ id a, P.ops.find? id = some a → ∃ o, P.st.heap a = some o := by
        unfold Prog.create at hc
        split at hc
        · cases hc
        · exact fun id a h => ((created_owns hc).2 id a h).imp fun o h => h.1
      have key := restoreOps_any P.ops rest.length P.st rest le_rfl hl
      dsimp only
      cases hr : restoreOps P.ops rest.length P.st rest with
      | error e =>
        left
        rcases key.1 e hr with (h | h) | h
        · exact ⟨e, rfl, Or.inr (Or.inl h)⟩
        · exact ⟨e, rfl, Or.inr (Or.inr h)⟩
        · exact ⟨e, rfl, Or.inl h⟩
      | ok s =>
        right
        have h := key.2 s hr
        exact ⟨_, rfl, rfl, rfl, rfl, rfl, h.some, h.none⟩

/-- C39: creation from arbitrary bytes ends. -/
theorem C39_returns (parse : Parser V) (junk : Junk V) (bytes : Bytes) : Prog.ofBytes parse junk bytes ≠ .error .diverge := by
  rcases C39_outcomes parse junk bytes with h | ⟨json, rest, _, _, ⟨e, h1, h2⟩ | ⟨P, _, ⟨e, h, he⟩ | ⟨Q, h, _⟩⟩⟩
  · rw [h]; exact fun h => by cases h
  · rw [h2, ← h1]; exact (C46_returns junk json .null parse).2
  · rw [h]; rintro h; cases h; rcases he with h | h | h <;> cases h
  · rw [h]; exact fun h => by cases h

/-! ## Damaged bytes that are accepted, and a damaged flag -/

/-- A ConstantResampler with an interval of two. -/
def Spec.resampling : Json Int64 :=
  .obj [(b!"connections", .arr []), (b!"entryOperator", .str b!"r"),
    (b!"operators", .arr [.obj [(b!"id", .str b!"r"), (b!"interval", .uint 2), (b!"type", .str b!"ConstantResampler")]])]

/-- A snapshot of it, with the given number of data ports, port, bytes of the interval, flag and message times. -/
def Spec.resamplingBytes (port : Str) (dt : UInt64) (flag : UInt8) : Bytes :=
  putStr [] ++ putStr b!"r" ++
    (putSize 1 ++ putStr port ++ putStr port ++ putSize 1 ++ putVal (0 : Int64) ++ putSize 0 ++ putSize 0 ++ putSize 0) ++
    (putU64 dt ++ putU64 2 ++ [flag] ++ putVal (7 : Int64))

/-- What the program created from these bytes answers to a message at time five, and its data ports. -/
def Spec.resampled (port : Str) (dt : UInt64) (flag : UInt8) : Except Err (List (Except Err (ProgMsg Int64)) × List (Option (List Str))) := do
  let Q ← Prog.ofBytes (always resampling) (fun _ => (0, 0)) (resamplingBytes port dt flag)
  .ok (replies 9 Q [.receive [(i1, [⟨5, 8⟩])]], Q.ops.map fun e => (Q.st.heap e.2).map fun o => o.core.dataIn.keys)

/-- The undamaged snapshot. -/
example : resampled i1 2 1 = .ok ([.ok [(b!"r", [(o1, [⟨2, 7⟩, ⟨4, 7⟩])])]], [some [i1]]) := by decide +kernel

/-- C39 is violated: a flag that is neither 0 nor 1 is used as it is. -/
theorem C39_violated_flag : resampled i1 2 2 = .error (.ub .badBool) ∧ resampled i1 2 255 = .error (.ub .badBool) :=
  ⟨by decide +kernel, by decide +kernel⟩

/-- C39 is violated: a snapshot with a port that the operator does not have is accepted, and the operator gets the port. -/
theorem C39_violated_port : (resampled b!"x" 2 1).map (·.2) = .ok [some [i1, b!"x"]] := by decide +kernel

theorem constLoop_zero (t next : UInt64) (v : V) (h : next < t) : ∀ fuel, constLoop 0 t v fuel next = .error .diverge := by
  intro fuel
  induction fuel with
  | zero => rfl
  | succ fuel ih =>
    unfold constLoop
    rw [if_pos h, UInt64.add_zero, ih]
    rfl

theorem execData_zero {o : Op V} {next : UInt64} {v : V} {p : Str} {ps : List Str} {m : Msg V} (hk : o.kind = .constRes 0 next true v)
    (hr : o.core.readyPorts = .ok (p :: ps)) (hs : o.core.solePort = .ok p) (hm : o.core.dataLast p = .ok m) (ht : next < m.time) :
    o.execData = .err .diverge { o with core := { o.core with toProcess := p :: ps } } := by
  have hp : ∀ o' : Op V, o'.kind = .constRes 0 next true v → o'.core.solePort = .ok p → o'.core.dataLast p = .ok m → o'.process = .error .diverge := by
    intro o' hk hs hm
    obtain ⟨c, k⟩ := o'
    cases hk
    show procConstRes c 0 next true v = _
    unfold procConstRes procLast
    dsimp only at hs hm
    rw [hs]
    dsimp only [bind, Except.bind]
    rw [hm]
    dsimp only
    rw [if_pos rfl, constLoop_zero _ _ _ ht]
  have he : o.execData = o.execBase := by unfold Op.execData; rw [hk]
  rw [he]
  unfold Op.execBase
  rw [hr]
  dsimp only
  rw [if_neg (List.cons_ne_nil _ _), hp ⟨{ o.core with toProcess := p :: ps }, o.kind⟩ hk hs hm]

/-- The operator of the snapshot with an interval of zero, after it has received a message at time five. -/
def Spec.zeroResampler : Op Int64 :=
  ⟨{ id := b!"r", dataIn := [(i1, { id := i1, max := 1, sum := 8, data := [⟨5, 8⟩] })], ctrlIn := [], outIds := [o1], outputs := [], toProcess := [i1] },
    .constRes 0 2 true 7⟩

/-- The operator made of the bytes, after it has received a message at time five. -/
def Spec.zeroReceived : Except Err (Op Int64) := do
  let Q ← Prog.ofBytes (always resampling) (fun _ => (0, 0)) (resamplingBytes i1 0 1)
  match Q.st.heap 0 with
  | some o => o.recvData ⟨5, 8⟩ i1
  | none => throwExc .runtime

/-- C39 is violated: a snapshot with an interval of zero is accepted, and when the next message is received the operator never finishes. -/
theorem C39_violated_interval : zeroReceived = .ok zeroResampler ∧ zeroResampler.execData = .err .diverge zeroResampler :=
  ⟨rfl, execData_zero (p := i1) (m := ⟨5, 8⟩) rfl rfl rfl rfl (by decide)⟩

end Rtbot
