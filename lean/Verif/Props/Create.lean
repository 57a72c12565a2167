import Verif.Lemmas.Write
import Verif.Spec.Exact
import Verif.Spec.Toy
import Verif.Props.Ports

set_option linter.unusedSectionVars false

/-! # C34, C46 to C49: creating programs from descriptions -/

namespace Rtbot
variable {V : Type} [Num V]
open Spec

/-! ## C49: parameters -/

/-- C49: an operator read from a description whose integer parameters are natural numbers (below 2^31 where the code reads an `int`) is
the one the description asks for.

Missing: other numbers are converted, see below; Pipelines, whose inner operators are read by the same function. -/
theorem C49_exact_partial {junk : Junk V} {fuel : Nat} {j : Json V} {m m' : Mem V} {o : Op V} (h : readOp junk fuel j m = .ok (o, m'))
    (hp : ¬ HasType j b!"Pipeline") (hw : Whole j) : Describes (junk m.next) j o ∧ m' = m := by
  obtain ⟨t, ht, hs, rfl⟩ := readOp_simple h hp
  exact ⟨simpleOpOf_describes hs ht hw, rfl⟩

/-- C49: conversely every description that asks for an operator is accepted, and the operator is the one asked for. -/
theorem C49_accepted {junk : Junk V} {fuel : Nat} {j : Json V} {m : Mem V} {o : Op V} (h : Describes (junk m.next) j o) :
    readOp junk (fuel + 1) j m = .ok (o, m) := by
  obtain ⟨t, ht, hp, hs⟩ := simpleOpOf_of_describes h
  unfold readOp
  rw [ht.at]
  show (if t = b!"Pipeline" then _ else _) = _
  rw [if_neg hp, hs]
  rfl

/-- A moving average of window 3. -/
example (junk : Junk ℚ) (m : Mem ℚ) : readOp junk 1 (.obj [(b!"id", .str b!"ma"), (b!"n", .uint 3), (b!"type", .str b!"MovingAverage")]) m =
    .ok (Op.newMovAvg b!"ma" 3, m) :=
  C49_accepted (.movAvg ⟨_, rfl, rfl⟩ ⟨_, rfl, rfl⟩ (n := 3) ⟨_, rfl, rfl⟩)

/-- C49 is violated: the value of a Variable is cut to an integer. -/
theorem C49_violated_variable (junk : Junk ℚ) (m : Mem ℚ) :
    readOp junk 1 (.obj [(b!"id", .str b!"v"), (b!"type", .str b!"Variable"), (b!"value", .float (5 / 2))]) m =
      .ok (Op.newVariable b!"v" 2, m) := by
  have ht : Num.toTime (5 / 2 : ℚ) = some 2 := truncTime_eq 2 (5 / 2 : ℚ) (by rw [show (2 : UInt64).toNat = 2 from rfl]; norm_num)
    (by rw [show (2 : UInt64).toNat = 2 from rfl]; norm_num)
  have h1 : Json.truncInt (5 / 2 : ℚ) = .ok 2 := by
    unfold Json.truncInt
    rw [ht]
    rfl
  show ((Json.truncInt (5 / 2 : ℚ) >>= fun v => Except.ok (Op.newVariable b!"v" (Json.ofInt v))) >>= fun o => Except.ok (o, m)) = _
  rw [h1]
  rfl

/-- C49 is violated: the interval of a TimeShift is taken modulo 2^32. -/
theorem C49_violated_timeShift (junk : Junk ℚ) (m : Mem ℚ) :
    readOp junk 1 (.obj [(b!"dt", .uint 4294967297), (b!"id", .str b!"t"), (b!"type", .str b!"TimeShift")]) m =
      .ok (Op.newTimeShift b!"t" 1 1, m) := by
  have : (Json.uint 4294967297 : Json ℚ).getInt = .ok 1 := by
    show Except.ok (Json.wrap32 (4294967297 : UInt64).toNat) = _
    rw [show (4294967297 : UInt64).toNat = 4294967297 by decide]
    rfl
  show (((Json.uint 4294967297 : Json ℚ).getInt >>= fun dt => (Except.ok 1 : Except Err Int) >>= fun times =>
    Except.ok (Op.newTimeShift b!"t" (UInt64.ofInt dt) times)) >>= fun o => Except.ok (o, m)) = _
  rw [this]
  rfl

/-- C49 is violated: a negative window size becomes a huge one. -/
theorem C49_violated_negative (junk : Junk ℚ) (m : Mem ℚ) :
    readOp junk 1 (.obj [(b!"id", .str b!"ma"), (b!"n", .int (-1)), (b!"type", .str b!"MovingAverage")]) m =
      .ok (Op.newMovAvg b!"ma" 18446744073709551615, m) := rfl

/-- C49 is violated: no description whatsoever of a Function is accepted, because the kind of interpolation is looked up under the key that
holds the type of the operator. -/
theorem C49_violated_function {junk : Junk V} {fuel : Nat} {j : Json V} {m m' : Mem V} {o : Op V} (ht : HasType j b!"Function") :
    readOp junk fuel j m ≠ .ok (o, m') := by
  intro h
  have hp : ¬ HasType j b!"Pipeline" := by
    intro hc
    have := ht.unique hc
    simp at this
  obtain ⟨t, ht', hs, _⟩ := readOp_simple h hp
  have := ht'.unique ht
  cases this
  have h1 : simpleOpOf b!"Function" j (junk m.next) = otherOpOf b!"Function" j (junk m.next) := rfl
  rw [h1] at hs
  have h2 : otherOpOf b!"Function" j (junk m.next) = some (do
      let ps ← j.sub b!"points"
      let points ← readPoints ps.items
      let id ← (← j.sub b!"id").getStr
      let t ← j.value b!"type" b!"linear" Json.getStr
      Op.newFunction id points (interpOf t)) := rfl
  rw [h2] at hs
  obtain ⟨ps, _, hs⟩ := bind_eq_ok.1 (Option.some.inj hs)
  obtain ⟨points, _, hs⟩ := bind_eq_ok.1 hs
  obtain ⟨id, _, hs⟩ := id_bind hs
  rw [ht.value] at hs
  have hs : Op.newFunction id points (interpOf b!"Function") = .ok o := hs
  rw [interpOf_function] at hs
  unfold Op.newFunction at hs
  split at hs <;> cases hs

/-! ## C48: writing and reading back -/

/-- C48: an operator, written and read back, is an operator with the same type, id, ports and parameters, whatever it is connected to.

Missing: the operators that are not `Writable`, see below, and Pipelines. -/
theorem C48_roundtrip_partial {o : Op V} (hb : Built o) (hw : Writable o) (outs : Map (List Conn)) (junk : Junk V) (fuel : Nat) (m : Mem V) :
    ∃ j o', Op.write { o with core := { o.core with outputs := outs } } = .ok j ∧ readOp junk (fuel + 1) j m = .ok (o', m) ∧ SameParams o o' := by
  obtain ⟨j, o', t, h1, h2, ht, hp, hs⟩ := write_read hb hw (junk m.next)
  refine ⟨j, o', ?_, ?_, h2⟩
  · rw [← h1]
    unfold Op.write
    cases o.kind <;> rfl
  · unfold readOp
    rw [ht.at]
    show (if t = b!"Pipeline" then _ else _) = _
    rw [if_neg hp, hs]
    rfl

/-- A Linear with two coefficients. -/
example (junk : Junk ℚ) (m : Mem ℚ) (o : Op ℚ) (h : Op.newLinear b!"l" [2, 3] = .ok o) : ∃ j o', o.write = .ok j ∧ readOp junk 1 j m = .ok (o', m) ∧ SameParams o o' := by
  have hw : Writable o := by
    obtain ⟨c, _, h2⟩ := bind_eq_ok.1 (show (addInputs (Core.new b!"l") 0 2 >>= fun c => .ok ⟨c.addOutput o1, .linear [2, 3]⟩) = .ok o from h)
    cases h2
    intro v _
    exact decide_eq_true rfl
  exact C48_roundtrip_partial (Built.linear h) hw o.core.outputs junk 0 m

/-- C48: what is written does not change while the operator works. -/
theorem C48_stable {o : Op V} (hw : o.core.WF) (as : List (Act V)) : (after o as).write = o.write := by
  rw [← write_fresh, after_fresh hw as, write_fresh]

/-- C48 is violated: reading back a RelativeStrengthIndex of length n gives one of length n + 1. -/
theorem C48_violated_rsi (junk : Junk V) (m : Mem V) : ∃ j, (Op.newRsi b!"r" 3 : Op V).write = .ok j ∧
    readOp junk 1 j m = .ok (Op.newRsi b!"r" 4, m) := ⟨_, rfl, rfl⟩

/-- C48 is violated: the choice of the time of a Difference is lost. -/
theorem C48_violated_difference (junk : Junk V) (m : Mem V) : ∃ j, (Op.newDifference b!"d" false : Op V).write = .ok j ∧
    readOp junk 1 j m = .ok (Op.newDifference b!"d" true, m) := ⟨_, rfl, rfl⟩

/-- C48 is violated: a Function is written as something that cannot be read. -/
theorem C48_violated_function {id : Str} {ps : List (V × V)} {t : Option Interp} {o : Op V} (h : Op.newFunction id ps t = .ok o) :
    ∃ j, o.write = .ok j ∧ ∀ junk fuel m o' m', readOp junk fuel j m ≠ .ok (o', m') := by
  unfold Op.newFunction at h
  split at h
  · cases h
  · split at h
    · cases h
    · cases h
      exact ⟨_, rfl, fun junk fuel m o' m' => C49_violated_function (described_type _ _ _)⟩

example : ∃ o, Op.newFunction b!"f" [((0 : ℚ), 0), (1, 1)] (some .linear) = .ok o := ⟨_, rfl⟩

/-- C48 is violated: the interval of a TimeShift that is not below 2^31 is not read back. -/
theorem C48_violated_timeShift (junk : Junk V) (m : Mem V) : ∃ j, (Op.newTimeShift b!"t" 4294967297 1 : Op V).write = .ok j ∧
    readOp junk 1 j m = .ok (Op.newTimeShift b!"t" 1 1, m) := by
  have key : ∀ dt i, (Json.uint dt : Json V).getInt = .ok i → ∃ j, (Op.newTimeShift b!"t" dt 1 : Op V).write = .ok j ∧
      readOp junk 1 j m = .ok (Op.newTimeShift b!"t" (UInt64.ofInt i) 1, m) := by
    intro dt i h
    refine ⟨_, rfl, ?_⟩
    have h2 : (Json.ofSigned 1 : Json V).getInt = .ok 1 := by
      unfold Json.ofSigned
      rw [if_neg (by decide)]
      show Except.ok (Json.wrap32 (UInt64.ofInt 1).toNat) = _
      rw [show (UInt64.ofInt 1).toNat = 1 by decide]
      rfl
    show (((Json.uint dt : Json V).getInt >>= fun dt => (Json.ofSigned 1 : Json V).getInt >>= fun times =>
      Except.ok (Op.newTimeShift b!"t" (UInt64.ofInt dt) times)) >>= fun o => Except.ok (o, m)) = _
    rw [h, h2]
    rfl
  refine key _ 1 ?_
  show Except.ok (Json.wrap32 (4294967297 : UInt64).toNat) = _
  rw [show (4294967297 : UInt64).toNat = 4294967297 by decide]
  rfl

/-! ## C46: the entry operator -/

/-- C46: creation yields either a program whose entry operator is the one named in the description, exists and has no control inputs, or a
program without operators.

Missing: the second case is not reported as an error. -/
theorem C46_entry_partial {junk : Junk V} {json : Str} {j : Json V} {P : Prog V} (h : Prog.initWith junk json j = .ok P) :
    P = Prog.empty json ∨ Member j b!"entryOperator" (.str P.entry) ∧ P.entry ≠ [] ∧
      ∃ a o, P.ops.find? P.entry = some a ∧ P.st.heap a = some o ∧ o.core.ctrlIn = [] := by
  obtain ⟨entry, os, ops, m, cs, m', a, o, he, hne, _, _, _, _, ha, ho, ⟨hc, rfl⟩ | ⟨_, rfl⟩⟩ := initWith_ok h
  · refine Or.inr ⟨?_, hne, a, o, ha, ho, hc⟩
    rcases value_ok he with ⟨x, hx, he⟩ | ⟨_, rfl⟩
    · rw [getStr_ok he] at hx; exact hx
    · exact absurd rfl hne
  · exact Or.inl rfl

/-- C46: a program without operators answers every call with an error. -/
theorem C46_unusable (json : Str) (fuel : Nat) (msgs : OpMsg V) :
    (Prog.empty json : Prog V).receive fuel msgs = .err (.exc .runtime) (Prog.empty json) := rfl

/-- C46: creation fails when the description names no entry operator, or one that is not among the operators. -/
theorem C46_missing {junk : Junk V} {json : Str} {j : Json V} (h : ∀ entry os, Member j b!"entryOperator" (.str entry) → Member j b!"operators" os →
    entry = [] ∨ ∀ x ∈ os.items, ¬ HasId x entry) (P : Prog V) : Prog.initWith junk json j ≠ .ok P := by
  intro hp
  obtain ⟨entry, os, ops, m, cs, m', a, o, he, hne, hos, hb, _, _, ha, _, _⟩ := initWith_ok hp
  have hm : Member j b!"entryOperator" (.str entry) := by
    rcases value_ok he with ⟨x, hx, he⟩ | ⟨_, rfl⟩
    · rw [getStr_ok he] at hx; exact hx
    · exact absurd rfl hne
  rcases h entry os hm hos with h | h
  · exact hne h
  · have hhas : ops.has entry = true := by unfold Map.has; rw [ha]; rfl
    rcases buildOps_ids _ hb entry hhas with h1 | ⟨x, hx, h1⟩
    · cases h1
    · exact h x hx h1

/-- C46 is violated: a program whose entry operator has control inputs is created without an error; it has no operators. -/
theorem C46_violated_control (junk : Junk V) (json : Str) :
    Prog.initWith junk json (.obj [(b!"connections", .arr []), (b!"entryOperator", .str b!"d"),
      (b!"operators", .arr [.obj [(b!"id", .str b!"d"), (b!"numPorts", .uint 1), (b!"type", .str b!"Demultiplexer")]])] : Json V) =
    .ok (Prog.empty json) := rfl

/-! ## C47: unique ids -/

/-- C47 is violated: the description of two operators with the same id is accepted; the second one has no effect. -/
theorem C47_violated_duplicate (junk : Junk V) (json : Str) : ∃ P,
    Prog.initWith junk json (.obj [(b!"connections", .arr []), (b!"entryOperator", .str b!"a"),
      (b!"operators", .arr [.obj [(b!"id", .str b!"a"), (b!"type", .str b!"Identity")],
        .obj [(b!"id", .str b!"a"), (b!"type", .str b!"Count")]])] : Json V) = .ok P ∧
    P.ops = [(b!"a", 0)] ∧ P.st.heap 0 = some (Op.newIdentity b!"a") ∧ P.st.heap 1 = none := ⟨_, rfl, rfl, rfl, rfl⟩

/-- C47: in a program created from a description without Pipelines no two operators have the same id, every operator is listed under its
id, and it is the one the first description with that id asks for (when its integer parameters are in range, see C49).

Missing: duplicates are not rejected; Pipelines. -/
theorem C47_first_partial {junk : Junk V} {json : Str} {j : Json V} {P : Prog V} (hf : Flat j) (h : Prog.initWith junk json j = .ok P) :
    P = Prog.empty json ∨ Indexed P.ops P.st.heap ∧ ∃ os, Member j b!"operators" os ∧
      (∀ x ∈ os.items, ∀ id, HasId x id → ∃ a o, P.st.heap a = some o ∧ o.core.id = id) ∧
      ∀ a o, P.st.heap a = some o → ∃ pre x post, os.items = pre ++ x :: post ∧ HasId x o.core.id ∧ (∀ y ∈ pre, ¬ HasId y o.core.id) ∧
        (Whole x → ∃ junk o0, Describes junk x o0 ∧ o = { o0 with core := { o0.core with outputs := o.core.outputs } }) := by
  rcases initWith_flat hf h with h1 | ⟨m, h1, h2⟩
  · exact Or.inl h1
  rcases initWith_first hf h with h3 | ⟨os, hos, h3, h4⟩
  · exact Or.inl h3
  refine Or.inr ⟨?_, os, hos, ?_, ?_⟩
  · rw [h2]; exact h1.indexed
  · intro x hx id hid
    have := h4 x hx id hid
    unfold Map.has at this
    cases hfi : P.ops.find? id with
    | none => rw [hfi] at this; cases this
    | some a =>
      obtain ⟨o, ho, hoid⟩ := h1.indexed.listed id a hfi
      exact ⟨a, o, by rw [h2]; exact ho, hoid⟩
  · intro a o ho
    obtain ⟨pre, x, post, t, jk, o0, e1, e2, e3, e4, e5, e6⟩ := h3 a o ho
    exact ⟨pre, x, post, e1, e2, e3, fun hw => ⟨jk, o0, simpleOpOf_describes e5 e4 hw, e6⟩⟩

theorem initWith_connected {junk : Junk V} {json : Str} {j : Json V} {P : Prog V} (hf : Flat j) (h : Prog.initWith junk json j = .ok P) :
    ∀ a o, P.st.heap a = some o → Connected o := by
  rcases initWith_flat hf h with rfl | ⟨m, h1, h2⟩
  · intro a o ho; cases ho
  · rw [h2]; exact h1.built

/-! ### A case -/

/-- The description of an average followed by a comparison. -/
def Spec.someDescription : Json Int64 :=
  .obj [(b!"connections", .arr [.obj [(b!"from", .str b!"in"), (b!"to", .str b!"ma")],
          .obj [(b!"from", .str b!"ma"), (b!"fromPort", .str b!"o1"), (b!"to", .str b!"gt"), (b!"toPort", .str b!"i1")]]),
    (b!"entryOperator", .str b!"in"),
    (b!"operators", .arr [.obj [(b!"id", .str b!"in"), (b!"type", .str b!"Input")],
      .obj [(b!"id", .str b!"ma"), (b!"n", .uint 2), (b!"type", .str b!"MovingAverage")],
      .obj [(b!"id", .str b!"gt"), (b!"type", .str b!"GreaterThan"), (b!"value", .int (-1))]])]

/-- The description is accepted; the program has the three operators, connected. -/
theorem someDescription_created (junk : Junk Int64) : ∃ P, Prog.initWith junk [] someDescription = .ok P ∧
    P.ops = [(b!"gt", 2), (b!"in", 0), (b!"ma", 1)] ∧ P.entry = b!"in" ∧
    (P.st.heap 1).map (·.core.outputs) = some [(o1, [⟨2, i1⟩])] := ⟨_, rfl, rfl, rfl, rfl⟩

theorem someDescription_flat : Flat someDescription := by
  rintro os ⟨m, h1, h2⟩ x hx ⟨m', h3, h4⟩
  cases h1
  cases h2
  simp only [Json.items, List.mem_cons, List.not_mem_nil, or_false] at hx
  rcases hx with rfl | rfl | rfl <;> cases h3 <;> cases h4

end Rtbot
