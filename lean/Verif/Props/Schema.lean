import Verif.Lemmas.SchemaFilter
import Verif.Props.Create
import Verif.Props.Factory

set_option linter.unusedSectionVars false

/-! # C60 to C64: validation -/

namespace Rtbot
variable {V : Type} [Num V]
open Spec

/-! ## C60: what is accepted -/

omit [Num V] in
/-- C60: `validateOperator` accepts a text exactly when it is the description of an operator of that type as documented. In particular
nothing is accepted for a type without documentation. -/
theorem C60_operator (parse : Parser V) (t s : Str) : validatesOp parse t s = true ↔ ∃ j, parse s = .ok j ∧ DocOp j t := by
  unfold validatesOp
  cases hf : Map.find? opSchemas t with
  | none =>
    constructor
    · intro h; cases h
    · rintro ⟨j, _, hd⟩
      have := doc_listed hd.params
      rw [Map.find?_none_iff] at hf
      exact absurd this hf
  | some sc =>
    dsimp only
    cases hp : parse s with
    | error e => exact ⟨fun h => (by cases h), fun ⟨j, h, _⟩ => (by cases h)⟩
    | ok j =>
      dsimp only
      rw [opSchemas_iff (opSchemas_find hf)]
      exact ⟨fun h => ⟨j, rfl, h⟩, fun ⟨j', h, hd⟩ => by cases h; exact hd⟩

omit [Num V] in
/-- C60: `validate` accepts a text exactly when it is the description of a program as documented. -/
theorem C60_program (parse : Parser V) (s : Str) : validates parse s = true ↔ ∃ j, parse s = .ok j ∧ DocProgram j := by
  unfold validates
  cases hp : parse s with
  | error e => exact ⟨fun h => (by cases h), fun ⟨j, h, _⟩ => (by cases h)⟩
  | ok j =>
    dsimp only
    rw [programSchema_iff]
    exact ⟨fun h => ⟨j, rfl, h⟩, fun ⟨j', h, hd⟩ => by cases h; exact hd⟩

omit [Num V] in
/-- C60: the two checks agree: the operators of an accepted program are the values that `validateOperator` accepts for the type they
name (and for no other type). -/
theorem C60_agree (parse : Parser V) {s so : Str} {j x os : Json V} (h : validates parse s = true) (hj : parse s = .ok j)
    (hos : Member j b!"operators" os) (hx : x ∈ os.items) (hso : parse so = .ok x) (t : Str) : validatesOp parse t so = true ↔ HasType x t := by
  obtain ⟨j', h1, h2⟩ := (C60_program parse s).1 h
  cases hj.symm.trans h1
  obtain ⟨os', h3, l, rfl, h4⟩ := h2.operators
  cases hos.unique h3
  obtain ⟨t', ht⟩ := h4 x hx
  rw [C60_operator]
  constructor
  · rintro ⟨x', h5, h6⟩
    cases hso.symm.trans h5
    exact h6.type
  · intro h5
    cases h5.unique ht.type
    exact ⟨x, hso, ht⟩

omit [Num V] in
/-- C60: the types that can occur in an accepted program. -/
theorem C60_types (t : Str) (h : ∃ (parse : Parser V) (s : Str), validatesOp parse t s = true) : t ∈ docTypes := by
  obtain ⟨parse, s, h⟩ := h
  obtain ⟨j, _, hd⟩ := (C60_operator parse t s).1 h
  have h1 := doc_listed hd.params
  have h2 : ∀ t ∈ opSchemas.map (·.1), t ∈ docTypes := by decide
  exact h2 t h1

/-- A description of each type is accepted. -/
example : ∀ t ∈ docTypes, ∃ s, Map.find? opSchemas t = some s ∧ s.accepts
    (.obj [(b!"coeff", .arr [.uint 1, .float 2]), (b!"dt", .uint 1), (b!"id", .str b!"x"), (b!"interval", .uint 1), (b!"n", .uint 1),
      (b!"numPorts", .uint 2), (b!"points", .arr [.arr [.uint 1, .float 2], .arr [.uint 2, .int (-1)]]), (b!"times", .uint 1), (b!"type", .str t),
      (b!"value", .uint 1)] : Json Int64) = true := by
  have h : docTypes.all (fun t => match Map.find? opSchemas t with
      | none => false
      | some s => s.accepts (.obj [(b!"coeff", .arr [.uint 1, .float 2]), (b!"dt", .uint 1), (b!"id", .str b!"x"), (b!"interval", .uint 1), (b!"n", .uint 1),
      (b!"numPorts", .uint 2), (b!"points", .arr [.arr [.uint 1, .float 2], .arr [.uint 2, .int (-1)]]), (b!"times", .uint 1), (b!"type", .str t),
      (b!"value", .uint 1)] : Json Int64)) = true := by decide +kernel
  intro t ht
  have := List.all_eq_true.1 h t ht
  split at this
  · cases this
  · exact ⟨_, by assumption, this⟩

/-! ## C61: what is accepted can be created -/

/-- C61: an operator description that `validateOperator` accepts describes an operator, and the factory creates it.

Missing: `Sane`: integers that are negative, too large or written with a fraction; a Join without "numPorts" and a Linear without "coeff";
Functions. See below. -/
theorem C61_created_partial {parse : Parser V} {t s : Str} {j : Json V} (h : validatesOp parse t s = true) (hj : parse s = .ok j) (hs : Sane j)
    (junk : Junk V) (fuel : Nat) (m : Mem V) : ∃ o, Describes (junk m.next) j o ∧ readOp junk (fuel + 1) j m = .ok (o, m) := by
  obtain ⟨j', h1, h2⟩ := (C60_operator parse t s).1 h
  cases hj.symm.trans h1
  obtain ⟨o, ho⟩ := describes_of_doc h2 hs (junk m.next)
  exact ⟨o, ho, C49_accepted ho⟩

/-- A concrete case: a MovingAverage of 3 messages. -/
example : let j : Json ℚ := .obj [(b!"id", .str b!"ma"), (b!"n", .uint 3), (b!"type", .str b!"MovingAverage")]
    validatesOp (fun _ => .ok j) b!"MovingAverage" [] = true ∧ Sane j := by
  refine ⟨by decide +kernel, ⟨?_, ?_, ?_, ?_⟩, ?_, ?_, ?_⟩
  · rintro k hk x ⟨m, hm, hx⟩
    cases hm
    simp only [List.mem_cons, List.not_mem_nil, or_false] at hk
    rcases hk with rfl | rfl | rfl | rfl | rfl <;> simp at hx
    exact ⟨3, hx.symm⟩
  · rintro k hk n ⟨m, hm, hx⟩
    cases hm
    simp only [List.mem_cons, List.not_mem_nil, or_false] at hk
    rcases hk with rfl | rfl <;> simp at hx
  · rintro ⟨m, hm, hx⟩
    cases hm
    simp at hx
  · rintro ⟨m, hm, hx⟩
    cases hm
    simp at hx
  · rintro ⟨m, hm, hx⟩
    cases hm
    simp at hx
  · rintro ⟨m, hm, hx⟩
    cases hm
    simp at hx
  · rintro ⟨m, hm, hx⟩
    cases hm
    simp at hx

/-- C61 is violated: "numPorts" is optional for a Join, but reading a description without it is undefined behaviour (operator[] on a constant
JSON object without the key). -/
theorem C61_violated_join (junk : Junk V) (m : Mem V) : let j : Json V := .obj [(b!"id", .str b!"j"), (b!"type", .str b!"Join")]
    validatesOp (parsed j) b!"Join" [] = true ∧ readOp junk 1 j m = .error (.ub .endDeref) := ⟨rfl, rfl⟩

/-- C61 is violated: "coeff" is optional for a Linear, with the same consequence. -/
theorem C61_violated_linear (junk : Junk V) (m : Mem V) : let j : Json V := .obj [(b!"id", .str b!"l"), (b!"type", .str b!"Linear")]
    validatesOp (parsed j) b!"Linear" [] = true ∧ readOp junk 1 j m = .error (.ub .endDeref) := ⟨rfl, rfl⟩

/-- C61 is violated: no Function that is accepted can be created. -/
theorem C61_violated_function {parse : Parser V} {s : Str} {j : Json V} (h : validatesOp parse b!"Function" s = true) (hj : parse s = .ok j)
    (junk : Junk V) (fuel : Nat) (m m' : Mem V) (o : Op V) : readOp junk fuel j m ≠ .ok (o, m') := by
  obtain ⟨j', h1, h2⟩ := (C60_operator parse _ s).1 h
  cases hj.symm.trans h1
  exact C49_violated_function h2.type

/-- There are accepted Functions. -/
example : let j : Json V := .obj [(b!"id", .str b!"f"), (b!"points", .arr [.arr [.uint 1, .uint 1], .arr [.uint 2, .uint 4]]), (b!"type", .str b!"Function")]
    validatesOp (parsed j) b!"Function" [] = true := rfl

/-- C61 is violated: a negative window is accepted and becomes one of 2^64 - 1 messages, which never answers. -/
theorem C61_violated_negative (junk : Junk V) (m : Mem V) :
    let j : Json V := .obj [(b!"id", .str b!"ma"), (b!"n", .int (-1)), (b!"type", .str b!"MovingAverage")]
    validatesOp (parsed j) b!"MovingAverage" [] = true ∧ readOp junk 1 j m = .ok (Op.newMovAvg b!"ma" (2 ^ 64 - 1), m) := ⟨rfl, rfl⟩

/-- C61 is violated: an Output with 2^32 ports is accepted and has no port at all. -/
theorem C61_violated_ports (junk : Junk V) (m : Mem V) :
    let j : Json V := .obj [(b!"id", .str b!"o"), (b!"numPorts", .uint 4294967296), (b!"type", .str b!"Output")]
    validatesOp (parsed j) b!"Output" [] = true ∧ ∃ o, readOp junk 1 j m = .ok (o, m) ∧ o.core.dataIn = [] ∧ o.core.outIds = [] := by
  have : (Json.uint 4294967296 : Json V).getInt = .ok 0 := by
    show Except.ok (Json.wrap32 (4294967296 : UInt64).toNat) = _
    rw [show (4294967296 : UInt64).toNat = 4294967296 by decide]
    rfl
  refine ⟨rfl, ⟨Core.new b!"o", .output []⟩, ?_, rfl, rfl⟩
  show (((Json.uint 4294967296 : Json V).getInt >>= fun n => portCount (intSize n) >>= fun n => Op.newOutput b!"o" n) >>= fun o => Except.ok (o, m)) = _
  rw [this]
  rfl

/-- C61 is violated: an Output with 2^31 ports is accepted, but the loop that adds the ports overflows. -/
theorem C61_violated_overflow (junk : Junk V) (m : Mem V) :
    let j : Json V := .obj [(b!"id", .str b!"o"), (b!"numPorts", .uint 2147483648), (b!"type", .str b!"Output")]
    validatesOp (parsed j) b!"Output" [] = true ∧ readOp junk 1 j m = .error (.ub .signedOverflow) := by
  have : (Json.uint 2147483648 : Json V).getInt = .ok (-2147483648) := by
    show Except.ok (Json.wrap32 (2147483648 : UInt64).toNat) = _
    rw [show (2147483648 : UInt64).toNat = 2147483648 by decide]
    rfl
  refine ⟨rfl, ?_⟩
  show (((Json.uint 2147483648 : Json V).getInt >>= fun n => portCount (intSize n) >>= fun n => Op.newOutput b!"o" n) >>= fun o => Except.ok (o, m)) = _
  rw [this]
  show ((portCount (intSize (-2147483648)) >>= fun n => Op.newOutput b!"o" n) >>= fun o => Except.ok (o, m)) = _
  unfold portCount
  rw [if_neg (by decide)]
  rfl

/-- C61 is violated: the size of the window of a StandardDeviation may have a fraction, which is cut off. -/
theorem C61_violated_fraction (junk : Junk ℚ) (m : Mem ℚ) :
    let j : Json ℚ := .obj [(b!"id", .str b!"s"), (b!"n", .float (5 / 2)), (b!"type", .str b!"StandardDeviation")]
    validatesOp (parsed j) b!"StandardDeviation" [] = true ∧ readOp junk 1 j m = .ok (Op.newStdDev b!"s" 2, m) := by
  have ht : Num.toTime (5 / 2 : ℚ) = some 2 := truncTime_eq 2 (5 / 2 : ℚ) (by rw [show (2 : UInt64).toNat = 2 from rfl]; norm_num)
    (by rw [show (2 : UInt64).toNat = 2 from rfl]; norm_num)
  refine ⟨rfl, ?_⟩
  show ((toTimeE (5 / 2 : ℚ) >>= fun n => Except.ok (Op.newStdDev b!"s" n.toNat)) >>= fun o => Except.ok (o, m)) = _
  unfold toTimeE
  rw [ht]
  rfl

/-! ## C62: what can be created is accepted -/

/-- C62: a description of an operator that the factory creates as described is accepted by `validateOperator`.

Missing: `Documented`, see below; Pipelines, for which there is no schema; descriptions whose parameters the factory changes (`Whole`). -/
theorem C62_accepted_partial {junk : Junk V} {fuel : Nat} {parse : Parser V} {s : Str} {j : Json V} {m m' : Mem V} {o : Op V}
    (h : readOp junk fuel j m = .ok (o, m')) (hp : ¬ HasType j b!"Pipeline") (hw : Whole j) (hd : Documented j) (hj : parse s = .ok j) :
    ∃ t, HasType j t ∧ validatesOp parse t s = true := by
  obtain ⟨t, ht⟩ := doc_of_describes (C49_exact_partial h hp hw).1 hd
  exact ⟨t, ht.type, (C60_operator parse t s).2 ⟨j, hj, ht⟩⟩

/-- A concrete case: a LessThan with an integer bound. -/
example (junk : Junk V) (m : Mem V) : let j : Json V := .obj [(b!"id", .str b!"l"), (b!"type", .str b!"LessThan"), (b!"value", .int (-3))]
    (∃ o, readOp junk 1 j m = .ok (o, m)) ∧ ¬ HasType j b!"Pipeline" ∧ Whole j ∧ Documented j := by
  have hty : ∀ t, t ≠ b!"LessThan" → ¬ HasType (.obj [(b!"id", .str b!"l"), (b!"type", .str b!"LessThan"), (b!"value", .int (-3))] : Json V) t := by
    rintro t hne ⟨m', hm, hx⟩
    cases hm
    cases hx
    exact hne rfl
  refine ⟨⟨_, rfl⟩, hty _ (by decide), (sane_of (t := b!"LessThan") ?_ rfl (by decide)).whole, hty _ (by decide), ?_,
    fun h => absurd h (hty _ (by decide)), fun h => absurd h (hty _ (by decide)), fun h => absurd h (hty _ (by decide)),
    fun h => absurd h (hty _ (by decide)), fun h => absurd h (hty _ (by decide))⟩
  · intro k hk
    simp only [List.mem_cons, List.not_mem_nil, or_false] at hk
    rcases hk with rfl | rfl | rfl | rfl | rfl <;> rfl
  · rintro _ y ⟨m', hm, hx⟩
    cases hm
    cases hx
    exact .int _

/-- C62 is violated: a RelativeStrengthIndex can be created, but no description of one is accepted. -/
theorem C62_violated_rsi (junk : Junk V) (m : Mem V) :
    (readOp junk 1 (.obj [(b!"id", .str b!"r"), (b!"n", .uint 14), (b!"type", .str b!"RelativeStrengthIndex")]) m = .ok (Op.newRsi b!"r" 14, m)) ∧
    ∀ (parse : Parser V) s, validatesOp parse b!"RelativeStrengthIndex" s = false := ⟨rfl, fun _ _ => rfl⟩

/-- C62 is violated: no program with a Pipeline or a RelativeStrengthIndex is accepted. -/
theorem C62_violated_program {parse : Parser V} {s : Str} {j os x : Json V} (h : validates parse s = true) (hj : parse s = .ok j)
    (hos : Member j b!"operators" os) (hx : x ∈ os.items) : ¬ HasType x b!"Pipeline" ∧ ¬ HasType x b!"RelativeStrengthIndex" := by
  obtain ⟨j', h1, h3⟩ := (C60_program parse s).1 h
  cases hj.symm.trans h1
  obtain ⟨os', h4, l, rfl, h5⟩ := h3.operators
  cases hos.unique h4
  obtain ⟨t, ht⟩ := h5 x hx
  have := doc_listed ht.params
  constructor
  · intro hc; cases hc.unique ht.type; exact absurd this (by decide)
  · intro hc; cases hc.unique ht.type; exact absurd this (by decide)

/-- C62 is violated: the bound of a LessThan may be any number for the factory, but must be an integer for the validation. -/
theorem C62_violated_lessThan (junk : Junk V) (m : Mem V) (v : V) :
    let j : Json V := .obj [(b!"id", .str b!"l"), (b!"type", .str b!"LessThan"), (b!"value", .float v)]
    readOp junk 1 j m = .ok (Op.newFilter b!"l" .lessThan v, m) ∧ validatesOp (parsed j) b!"LessThan" [] = false := ⟨rfl, rfl⟩

/-- C62 is violated: a TimeShift by 0. -/
theorem C62_violated_timeShift (junk : Junk V) (m : Mem V) :
    let j : Json V := .obj [(b!"dt", .uint 0), (b!"id", .str b!"t"), (b!"type", .str b!"TimeShift")]
    readOp junk 1 j m = .ok (Op.newTimeShift b!"t" 0 1, m) ∧ validatesOp (parsed j) b!"TimeShift" [] = false := by
  intro j
  constructor
  · exact C49_accepted (.timeShift (dt := 0) (times := 1) ⟨_, rfl, rfl⟩ ⟨_, rfl, rfl⟩ (Or.inl ⟨_, rfl, rfl⟩) (by decide)
      (Or.inr ⟨fun x ⟨m, hm, hx⟩ => (by injection hm with hm; subst hm; cases hx), rfl⟩) (by decide))
  · rw [Bool.eq_false_iff, ne_eq, C60_operator]
    rintro ⟨j', h, hd⟩
    cases h
    have h := docParams_inv hd.params
    simp at h
    have := (h.1 _ ⟨_, rfl, rfl⟩).uint_le
    exact absurd this (by decide)

/-- C62 is violated: the library compares integers as `int64_t`, so that an interval of 2^63 counts as negative. -/
theorem C62_violated_interval (junk : Junk V) (m : Mem V) :
    let j : Json V := .obj [(b!"id", .str b!"c"), (b!"interval", .uint 9223372036854775808), (b!"type", .str b!"ConstantResampler")]
    (∃ o, readOp junk 1 j m = .ok (o, m)) ∧ validatesOp (parsed j) b!"ConstantResampler" [] = false := by
  intro j
  constructor
  · exact ⟨⟨Core.simple b!"c" 1, .constRes 9223372036854775808 (junk m.next).1 false (junk m.next).2⟩,
      C49_accepted (.constRes ⟨_, rfl, rfl⟩ ⟨_, rfl, rfl⟩ ⟨_, rfl, rfl⟩ rfl)⟩
  · rw [Bool.eq_false_iff, ne_eq, C60_operator]
    rintro ⟨j', h, hd⟩
    cases h
    have h := docParams_inv hd.params
    simp at h
    obtain ⟨x, ⟨_, hm, hx⟩, hx'⟩ := h
    injection hm with hm
    subst hm
    cases hx
    cases hx' with
    | uint _ _ hlt => exact absurd hlt (by decide)

/-! ## C63: accepted programs -/

/-- C63: creating a program from an accepted description succeeds or throws one of two exceptions; it is never undefined and terminates.

Missing: the exceptions of C61. -/
theorem C63_defined_partial {parse : Parser V} {s : Str} {j : Json V} (h : validates parse s = true) (hj : parse s = .ok j) (hs : AllSane j)
    (junk : Junk V) : (∃ P, Prog.create parse junk s = .ok P) ∨ ∃ e ∈ [Exc.runtime, .outOfRange], Prog.create parse junk s = .error (.exc e) := by
  obtain ⟨j', h1, hd⟩ := (C60_program parse s).1 h
  cases hj.symm.trans h1
  unfold Prog.create
  rw [hj]
  exact initWith_total hd hs junk s

/-- C63: if moreover the entry operator is one of the operators and all connections lead from an output port to an input port, the program is
created.

Missing: the exceptions of C61. -/
theorem C63_created_partial {parse : Parser V} {s : Str} {j : Json V} (h : validates parse s = true) (hj : parse s = .ok j) (hs : AllSane j)
    {entry : Str} {os cs : Json V} (he : Member j b!"entryOperator" (.str entry)) (hne : entry ≠ []) (hos : Member j b!"operators" os)
    (hx : ∃ x ∈ os.items, HasId x entry) (hcs : Member j b!"connections" cs) (hc : ∀ c ∈ cs.items, Connectable os.items c)
    (junk : Junk V) : ∃ P, Prog.create parse junk s = .ok P := by
  obtain ⟨j', h1, hd⟩ := (C60_program parse s).1 h
  cases hj.symm.trans h1
  unfold Prog.create
  rw [hj]
  exact initWith_connectable hd hs he hne hos hx hcs hc junk s

/-- C63: what `createProgram` of the API does: a text that is not accepted is answered with the error and changes nothing; for an accepted
one the program is created and, unless the id exists, registered, or an exception propagates and nothing changes. The answer is never the one for a text
that cannot be parsed.

Missing: the exceptions of C61. -/
theorem C63_answer_partial {parse : Parser V} {s : Str} (hs : ∀ j, parse s = .ok j → AllSane j) (text : Str → Str) (junk : Junk V) (F : Factory V)
    (id : Str) : ∃ r, F.createChecked (schemaCheck text parse) parse junk id s = r ∧
      (validates parse s = false ∧ r = .ok (some (text s)) F ∨
       validates parse s = true ∧ ((∃ P, Prog.create parse junk s = .ok P ∧ r = .ok (some []) { F with programs := F.programs.emplace id P }) ∨
         ∃ e ∈ [Exc.runtime, .outOfRange], r = .err (.exc e) F)) := by
  refine ⟨_, rfl, ?_⟩
  unfold Factory.createChecked schemaCheck
  cases hv : validates parse s with
  | false => exact Or.inl ⟨rfl, rfl⟩
  | true =>
    refine Or.inr ⟨rfl, ?_⟩
    obtain ⟨j, hj, _⟩ := (C60_program parse s).1 hv
    show (∃ P, _ ∧ Factory.createJson parse junk F id s = _) ∨ ∃ e ∈ _, Factory.createJson parse junk F id s = _
    unfold Factory.createJson
    rcases C63_defined_partial hv hj (hs j hj) junk with ⟨P, hP⟩ | ⟨e, he, hP⟩
    · rw [hP]
      exact Or.inl ⟨P, rfl, rfl⟩
    · rw [hP]
      refine Or.inr ⟨e, he, ?_⟩
      simp only [List.mem_cons, List.not_mem_nil, or_false] at he
      rcases he with rfl | rfl <;> rfl

/-- A concrete case for the theorems of C63: an Input connected to an Add and the sum to an Output. -/
def sumProg : Json V :=
  .obj [(b!"connections", .arr [.obj [(b!"from", .str b!"in"), (b!"to", .str b!"add")],
      .obj [(b!"from", .str b!"add"), (b!"fromPort", .str o1), (b!"to", .str b!"out"), (b!"toPort", .str i1)]]),
    (b!"date", .str b!"2024-02-29"), (b!"entryOperator", .str b!"in"),
    (b!"operators", .arr [.obj [(b!"id", .str b!"in"), (b!"type", .str b!"Input")],
      .obj [(b!"id", .str b!"add"), (b!"type", .str b!"Add"), (b!"value", .int (-2))],
      .obj [(b!"id", .str b!"out"), (b!"type", .str b!"Output")]]),
    (b!"output", .obj [(b!"out", .arr [.str o1])])]

example : validates (parsed (sumProg : Json ℚ)) [] = true ∧ AllSane (sumProg : Json ℚ) := by
  refine ⟨by decide +kernel, ?_⟩
  rintro os ⟨m, hm, hx⟩ x hmem
  cases hm
  cases hx
  simp only [Json.items, List.mem_cons, List.not_mem_nil, or_false] at hmem
  rcases hmem with rfl | rfl | rfl
  · exact sane_of (t := b!"Input") (by decide +revert) rfl (by decide)
  · exact sane_of (t := b!"Add") (by decide +revert) rfl (by decide)
  · exact sane_of (t := b!"Output") (by decide +revert) rfl (by decide)

/-- The connections of `sumProg` are possible. -/
example : ∃ os cs, Member (sumProg : Json ℚ) b!"operators" os ∧ Member (sumProg : Json ℚ) b!"connections" cs ∧
    (∃ x ∈ os.items, HasId x b!"in") ∧ ∀ c ∈ cs.items, Connectable os.items c := by
  refine ⟨_, _, ⟨_, rfl, rfl⟩, ⟨_, rfl, rfl⟩, ⟨_, List.mem_cons_self, _, rfl, rfl⟩, ?_⟩
  have no : ∀ {m : Map (Json ℚ)} {id id' : Str}, Map.find? m b!"id" = some (.str id) → id ≠ id' → ¬ HasId (.obj m) id' := by
    rintro m id id' h hne ⟨m', hm, hx⟩
    cases hm
    rw [h] at hx
    cases hx
    exact hne rfl
  have noPorts : ∀ {m : Map (Json ℚ)} {k : Str}, Map.find? m k = none → ∀ x, ¬ Member (.obj m) k x := by
    rintro m k h x ⟨m', hm, hx⟩
    cases hm
    rw [h] at hx
    cases hx
  have in1 : Describes ((0 : UInt64), (0 : ℚ)) (.obj [(b!"id", .str b!"in"), (b!"type", .str b!"Input")]) _ :=
    .input ⟨_, rfl, rfl⟩ ⟨_, rfl, rfl⟩ (n := 1) (Or.inr ⟨noPorts rfl, rfl⟩) (by decide) rfl
  have out1 : Describes ((0 : UInt64), (0 : ℚ)) (.obj [(b!"id", .str b!"out"), (b!"type", .str b!"Output")]) _ :=
    .output ⟨_, rfl, rfl⟩ ⟨_, rfl, rfl⟩ (n := 1) (Or.inr ⟨noPorts rfl, rfl⟩) (by decide) rfl
  have add1 : Describes ((0 : UInt64), (0 : ℚ)) (.obj [(b!"id", .str b!"add"), (b!"type", .str b!"Add"), (b!"value", .int (-2))]) _ :=
    .add ⟨_, rfl, rfl⟩ ⟨_, rfl, rfl⟩ ⟨_, rfl, rfl⟩ (.negative 2 (by decide))
  intro c hc
  simp only [Json.items, List.mem_cons, List.not_mem_nil, or_false] at hc
  rcases hc with rfl | rfl
  · refine ⟨b!"in", b!"add", _, _, _, _, _, ⟨_, rfl, rfl⟩, ⟨_, rfl, rfl⟩, ⟨[], _, rfl, ⟨_, rfl, rfl⟩, by simp⟩, ⟨[_], _, rfl, ⟨_, rfl, rfl⟩, ?_⟩,
      in1, add1, ⟨[], o1, Or.inr ⟨noPorts rfl, rfl⟩, by decide, by decide, Or.inr ⟨rfl, rfl⟩⟩, [], i1, Or.inr ⟨noPorts rfl, rfl⟩, Or.inl (by decide), by decide,
      Or.inr ⟨rfl, rfl, rfl⟩⟩
    intro y hy
    rw [List.mem_singleton.1 hy]
    exact no rfl (by decide)
  · refine ⟨b!"add", b!"out", _, _, _, _, _, ⟨_, rfl, rfl⟩, ⟨_, rfl, rfl⟩, ⟨[_], _, rfl, ⟨_, rfl, rfl⟩, ?_⟩, ⟨[_, _], _, rfl, ⟨_, rfl, rfl⟩, ?_⟩,
      add1, out1, ⟨o1, o1, Or.inl ⟨_, rfl, rfl⟩, by decide, by decide, Or.inl rfl⟩, i1, i1, Or.inl ⟨_, rfl, rfl⟩, Or.inl (by decide), by decide, Or.inl rfl⟩
    · intro y hy
      rw [List.mem_singleton.1 hy]
      exact no rfl (by decide)
    · intro y hy
      rcases List.mem_cons.1 hy with rfl | hy
      · exact no rfl (by decide)
      · rw [List.mem_singleton.1 hy]
        exact no rfl (by decide)

/-- C63 is violated: `createProgram` of an accepted program with a Join that relies on the optional "numPorts" is undefined. -/
theorem C63_violated_join (text : Str → Str) (junk : Junk ℚ) (F : Factory ℚ) (id : Str) :
    let parse : Parser ℚ := parsed (.obj [(b!"connections", .arr []), (b!"entryOperator", .str b!"j"),
      (b!"operators", .arr [.obj [(b!"id", .str b!"j"), (b!"type", .str b!"Join")]])])
    validates parse [] = true ∧ F.createChecked (schemaCheck text parse) parse junk id [] = .err (.ub .endDeref) F := ⟨by decide +kernel, rfl⟩

/-- C63: the conditions of `C63_created_partial` are not checked: an accepted program may name an entry operator that does not exist. -/
theorem C63_violated_entry (text : Str → Str) (junk : Junk ℚ) (F : Factory ℚ) (id : Str) :
    let parse : Parser ℚ := parsed (.obj [(b!"connections", .arr []), (b!"entryOperator", .str b!"a"), (b!"operators", .arr [])])
    validates parse [] = true ∧ F.createChecked (schemaCheck text parse) parse junk id [] = .err (.exc .outOfRange) F := ⟨by decide +kernel, rfl⟩

/-! ## C64: the output filter -/

/-- C64: the output filter of a program created from an accepted description is the one of the description.

Missing: filters with a key that the schema does not check, that is one with characters other than A-Z, 0-9, a-t, underscore and hyphen. -/
theorem C64_filter_partial {parse : Parser V} {s : Str} {j : Json V} {P : Prog V} {junk : Junk V} (h : validates parse s = true) (hj : parse s = .ok j)
    (hP : Prog.create parse junk s = .ok P) (hne : P ≠ Prog.empty s) {f : Map (Json V)} (hf : Member j b!"output" (.obj f))
    (hk : ∀ k ∈ Map.keys f, Checked k) (k : Str) (l : List Str) : P.filter.find? k = some l ↔ Member (.obj f) k (.arr (l.map Json.str)) := by
  obtain ⟨j', h1, hd⟩ := (C60_program parse s).1 h
  cases hj.symm.trans h1
  have hfil : P.filter = readFilter j := by
    unfold Prog.create at hP
    rw [hj] at hP
    obtain ⟨_, _, _, _, _, _, _, _, _, _, _, _, _, _, _, _, ⟨_, rfl⟩ | ⟨_, rfl⟩⟩ := initWith_ok hP
    · rfl
    · exact absurd rfl hne
  rw [hfil]
  obtain ⟨f', hf', hall⟩ := hd.output _ hf
  cases hf'
  exact (readFilter_texts hf fun k y hm => hall k y hm (hk k (List.mem_map.2 ⟨_, hm, rfl⟩))).2 k l

/-- C64: without "output" there is no filter. -/
theorem C64_absent {parse : Parser V} {s : Str} {j : Json V} {P : Prog V} {junk : Junk V} (hj : parse s = .ok j)
    (hP : Prog.create parse junk s = .ok P) (hf : ∀ x, ¬ Member j b!"output" x) : P.filter = [] := by
  unfold Prog.create at hP
  rw [hj] at hP
  obtain ⟨_, _, _, _, _, _, _, _, _, _, _, _, _, _, _, _, ⟨_, rfl⟩ | ⟨_, rfl⟩⟩ := initWith_ok hP
  · exact readFilter_absent hf
  · rfl

/-- A concrete case. -/
example (junk : Junk ℚ) :
    let j : Json ℚ := .obj [(b!"connections", .arr []), (b!"entryOperator", .str b!"a"),
      (b!"operators", .arr [.obj [(b!"id", .str b!"a"), (b!"type", .str b!"Input")]]), (b!"output", .obj [(b!"a", .arr [.str o1])])]
    validates (parsed j) [] = true ∧ (∃ P, Prog.create (parsed j) junk [] = .ok P ∧ P.filter = [(b!"a", [o1])] ∧ P.ops.keys = [b!"a"]) ∧
    Checked b!"a" ∧ ¬ Checked b!"out" := by
  refine ⟨by decide +kernel, ⟨_, rfl, rfl, rfl⟩, ⟨by simp, by decide⟩, ?_⟩
  rintro ⟨_, h⟩
  exact absurd (h 117 (by decide)) (by decide)

/-- C64 is violated: the value of the key "out" is not checked because of the "u" in it. When it is not a list the description is accepted,
and the whole filter, including the proper entry for "a", is dropped without notice. -/
theorem C64_violated_dropped (junk : Junk ℚ) :
    let parse : Parser ℚ := parsed (.obj [(b!"connections", .arr []), (b!"entryOperator", .str b!"a"),
      (b!"operators", .arr [.obj [(b!"id", .str b!"a"), (b!"type", .str b!"Input")]]),
      (b!"output", .obj [(b!"a", .arr [.str o1]), (b!"out", .str o1)])])
    validates parse [] = true ∧ ∃ P, Prog.create parse junk [] = .ok P ∧ P.ops ≠ [] ∧ P.filter = [] :=
  ⟨by decide +kernel, _, rfl, List.cons_ne_nil _ _, rfl⟩

end Rtbot
