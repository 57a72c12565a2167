import Verif.Lemmas.PyOperators
import Verif.Props.Schema

/-! # C69: the operator classes of the Python wrapper -/

namespace Rtbot
open Spec
variable {V : Type} [Num V]

omit [Num V] in
theorem assembled_of {t : Str} {args : Map (Json V)} {s : Schema} (hs : (t, s) ∈ opSchemas) {m : Map (Json V)} {req : List Str} {opt : List (Str × Json V)}
    (ht : takes t = some (req, opt)) (hk : ∀ k ∈ args.keys, k ∈ (pyParams s).map (·.1))
    (hm : ∀ k, m.find? k = if k ∈ (pyParams s).map (·.1) then some (pyGiven t args k) else Map.find? [(b!"type", .str t)] k)
    (hr : ∀ k, (k, true) ∈ pyParams s → args.find? k ≠ none) : Callable args req opt ∧ Assembled t args opt (.obj m) := by
  rw [pyParams_takes hs] at ht
  simp only [Option.some.injEq, Prod.mk.injEq] at ht
  obtain ⟨rfl, rfl⟩ := ht
  have hty : b!"type" ∉ (pyParams s).map (·.1) := by
    intro h
    obtain ⟨p, hp, he⟩ := List.mem_map.1 h
    obtain ⟨k, r⟩ := p
    cases he
    exact pyParams_no_type hp
  refine ⟨⟨fun k h => ?_, fun k x h => ?_⟩, ⟨m, rfl⟩, fun k x => ?_⟩
  · obtain ⟨p, hp, rfl⟩ := List.mem_map.1 h
    obtain ⟨h1, h2⟩ := List.mem_filter.1 hp
    obtain ⟨k, r⟩ := p
    cases h2
    exact hr k h1
  · have h1 : k ∈ args.keys := (Map.find?_isSome_iff ..).1 (by rw [h]; rfl)
    obtain ⟨p, hp, rfl⟩ := List.mem_map.1 (hk k h1)
    obtain ⟨k, r⟩ := p
    cases r with
    | true => exact Or.inl (List.mem_map.2 ⟨_, List.mem_filter.2 ⟨hp, rfl⟩, rfl⟩)
    | false => exact Or.inr ⟨paramDefault t k, List.mem_map.2 ⟨_, List.mem_filter.2 ⟨hp, rfl⟩, rfl⟩⟩
  · have : Member (.obj m) k x ↔ m.find? k = some x := ⟨fun ⟨m', h, hx⟩ => by cases h; exact hx, fun h => ⟨m, rfl, h⟩⟩
    rw [this, hm]
    by_cases hkt : k = b!"type"
    · subst hkt
      rw [if_neg hty]
      constructor
      · intro h
        cases h
        exact Or.inl ⟨rfl, rfl⟩
      · rintro (⟨_, rfl⟩ | ⟨h, _⟩)
        · rfl
        · exact absurd rfl h
    · have hnone : Map.find? [(b!"type", (.str t : Json V))] k = none := by
        rw [Map.find?_none_iff]
        simpa [Map.keys] using hkt
      simp only [hkt, false_and, false_or, not_false_eq_true, ne_eq, true_and]
      by_cases hp : k ∈ (pyParams s).map (·.1)
      · rw [if_pos hp]
        unfold pyGiven
        cases ha : args.find? k with
        | some v => simp
        | none =>
          simp only [Option.some.injEq, reduceCtorEq, true_and, false_or]
          obtain ⟨⟨k', r⟩, hq', hkk⟩ := List.mem_map.1 hp
          subst hkk
          constructor
          · rintro rfl
            cases r with
            | true => exact absurd ha (hr _ hq')
            | false => exact List.mem_map.2 ⟨_, List.mem_filter.2 ⟨hq', rfl⟩, rfl⟩
          · intro h
            obtain ⟨q, _, hq⟩ := List.mem_map.1 h
            simp only [Prod.mk.injEq] at hq
            rw [← hq.2, hq.1]
      · rw [if_neg hp, hnone]
        constructor
        · intro h; cases h
        · rintro (h | ⟨_, h⟩)
          · exact absurd (hk k ((Map.find?_isSome_iff ..).1 (by rw [h]; rfl))) hp
          · obtain ⟨q, hq, he⟩ := List.mem_map.1 h
            simp only [Prod.mk.injEq] at he
            exact absurd (List.mem_map.2 ⟨q, (List.mem_filter.1 hq).1, he.1⟩) hp

omit [Num V] in
theorem mem_pyParams {s : Schema} {k : Str} : ((pyParams s).any fun p => p.1 == k) = true ↔ k ∈ (pyParams s).map (·.1) := by
  simp [List.any_eq_true]

omit [Num V] in
/-- C69: an object that the constructor of an operator class makes is a description of an operator of that type as documented. The arguments were those the
documentation asks for, and the object consists of the type, the arguments and the documented values of the arguments left out. -/
theorem C69_object {t : Str} {args : Map (Json V)} {j : Json V} (h : pyOperator t args = .ok j) :
    DocOp j t ∧ ∃ req opt, takes t = some (req, opt) ∧ Callable args req opt ∧ Assembled t args opt j := by
  unfold pyOperator at h
  cases hf : Map.find? opSchemas t with
  | none => rw [hf] at h; cases h
  | some s =>
    rw [hf] at h
    have hs := opSchemas_find hf
    dsimp only at h
    split at h
    · next hk =>
      cases ha : pyArgs t args (pyParams s) [(b!"type", .str t)] with
      | error e => rw [ha] at h; cases h
      | ok m =>
        rw [ha] at h
        have h : (if s.accepts (.obj m) = true then Except.ok (Json.obj m) else throwExc Exc.runtime) = .ok j := h
        split at h
        · next hacc =>
          cases h
          have hreq := pyArgs_required ha
          obtain ⟨m', h1, _, h3⟩ := pyArgs_ok (t := t) (args := args) (m := [(b!"type", .str t)]) (by simp [Map.Sorted, Map.keys]) hreq
          cases ha.symm.trans h1
          have hk' : ∀ k ∈ args.keys, k ∈ (pyParams s).map (·.1) := fun k hk1 => mem_pyParams.1 (List.all_eq_true.1 hk k hk1)
          exact ⟨(opSchemas_iff hs).1 hacc, _, _, pyParams_takes hs, assembled_of hs (pyParams_takes hs) hk' h3 hreq⟩
        · cases h
    · cases h

omit [Num V] in
/-- C69: conversely, with the arguments the documentation asks for the object is made; `hd` says that their values are as documented. -/
theorem C69_made {t : Str} {args : Map (Json V)} {req : List Str} {opt : List (Str × Json V)} (ht : takes t = some (req, opt)) (hc : Callable args req opt)
    (hd : ∀ j, Assembled t args opt j → DocOp j t) : ∃ j, pyOperator t args = .ok j ∧ Assembled t args opt j := by
  cases hf : Map.find? opSchemas t with
  | none => rw [takes_none hf] at ht; cases ht
  | some s =>
    have hs := opSchemas_find hf
    have ht' := ht
    rw [pyParams_takes hs] at ht'
    simp only [Option.some.injEq, Prod.mk.injEq] at ht'
    have hreq : ∀ k, (k, true) ∈ pyParams s → args.find? k ≠ none := by
      intro k hk
      refine hc.1 k ?_
      rw [← ht'.1]
      exact List.mem_map.2 ⟨_, List.mem_filter.2 ⟨hk, rfl⟩, rfl⟩
    have hkeys : ∀ k ∈ args.keys, k ∈ (pyParams s).map (·.1) := by
      intro k hk
      cases hx : args.find? k with
      | none => exact absurd ((Map.find?_isSome_iff ..).2 hk) (by rw [hx]; simp)
      | some x =>
        rcases hc.2 k x hx with h | ⟨d, h⟩
        · rw [← ht'.1] at h
          obtain ⟨p, hp, rfl⟩ := List.mem_map.1 h
          exact List.mem_map.2 ⟨p, (List.mem_filter.1 hp).1, rfl⟩
        · rw [← ht'.2] at h
          obtain ⟨p, hp, he⟩ := List.mem_map.1 h
          simp only [Prod.mk.injEq] at he
          exact List.mem_map.2 ⟨p, (List.mem_filter.1 hp).1, he.1⟩
    obtain ⟨m, h1, _, h3⟩ := pyArgs_ok (t := t) (args := args) (m := [(b!"type", .str t)]) (by simp [Map.Sorted, Map.keys]) hreq
    have ha := (assembled_of hs ht hkeys h3 hreq).2
    refine ⟨.obj m, ?_, ha⟩
    unfold pyOperator
    rw [hf]
    dsimp only
    rw [if_pos (List.all_eq_true.2 fun k hk => mem_pyParams.2 (hkeys k hk)), h1]
    show (if s.accepts (.obj m) = true then _ else _) = _
    rw [if_pos ((opSchemas_iff hs).2 (hd _ ha))]

omit [Num V] in
/-- C69: otherwise an exception is raised. -/
theorem C69_raises {t : Str} {args : Map (Json V)} {e : Err} (h : pyOperator t args = .error e) : e = .exc .runtime := by
  unfold pyOperator at h
  split at h
  · cases h; rfl
  · split at h
    · cases ha : pyArgs t args (pyParams _) [(b!"type", .str t)] with
      | error e' =>
        rw [ha] at h
        cases h
        exact pyArgs_error ha
      | ok m =>
        rw [ha] at h
        have h : (if Schema.accepts _ (.obj m) = true then Except.ok (Json.obj m) else throwExc Exc.runtime) = .error e := h
        split at h
        · cases h
        · cases h; rfl
    · cases h; rfl

/-- C69: the factory creates the operator that the object describes. The arguments that the schema does not ask for, though the factory does (C61), are there.

Missing: `Whole` (integers that are negative or too large, see C61) and Functions. -/
theorem C69_created_partial {t : Str} {args : Map (Json V)} {j : Json V} (h : pyOperator t args = .ok j) (hw : Whole j) (hf : t ≠ b!"Function")
    (junk : Junk V) (fuel : Nat) (m : Mem V) : ∃ o, Describes (junk m.next) j o ∧ readOp junk (fuel + 1) j m = .ok (o, m) := by
  obtain ⟨hd, req, opt, ht, hc, ha⟩ := C69_object h
  have hopt : ∀ (t' k : Str) (d : Json V), HasType j t' → takes t' = some ([b!"id"], [(k, d)]) → k ≠ b!"type" → ∃ y, Member j k y := by
    intro t' k d h1 h2 h3
    have h4 := h1.unique hd.type
    simp only [Json.str.injEq] at h4
    subst h4
    rw [ht] at h2
    simp only [Option.some.injEq, Prod.mk.injEq] at h2
    obtain ⟨rfl, rfl⟩ := h2
    cases hx : args.find? k with
    | some x => exact ⟨x, (ha.2 k x).2 (Or.inr ⟨h3, Or.inl hx⟩)⟩
    | none => exact ⟨d, (ha.2 k d).2 (Or.inr ⟨h3, Or.inr ⟨hx, List.mem_cons_self ..⟩⟩)⟩
  have hs : Sane j := ⟨hw, fun h1 => hopt _ _ (.uint 2) h1 rfl (by decide), fun h1 => hopt _ _ .null h1 rfl (by decide), fun h1 => by
    have h4 := h1.unique hd.type
    simp only [Json.str.injEq] at h4
    exact hf h4.symm⟩
  obtain ⟨o, ho⟩ := describes_of_doc hd hs (junk m.next)
  exact ⟨o, ho, C49_accepted ho⟩

omit [Num V] in
/-- C69: a Linear has to be given its coefficients, though the class declares them as optional: `None` is not accepted. -/
theorem C69_linear {args : Map (Json V)} {j : Json V} (h : pyOperator b!"Linear" args = .ok j) : ∃ x, args.find? b!"coeff" = some x := by
  obtain ⟨hd, req, opt, ht, hc, ha⟩ := C69_object h
  have ht' : takes (V := V) b!"Linear" = some ([b!"id"], [(b!"coeff", .null)]) := rfl
  rw [ht'] at ht
  simp only [Option.some.injEq, Prod.mk.injEq] at ht
  obtain ⟨rfl, rfl⟩ := ht
  cases hx : args.find? b!"coeff" with
  | some x => exact ⟨x, rfl⟩
  | none =>
    have h1 : Member j b!"coeff" .null := (ha.2 _ _).2 (Or.inr ⟨by decide, Or.inr ⟨hx, List.mem_cons_self ..⟩⟩)
    have h := docParams_inv hd.params
    simp at h
    obtain ⟨⟨l, h2, _⟩, _⟩ := h _ h1
    cases h2

/-- Concrete cases: a Join with its two ports, a MovingAverage, an unknown and a missing argument, a TimeShift with a given argument. -/
example : (match pyOperator (V := ℚ) b!"Join" [(b!"id", .str b!"j")] with
      | .ok (.obj [(k, .str i), (n, .uint p), (t, .str ty)]) => decide ([k, i, n, t, ty] = [b!"id", b!"j", b!"numPorts", b!"type", b!"Join"] ∧ p = 2)
      | _ => false) = true ∧
    (pyOperator (V := ℚ) b!"MovingAverage" [(b!"id", .str b!"m"), (b!"n", .uint 3)]).isOk = true ∧
    (pyOperator (V := ℚ) b!"MovingAverage" [(b!"id", .str b!"m")]).isOk = false ∧
    (pyOperator (V := ℚ) b!"Count" [(b!"id", .str b!"m"), (b!"n", .uint 3)]).isOk = false ∧
    (match pyOperator (V := ℚ) b!"TimeShift" [(b!"dt", .uint 7), (b!"id", .str b!"s")] with
      | .ok (.obj [(_, .uint a), _, (_, .uint b), _]) => decide (a = 7 ∧ b = 1)
      | _ => false) = true := by decide +kernel

/-- C69 is violated: an object of the class Function can be made, but a program with it cannot be created. -/
theorem C69_violated_function : ∃ j : Json V, pyOperator b!"Function" [(b!"id", .str b!"f"),
      (b!"points", .arr [.arr [.uint 1, .uint 1], .arr [.uint 2, .uint 4]])] = .ok j ∧
    ∀ (junk : Junk V) (fuel : Nat) (m m' : Mem V) (o : Op V), readOp junk fuel j m ≠ .ok (o, m') := by
  refine ⟨_, rfl, fun junk fuel m m' o => ?_⟩
  exact C61_violated_function (parse := parsed _) (s := []) rfl rfl junk fuel m m' o

/-- C69 is violated: a MovingAverage of -1 messages is made, and becomes one of 2^64 - 1 messages. -/
theorem C69_violated_negative (junk : Junk V) (m : Mem V) : ∃ j : Json V, pyOperator b!"MovingAverage" [(b!"id", .str b!"ma"), (b!"n", .int (-1))] = .ok j ∧
    readOp junk 1 j m = .ok (Op.newMovAvg b!"ma" (2 ^ 64 - 1), m) := ⟨_, rfl, rfl⟩

end Rtbot
