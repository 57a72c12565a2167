import Verif.Lemmas.Loose
import Verif.Spec.Toy
import Verif.Spec.Exact

/-! # C49 and C46: what is made of descriptions that are not documented, and C48 for Functions -/

namespace Rtbot
variable {V : Type} [Num V]
open Spec

/-- C49: for every description of an operator other than a Pipeline, whatever its values, the result is the operator it asks for after conversion of its numbers, and
there is a result only if there is such an operator. -/
theorem C49_any {junk : Junk V} {fuel : Nat} {j : Json V} {m m' : Mem V} {o : Op V} (hp : ¬ HasType j b!"Pipeline") :
    readOp junk (fuel + 1) j m = .ok (o, m') ↔ Loosely (junk m.next) j o ∧ m' = m := by
  constructor
  · intro h
    obtain ⟨t, ht, hs, rfl⟩ := readOp_simple h hp
    exact ⟨simpleOpOf_loosely hs ht, rfl⟩
  · rintro ⟨h, rfl⟩
    obtain ⟨t, ht, hp, hs⟩ := simpleOpOf_of_loosely h
    unfold readOp
    rw [ht.at]
    show (if t = b!"Pipeline" then _ else _) = _
    rw [if_neg hp, hs]
    rfl

/-- Concrete cases: a Variable with a negative fraction, a truth value as number of ports and a negative factor of a TimeShift. -/
example (junk : Junk ℚ) (m : Mem ℚ) :
    readOp junk 1 (.obj [(b!"id", .str b!"v"), (b!"type", .str b!"Variable"), (b!"value", .float (-5 / 2))]) m = .ok (Op.newVariable b!"v" (-2), m) ∧
    (∃ o, readOp junk 1 (.obj [(b!"id", .str b!"i"), (b!"numPorts", .bool true), (b!"type", .str b!"Input")]) m = .ok (o, m) ∧ o.core.dataIn.keys = [i1]) ∧
    readOp junk 1 (.obj [(b!"id", .str b!"t"), (b!"times", .int (-3)), (b!"type", .str b!"TimeShift")]) m = .ok (Op.newTimeShift b!"t" 1 (-3), m) := by
  have hno : ∀ {j : Json ℚ} {t : Str}, HasType j t → t ≠ b!"Pipeline" → ¬ HasType j b!"Pipeline" := by
    intro j t h hne hc
    have := h.unique hc
    cases this
    exact hne rfl
  refine ⟨?_, ⟨_, rfl, rfl⟩, ?_⟩
  · refine (C49_any (hno ⟨_, rfl, rfl⟩ (t := b!"Variable") (by decide))).2 ⟨?_, rfl⟩
    have hn : Num.toTime (-5 / 2 : ℚ) = none := by
      show truncTime (-5 / 2 : ℚ) = none
      unfold truncTime
      rw [if_neg (by norm_num)]
    have hp : Num.toTime (Num.neg (-5 / 2 : ℚ)) = some 2 := by
      rw [show Num.neg (-5 / 2 : ℚ) = (5 / 2 : ℚ) from by show -(-5 / 2 : ℚ) = _; norm_num]
      exact truncTime_eq 2 (5 / 2 : ℚ) (by rw [show (2 : UInt64).toNat = 2 from rfl]; norm_num) (by rw [show (2 : UInt64).toNat = 2 from rfl]; norm_num)
    have hi : AsInt (-(2 : UInt64).toNat : Int) (-2 : ℚ) := by
      have := AsInt.negative (V := ℚ) 2 (by decide)
      exact this
    exact .variable ⟨_, rfl, rfl⟩ ⟨_, rfl, rfl⟩ (Or.inl ⟨_, ⟨_, rfl, rfl⟩, .negative _ 2 hn hp (by decide)⟩) hi
  · refine (C49_any (hno ⟨_, rfl, rfl⟩ (t := b!"TimeShift") (by decide))).2 ⟨?_, rfl⟩
    refine .timeShift (i := 1) ⟨_, rfl, rfl⟩ ⟨_, rfl, rfl⟩ (Or.inr ⟨?_, rfl⟩) (by decide) (Or.inl ⟨_, ⟨_, rfl, rfl⟩, .signed _ _ rfl (by decide) (by decide)⟩)
    rintro x ⟨m, h, hx⟩
    cases h
    cases hx

/-- C46: "operators" or "connections" may be objects; their values count, the keys do not matter. -/
theorem C46_objects (junk : Junk V) (json : Str) (os cs : Map (Json V)) (rest : List (Str × Json V)) :
    Prog.initWith junk json (.obj ((b!"connections", .obj cs) :: (b!"operators", .obj os) :: rest)) =
      Prog.initWith junk json (.obj ((b!"connections", .arr (cs.map (·.2))) :: (b!"operators", .arr (os.map (·.2))) :: rest)) := by
  have hd : ∀ m : List (Str × Json V), Json.depthMap m = Json.depthList (m.map (·.2)) := by
    intro m
    induction m with
    | nil => rfl
    | cons e m ih => show max _ _ = max _ _; rw [ih]
  have hdepth : (Json.obj ((b!"connections", .obj cs) :: (b!"operators", .obj os) :: rest)).depth =
      (Json.obj ((b!"connections", .arr (cs.map (·.2))) :: (b!"operators", .arr (os.map (·.2))) :: rest)).depth := by
    simp only [Json.depth, Json.depthMap, hd]
  have hother : ∀ k, k ≠ b!"connections" → k ≠ b!"operators" → ∀ c c' o o' : Json V,
      Map.find? ((b!"connections", c) :: (b!"operators", o) :: rest) k = Map.find? ((b!"connections", c') :: (b!"operators", o') :: rest) k := by
    intro k h1 h2 c c' o o'
    simp [Map.find?_cons, h1.symm, h2.symm]
  have hfilter : readFilter (.obj ((b!"connections", .obj cs) :: (b!"operators", .obj os) :: rest)) =
      readFilter (.obj ((b!"connections", .arr (cs.map (·.2))) :: (b!"operators", .arr (os.map (·.2))) :: rest)) := by
    unfold readFilter Json.at'
    dsimp only
    rw [hother b!"output" (by decide) (by decide) (.obj cs) (.arr (cs.map (·.2))) (.obj os) (.arr (os.map (·.2)))]
  unfold Prog.initWith
  rw [hdepth, hfilter]
  unfold Json.value
  dsimp only
  rw [hother b!"entryOperator" (by decide) (by decide) (.obj cs) (.arr (cs.map (·.2))) (.obj os) (.arr (os.map (·.2)))]
  rfl

/-- A concrete case: a program whose operators are the values of an object. -/
example : (match Prog.initWith (fun _ => (0, 0)) [] (.obj [(b!"connections", .obj []), (b!"operators", .obj [(b!"x", .obj [(b!"id", .str b!"in"), (b!"type", .str b!"Input")])]),
      (b!"entryOperator", .str b!"in")] : Json Int64) with
    | .ok P => P.ops.keys
    | .error _ => []) = [b!"in"] := by decide +kernel

/-- C48: a Function is written with its type, its id and its points from left to right, the kind of interpolation is not written. -/
theorem C48_function {o : Op V} {ps : List (V × V)} {t : Interp} (hk : o.kind = .function ps t) : ∃ j, o.write = .ok j ∧ HasType j b!"Function" ∧ HasId j o.core.id ∧
    ∃ xs, Member j b!"points" (.arr xs) ∧ List.Forall₂ (fun (p : V × V) x => ∃ a b, x = .arr [a, b] ∧ a = Json.ofNum p.1 ∧ b = Json.ofNum p.2) ps xs := by
  unfold Op.write
  rw [hk]
  refine ⟨_, rfl, ⟨_, rfl, rfl⟩, ⟨_, rfl, rfl⟩, _, ⟨_, rfl, rfl⟩, ?_⟩
  clear hk
  induction ps with
  | nil => exact .nil
  | cons p ps ih => exact .cons ⟨_, _, rfl, rfl, rfl⟩ ih

/-- A concrete case. -/
example : ∃ o : Op ℚ, Op.newFunction b!"f" [(1, 2), (0, 5)] (some .linear) = .ok o ∧ o.kind = .function [(0, 5), (1, 2)] .linear := by
  refine ⟨_, rfl, ?_⟩
  show Kind.function _ _ = _
  congr 1

end Rtbot
