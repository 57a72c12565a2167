import Verif.Lemmas.UnitsExec
import Verif.Props.Bands
import Verif.Props.Getters

/-! # C99: the unit in which values are measured does not matter -/

namespace Rtbot
open Spec

namespace Measures
variable {V : Type} [Num V] [Field V] [LinearOrder V] [IsStrictOrderedRing V] [Exact V] {c : V}

theorem progOk {P P' : Prog V} (h : InUnit c P P') : Mapped.ProgOk (T c) P P' where
  ops := h.ops.symm
  entry := h.entry.symm
  filter := h.filter.symm
  st := by
    intro a
    rw [h.heap]
    dsimp only
    cases ha : P.st.heap a with
    | none => exact .none
    | some o => exact .some ⟨h.units a o ha, rfl⟩

theorem calls_rel (calls : List (OpMsg V)) : List.Forall₂ (Mapped.OpRel (Q c)) calls (calls.map (convOut c)) := by
  induction calls with
  | nil => exact .nil
  | cons m l ih => exact .cons (out_rel.2 rfl) ih

theorem reports_eq {rs rs' : List (ProgMsg V)} (h : List.Forall₂ (Mapped.ProgRel (Q c)) rs rs') : rs' = rs.map (convReport c) := by
  induction h with
  | nil => rfl
  | cons h1 _ ih => rw [ih, report_rel.1 h1]; rfl

theorem answer_eq {x y : Except Err (List (ProgMsg V))} (h : Mapped.ExRel (List.Forall₂ (Mapped.ProgRel (Q c))) x y) : y = x.map (List.map (convReport c)) := by
  cases x <;> cases y <;> first | exact h.elim | skip
  · exact congrArg Except.error (show _ = _ from h).symm
  · exact congrArg Except.ok (reports_eq h)

end Measures

section
variable {V : Type} [Num V] [Field V] [LinearOrder V] [IsStrictOrderedRing V] [Exact V] {c : V}

/-- C99: a program and its inputs written in another unit: every report is the earlier report in the new unit, with the same times, and the failures are the same. Composites and Pipelines are covered.

Missing: a `Difference` that takes a value for a time. For it the statement is false. -/
theorem C99_partial (hc : 0 < c) {P P' : Prog V} (h : InUnit c P P') (fuel : Nat) (calls : List (OpMsg V)) :
    answer (debugRun fuel (calls.map (convOut c)) P') = (answer (debugRun fuel calls P)).map (List.map (convReport c)) ∧
      answer (receiveRun fuel (calls.map (convOut c)) P') = (answer (receiveRun fuel calls P)).map (List.map (convReport c)) :=
  ⟨Measures.answer_eq (Mapped.debugRun_rel (Measures.law hc) fuel (Measures.calls_rel calls) (Measures.progOk h)),
    Measures.answer_eq (Mapped.receiveRun_rel (Measures.law hc) fuel (Measures.calls_rel calls) (Measures.progOk h))⟩

namespace Measures

theorem ins_same {m : Map (Inp V)} (h : EmptyIns m) : m.map (fun e => (e.1, convInp c e.2)) = m := by
  have : m.map (fun e => (e.1, convInp c e.2)) = m.map id := by
    refine List.map_congr_left fun e he => ?_
    obtain ⟨p, i⟩ := e
    obtain ⟨max, hi⟩ := h _ he
    dsimp only at hi
    subst hi
    unfold convInp Inp.new
    dsimp only [id]
    rw [Exact.ofNat_eq, Nat.cast_zero, mul_zero]
    rfl
  rw [this, List.map_id]

theorem op_same {o : Op V} (h : Made (bare o)) (hk : convKind c o.kind = o.kind) : convOp c o = o := by
  have hb := h.begun
  have h1 := ins_same (c := c) hb.dataEmpty
  have h2 := ins_same (c := c) hb.ctrlEmpty
  obtain ⟨⟨id, d, cs, outs, conns, tp⟩, k⟩ := o
  unfold convOp convCore
  dsimp only at hk ⊢
  rw [hk]
  congr 2

end Measures

/-- C99 for a created program none of whose parameters is a value of the stream: scaling the input scales the reports.

Missing: a `Difference` that takes a value for a time. For it the statement is false. -/
theorem C99_created_partial (hc : 0 < c) {junk : Junk V} {json : Str} {j : Json V} {P : Prog V} (h : Prog.initWith junk json j = .ok P)
    (hu : ∀ a o, P.st.heap a = some o → HasUnit c o.kind ∧ convKind c o.kind = o.kind) (fuel : Nat) (calls : List (OpMsg V)) :
    answer (debugRun fuel (calls.map (convOut c)) P) = (answer (debugRun fuel calls P)).map (List.map (convReport c)) ∧
      answer (receiveRun fuel (calls.map (convOut c)) P) = (answer (receiveRun fuel calls P)).map (List.map (convReport c)) := by
  refine C99_partial hc ⟨rfl, rfl, rfl, ?_, fun a o ho => (hu a o ho).1⟩ fuel calls
  funext a
  cases ha : P.st.heap a with
  | none => rfl
  | some o =>
    rcases initWith_orderly h with rfl | ⟨m, h1, h2, _⟩
    · cases ha
    · have := h1.made a o (by rw [← ha, h2]; rfl)
      exact congrArg some (Measures.op_same this (hu a o ha).2).symm

/-- C99: what the constructors make in the new unit is what they make from the converted parameters. -/
theorem C99_made (c : V) (id : Str) (v : V) (n : Nat) (f : FilterOp) (op : BinOp) (as : List V) (dt : UInt64) (k : Int) (b : Bool) :
    convOp c (Op.newFilter id f v) = Op.newFilter id f (c * v) ∧ convOp c (Op.newAdd id v) = Op.newAdd id (c * v) ∧ convOp c (Op.newConstant id v) = Op.newConstant id (c * v) ∧
    convOp c (Op.newVariable id v) = Op.newVariable id (c * v) ∧ convOp c (Op.newScale id v) = Op.newScale id v ∧ convOp c (Op.newBinary id op : Op V) = Op.newBinary id op ∧
    convOp c (Op.newIdentity id : Op V) = Op.newIdentity id ∧ convOp c (Op.newCumSum id : Op V) = Op.newCumSum id ∧ convOp c (Op.newDifference id b : Op V) = Op.newDifference id b ∧
    convOp c (Op.newMovAvg id n : Op V) = Op.newMovAvg id n ∧ convOp c (Op.newStdDev id n : Op V) = Op.newStdDev id n ∧ convOp c (Op.newPeak id n : Op V) = Op.newPeak id n ∧
    convOp c (Op.newFir id as) = Op.newFir id as ∧ convOp c (Op.newAutoReg id as) = Op.newAutoReg id as ∧ convOp c (Op.newTimeShift id dt k : Op V) = Op.newTimeShift id dt k ∧
    convOp c (Op.newCosRes id dt : Op V) = Op.newCosRes id dt ∧ convOp c (Op.newHermRes id dt : Op V) = Op.newHermRes id dt ∧ convOp c (Op.newCollector id n : Op V) = Op.newCollector id n := by
  have h1 : ∀ (p : Str) (n : Nat), convInp c (Inp.new p n : Inp V) = Inp.new p n := by
    intro p n
    unfold convInp Inp.new
    dsimp only
    rw [Exact.ofNat_eq, Nat.cast_zero, mul_zero]
    rfl
  have h0 : c * (Num.ofNat 0 : V) = Num.ofNat 0 := by rw [Exact.ofNat_eq, Nat.cast_zero, mul_zero]
  simp [Op.newFilter, Op.newAdd, Op.newConstant, Op.newVariable, Op.newScale, Op.newBinary, Op.newIdentity, Op.newCumSum, Op.newDifference, Op.newMovAvg, Op.newStdDev, Op.newPeak,
    Op.newFir, Op.newAutoReg, Op.newTimeShift, Op.newCosRes, Op.newHermRes, Op.newCollector, convOp, convCore, convKind, Core.simple, h1, h0]

end

/-- C99 for the Bollinger bands over the real numbers: prices in cents give the bands in cents. -/
theorem C99_bands {c : ℝ} (hc : 0 < c) {junk : Junk ℝ} {json : Str} {P : Prog ℝ} (hP : Prog.initWith junk json (bandsJson ℝ) = .ok P) (fuel : Nat) (calls : List (OpMsg ℝ)) :
    answer (receiveRun fuel (calls.map (convOut c)) P) = (answer (receiveRun fuel calls P)).map (List.map (convReport c)) := by
  refine (C99_created_partial hc hP ?_ fuel calls).2
  obtain ⟨P0, e0, hh, _⟩ := Bands.made junk json
  rw [hP] at e0
  cases e0
  rw [hh]
  refine Finite.all_of_mem ?_
  intro o ho
  simp only [Bands.ops, List.mem_cons, List.not_mem_nil, or_false] at ho
  rcases ho with rfl | rfl | rfl | rfl | rfl | rfl | rfl | rfl
  · exact ⟨trivial, rfl⟩
  · exact ⟨trivial, rfl⟩
  · exact ⟨trivial, rfl⟩
  · exact ⟨trivial, rfl⟩
  · refine ⟨fun x => ?_, rfl⟩
    change Real.sqrt (c * c * x) = c * Real.sqrt x
    rw [Real.sqrt_mul (by positivity), Real.sqrt_mul_self hc.le]
  · exact ⟨trivial, rfl⟩
  · exact ⟨trivial, rfl⟩
  · exact ⟨trivial, rfl⟩

namespace Measures

/-- An input followed by an `Add` and a filter, with the given numbers. -/
def shop (x y : ℚ) : Prog ℚ where
  json := []
  ops := [(b!"a", 0), (b!"b", 1), (b!"c", 2)]
  entry := b!"a"
  filter := []
  st := ⟨fun a => [⟨⟨b!"a", [(i1, Inp.new i1 1)], [], [o1], [(o1, [⟨1, i1⟩])], []⟩, .input [(i1, o1)] []⟩,
    (⟨⟨b!"b", [(i1, Inp.new i1 1)], [], [o1], [(o1, [⟨2, i1⟩])], []⟩, .add x⟩ : Op ℚ),
    Op.newFilter b!"c" .greaterThan y][a]?, 0, []⟩

theorem shop_unit : InUnit (100 : ℚ) (shop 3 5) (shop 300 500) where
  ops := rfl
  entry := rfl
  filter := rfl
  heap := by
    have h0 : (100 : ℚ) * Num.ofNat 0 = Num.ofNat 0 := by decide +kernel
    have h1 : convInp (100 : ℚ) (Inp.new i1 1) = Inp.new i1 1 := by
      unfold convInp Inp.new
      dsimp only
      rw [h0]
      rfl
    funext a
    match a with
    | 0 => simp [shop, convOp, convCore, convKind, h1]
    | 1 => simp [shop, convOp, convCore, convKind, h1]; norm_num
    | 2 => simp [shop, convOp, convCore, convKind, h1, Op.newFilter, Core.simple]; norm_num
    | a + 3 => rfl
  units := by
    intro a o h
    match a with
    | 0 => cases h; trivial
    | 1 => cases h; trivial
    | 2 => cases h; trivial
    | a + 3 => cases h

/-- The times and values that a run reports on a port. -/
def told (x : Except Err (List (ProgMsg ℚ))) (id p : Str) : List (List (Msg ℚ)) := match x with
  | .ok rs => rs.map fun r => listed r id p
  | .error _ => []

end Measures

/- Prices in the hundredth part: the reports are the same prices in the hundredth part. -/
open Measures in
example : told (answer (debugRun 20 [[(i1, [⟨1, 1⟩])], [(i1, [⟨2, 4⟩])]] (shop 3 5))) b!"b" o1 = [[⟨1, 4⟩], [⟨2, 7⟩]] ∧
    told (answer (debugRun 20 [[(i1, [⟨1, 1⟩])], [(i1, [⟨2, 4⟩])]] (shop 3 5))) b!"c" o1 = [[], [⟨2, 7⟩]] ∧
    told (answer (debugRun 20 [[(i1, [⟨1, 100⟩])], [(i1, [⟨2, 400⟩])]] (shop 300 500))) b!"c" o1 = [[], [⟨2, 700⟩]] := by
  refine ⟨?_, ?_, ?_⟩ <;> decide +kernel

/-- C99 fails for a `Difference` with `useOldestTime` false: the time it reports is a value, so that a change of the unit changes the times. -/
theorem C99_violated : results (Op.newDifference b!"d" false : Op ℚ) [.recvData i1 ⟨1, 5⟩, .recvData i1 ⟨2, 7⟩, .execData] = [.ok [], .ok [], .ok [(o1, [⟨5, 2⟩])]] ∧
    results (Op.newDifference b!"d" false : Op ℚ) [.recvData i1 (convMsg 10 ⟨1, 5⟩), .recvData i1 (convMsg 10 ⟨2, 7⟩), .execData] = [.ok [], .ok [], .ok [(o1, [⟨50, 20⟩])]] := by
  refine ⟨?_, ?_⟩ <;> decide +kernel

end Rtbot
