import Verif.Lemmas.TimingExec
import Verif.Props.Relabel

/-! # C102: when a program reports does not depend on the values -/

namespace Rtbot
open Spec

namespace Timing
variable {V : Type} [Num V] {R : UInt64 → UInt64 → Prop}

theorem progOk {P P' : Prog V} (h : TimedProg R P P') : Mapped.ProgOk (TimedOp R) P P' := ⟨h.ops, h.entry, h.filter, h.heap⟩

theorem ins_self {m : Map (Inp V)} (h : EmptyIns m) : SameMap (TimedInp R) m m := by
  unfold SameMap
  induction m with
  | nil => exact .nil
  | cons e m ih =>
    refine .cons ⟨rfl, rfl, rfl, ?_⟩ (ih fun x hx => h x (List.mem_cons_of_mem _ hx))
    obtain ⟨max, hi⟩ := h e List.mem_cons_self
    rw [hi]
    exact .nil

theorem op_self {o : Op V} (h : Made (bare o)) (hk : BlindKind R o.kind) : TimedOp R o o := by
  have hb := h.begun
  have hl := Relabel.made_last h
  obtain ⟨c, k⟩ := o
  refine ⟨⟨rfl, ins_self hb.dataEmpty, ins_self hb.ctrlEmpty, rfl, rfl, rfl⟩, ?_⟩
  cases k with
  | input pm last =>
    cases show last = [] from hl
    exact .input pm .nil
  | _ => exact .other hk nofun

end Timing

section
variable {V : Type} [Num V] {R : UInt64 → UInt64 → Prop}

/-- C102: two programs that differ in values only, and get any values at times in the same order, report equally many messages on the same ports of the same operators at corresponding times, and fail
at the same calls with the same failure. Doubles, Composites and Pipelines are covered.

Missing: the operators that look at values to decide whether to report (`LessThan`, `GreaterThan`, `EqualTo`, `PeakDetector`, `Demultiplexer`, `Division`, the comparisons of streams, a `Difference` that
takes a value for a time). For them the statement is false. -/
theorem C102_partial (hR : Relabels R) {P P' : Prog V} (h : TimedProg R P P') (fuel : Nat) {calls calls' : List (OpMsg V)} (hc : List.Forall₂ (TimedOut R) calls calls') :
    SameAnswer (List.Forall₂ (TimedReport R)) (answer (debugRun fuel calls P)) (answer (debugRun fuel calls' P')) ∧
      SameAnswer (List.Forall₂ (TimedReport R)) (answer (receiveRun fuel calls P)) (answer (receiveRun fuel calls' P')) :=
  ⟨Relabel.answer_rel (Mapped.debugRun_rel (Timing.law hR) fuel hc (Timing.progOk h)), Relabel.answer_rel (Mapped.receiveRun_rel (Timing.law hR) fuel hc (Timing.progOk h))⟩

/-- C102 for a created program: two runs of it with any values at times in the same order.

Missing: as in `C102_partial`. -/
theorem C102_created_partial (hR : Relabels R) {junk : Junk V} {json : Str} {j : Json V} {P : Prog V} (h : Prog.initWith junk json j = .ok P)
    (hk : ∀ a o, P.st.heap a = some o → BlindKind R o.kind) (fuel : Nat) {calls calls' : List (OpMsg V)} (hc : List.Forall₂ (TimedOut R) calls calls') :
    SameAnswer (List.Forall₂ (TimedReport R)) (answer (debugRun fuel calls P)) (answer (debugRun fuel calls' P)) ∧
      SameAnswer (List.Forall₂ (TimedReport R)) (answer (receiveRun fuel calls P)) (answer (receiveRun fuel calls' P)) := by
  refine C102_partial hR ⟨rfl, rfl, rfl, fun a => ?_⟩ fuel hc
  cases ha : P.st.heap a with
  | none => exact .none
  | some o =>
    rcases initWith_orderly h with rfl | ⟨m, h1, h2, _⟩
    · cases ha
    · exact .some (Timing.op_self (h1.made a o (by rw [← ha, h2]; rfl)) (hk a o ha))

end

/-- C102: the same times are times in the same order, and the operators that calculate with times admit them. -/
theorem C102_equal : Relabels (Eq : UInt64 → UInt64 → Prop) ∧ ∀ t t' : UInt64, (Eq t t' ↔ t = t') :=
  ⟨⟨fun h h' => by rw [h, h'], rfl⟩, fun _ _ => .rfl⟩

namespace Timing

/-- An input that feeds both ports of a sum, one of them through a shift of one unit of time, and a resampler. -/
def shifter (V : Type) [Num V] : Prog V where
  json := []
  ops := [(b!"a", 0), (b!"b", 1), (b!"c", 2), (b!"d", 3)]
  entry := b!"a"
  filter := []
  st := ⟨fun a => [(⟨⟨b!"a", [(i1, Inp.new i1 1)], [], [o1], [(o1, [⟨1, i1⟩, ⟨2, i2⟩, ⟨3, i1⟩])], []⟩, .input [(i1, o1)] []⟩ : Op V),
    ⟨⟨b!"b", [(i1, Inp.new i1 1)], [], [o1], [(o1, [⟨2, i1⟩])], []⟩, .timeShift 1 1⟩,
    Op.newBinary b!"c" .plus, Op.newCosRes b!"d" 2][a]?, 0, []⟩

theorem shifter_same {V : Type} [Num V] : TimedProg Eq (shifter V) (shifter V) where
  ops := rfl
  entry := rfl
  filter := rfl
  heap := by
    intro a
    match a with
    | 0 => exact .some ⟨⟨rfl, .cons ⟨rfl, rfl, rfl, .nil⟩ .nil, .nil, rfl, rfl, rfl⟩, .input _ .nil⟩
    | 1 => exact .some ⟨⟨rfl, .cons ⟨rfl, rfl, rfl, .nil⟩ .nil, .nil, rfl, rfl, rfl⟩, .other (fun _ _ => .rfl) nofun⟩
    | 2 => exact .some ⟨⟨rfl, .cons ⟨rfl, rfl, rfl, .nil⟩ (.cons ⟨rfl, rfl, rfl, .nil⟩ .nil), .nil, rfl, rfl, rfl⟩, .other trivial nofun⟩
    | 3 => exact .some ⟨⟨rfl, .cons ⟨rfl, rfl, rfl, .nil⟩ .nil, .nil, rfl, rfl, rfl⟩, .other (fun _ _ => .rfl) nofun⟩
    | a + 4 => exact .none

end Timing

/- The sum has a match at time 2 whatever the values are. -/
open Measures Timing in
example : told (answer (debugRun 20 [[(i1, [⟨1, 4⟩])], [(i1, [⟨2, 6⟩])]] (shifter ℚ))) b!"c" o1 = [[], [⟨2, 10⟩]] ∧
    told (answer (debugRun 20 [[(i1, [⟨1, -1⟩])], [(i1, [⟨2, 1⟩])]] (shifter ℚ))) b!"c" o1 = [[], [⟨2, 0⟩]] := by
  refine ⟨?_, ?_⟩ <;> decide +kernel

/- The hypotheses of `C102_partial` for this program and these calls. -/
example : List.Forall₂ (TimedOut (V := ℚ) Eq) [[(i1, [⟨1, 4⟩])], [(i1, [⟨2, 6⟩])]] [[(i1, [⟨1, -1⟩])], [(i1, [⟨2, 1⟩])]] ∧ Relabels Eq ∧ TimedProg Eq (Timing.shifter ℚ) (Timing.shifter ℚ) :=
  ⟨.cons (.cons ⟨rfl, .cons rfl .nil⟩ .nil) (.cons (.cons ⟨rfl, .cons rfl .nil⟩ .nil) .nil), C102_equal.1, Timing.shifter_same⟩

/-- C102 fails for the operators that report some values only: a comparison, a division by zero, a peak. -/
theorem C102_violated :
    results (Op.newFilter b!"f" .lessThan 2 : Op ℚ) [.recvData i1 ⟨1, 1⟩, .execData] = [.ok [], .ok [(o1, [⟨1, 1⟩])]] ∧
    results (Op.newFilter b!"f" .lessThan 2 : Op ℚ) [.recvData i1 ⟨1, 3⟩, .execData] = [.ok [], .ok []] ∧
    results (Op.newBinary b!"q" .div : Op ℚ) [.recvData i1 ⟨1, 1⟩, .recvData i2 ⟨1, 2⟩, .execData] = [.ok [], .ok [], .ok [(o1, [⟨1, 1 / 2⟩])]] ∧
    results (Op.newBinary b!"q" .div : Op ℚ) [.recvData i1 ⟨1, 1⟩, .recvData i2 ⟨1, 0⟩, .execData] = [.ok [], .ok [], .ok []] ∧
    results (Op.newPeak b!"p" 3 : Op ℚ) [.recvData i1 ⟨1, 1⟩, .recvData i1 ⟨2, 2⟩, .recvData i1 ⟨3, 1⟩, .execData] = [.ok [], .ok [], .ok [], .ok [(o1, [⟨2, 2⟩])]] ∧
    results (Op.newPeak b!"p" 3 : Op ℚ) [.recvData i1 ⟨1, 1⟩, .recvData i1 ⟨2, 0⟩, .recvData i1 ⟨3, 1⟩, .execData] = [.ok [], .ok [], .ok [], .ok []] := by
  refine ⟨?_, ?_, ?_, ?_, ?_, ?_⟩ <;> decide +kernel

end Rtbot
