import Verif.Lemmas.RelabelExec
import Verif.Props.Units

/-! # C100: only the order of the times matters -/

namespace Rtbot
open Spec

namespace Relabel
variable {V : Type} [Num V] {R : UInt64 → UInt64 → Prop}

theorem progOk {P P' : Prog V} (h : SameProg R P P') : Mapped.ProgOk (SameOp R) P P' := ⟨h.ops, h.entry, h.filter, h.heap⟩

theorem answer_rel {α : Type} {Q : α → α → Prop} {x y : Except Err α} (h : Mapped.ExRel Q x y) : SameAnswer Q x y := by
  cases x <;> cases y <;> exact h

theorem ins_self {m : Map (Inp V)} (h : EmptyIns m) : SameMap (SameInp R) m m := by
  unfold SameMap
  induction m with
  | nil => exact .nil
  | cons e m ih =>
    refine .cons ⟨rfl, rfl, rfl, rfl, ?_⟩ (ih fun x hx => h x (List.mem_cons_of_mem _ hx))
    obtain ⟨max, hi⟩ := h e List.mem_cons_self
    rw [hi]
    exact .nil

/-- An `Input` that has not yet seen a message. -/
def NoLast : Kind V → Prop
  | .input _ last => last = []
  | _ => True

theorem made_last {o : Op V} (h : Made (bare o)) : NoLast o.kind := by
  have hk : (bare o).kind = o.kind := rfl
  rw [← hk]
  cases h with
  | built h =>
    revert h
    generalize bare o = x
    intro h
    cases h with
    | input h =>
      unfold Op.newInput at h
      obtain ⟨⟨c, pm⟩, _, h2⟩ := bind_eq_ok.1 h
      cases h2
      exact rfl
    | output h =>
      unfold Op.newOutput at h
      obtain ⟨⟨c, pm⟩, _, h2⟩ := bind_eq_ok.1 h
      cases h2
      trivial
    | join h =>
      unfold Op.newJoin at h
      split at h
      · cases h
      · obtain ⟨⟨c, pm⟩, _, h2⟩ := bind_eq_ok.1 h
        cases h2
        trivial
    | linear h =>
      unfold Op.newLinear at h
      split at h
      · cases h
      · obtain ⟨c, _, h2⟩ := bind_eq_ok.1 h
        cases h2
        trivial
    | demux h =>
      unfold Op.newDemux at h
      split at h
      · cases h
      · obtain ⟨⟨c, pm⟩, _, h2⟩ := bind_eq_ok.1 h
        obtain ⟨c2, _, h4⟩ := bind_eq_ok.1 h2
        cases h4
        trivial
    | constRes h =>
      unfold Op.newConstRes at h
      split at h
      · cases h
      · cases h
        trivial
    | function h =>
      unfold Op.newFunction at h
      split at h
      · cases h
      · split at h
        · cases h
        · cases h
          trivial
    | _ => trivial
  | pipe _ hk => rw [hk]; trivial

theorem op_self {o : Op V} (h : Made (bare o)) (hk : OrderKind R o.kind) : SameOp R o o := by
  have hb := h.begun
  have hl := made_last h
  obtain ⟨c, k⟩ := o
  refine ⟨⟨rfl, ins_self hb.dataEmpty, ins_self hb.ctrlEmpty, rfl, rfl, rfl⟩, ?_⟩
  cases k with
  | input pm last =>
    cases show last = [] from hl
    exact .input pm .nil
  | _ => exact .other hk nofun

end Relabel

section
variable {V : Type} [Num V] {R : UInt64 → UInt64 → Prop}

/-- C100: two programs in corresponding states that get the same values at times in the same order report the same values at corresponding times, and fail at the same calls with the same failure. Doubles, Composites and Pipelines are covered.

Missing: the operators that calculate with times (`TimeShift`, the resamplers), and a `Difference` that takes a value for a time. For them the statement is false. -/
theorem C100_partial (hR : Relabels R) {P P' : Prog V} (h : SameProg R P P') (fuel : Nat) {calls calls' : List (OpMsg V)} (hc : List.Forall₂ (SameOut R) calls calls') :
    SameAnswer (List.Forall₂ (SameReport R)) (answer (debugRun fuel calls P)) (answer (debugRun fuel calls' P')) ∧
      SameAnswer (List.Forall₂ (SameReport R)) (answer (receiveRun fuel calls P)) (answer (receiveRun fuel calls' P')) :=
  ⟨Relabel.answer_rel (Mapped.debugRun_rel (Relabel.law hR) fuel hc (Relabel.progOk h)), Relabel.answer_rel (Mapped.receiveRun_rel (Relabel.law hR) fuel hc (Relabel.progOk h))⟩

/-- C100 for a created program: two runs of it with the same values at times in the same order.

Missing: as in `C100_partial`. -/
theorem C100_created_partial (hR : Relabels R) {junk : Junk V} {json : Str} {j : Json V} {P : Prog V} (h : Prog.initWith junk json j = .ok P)
    (hk : ∀ a o, P.st.heap a = some o → OrderKind R o.kind) (fuel : Nat) {calls calls' : List (OpMsg V)} (hc : List.Forall₂ (SameOut R) calls calls') :
    SameAnswer (List.Forall₂ (SameReport R)) (answer (debugRun fuel calls P)) (answer (debugRun fuel calls' P)) ∧
      SameAnswer (List.Forall₂ (SameReport R)) (answer (receiveRun fuel calls P)) (answer (receiveRun fuel calls' P)) := by
  refine C100_partial hR ⟨rfl, rfl, rfl, fun a => ?_⟩ fuel hc
  cases ha : P.st.heap a with
  | none => exact .none
  | some o =>
    rcases initWith_orderly h with rfl | ⟨m, h1, h2, _⟩
    · cases ha
    · exact .some (Relabel.op_self (h1.made a o (by rw [← ha, h2]; rfl)) (hk a o ha))

end

/-- C100: times in a unit that is `k` times as fine keep their order. -/
theorem C100_unit {k : Nat} (hk : 0 < k) : Relabels fun a a' => a'.toNat = k * a.toNat where
  lt := by
    intro a a' b b' h h'
    rw [UInt64.lt_iff_toNat_lt, UInt64.lt_iff_toNat_lt, h, h']
    exact (Nat.mul_lt_mul_left hk).symm
  zero := by simp

/-- C100: times counted from an earlier origin keep their order, as long as they start above zero; zero, the time of the padding messages, stays zero. -/
theorem C100_origin (d : Nat) : Relabels fun a a' => (a = 0 ∧ a' = 0) ∨ (0 < a.toNat ∧ a'.toNat = a.toNat + d) where
  lt := by
    intro a a' b b' h h'
    rw [UInt64.lt_iff_toNat_lt, UInt64.lt_iff_toNat_lt]
    rcases h with ⟨rfl, rfl⟩ | ⟨h1, h2⟩ <;> rcases h' with ⟨rfl, rfl⟩ | ⟨h3, h4⟩ <;> (try rw [show (0 : UInt64).toNat = 0 from rfl]) <;> (try omega)
  zero := .inl ⟨rfl, rfl⟩

namespace Relabel

/-- An input that feeds both ports of a sum, one of them through an average of two messages. -/
def mixer (V : Type) [Num V] : Prog V where
  json := []
  ops := [(b!"a", 0), (b!"b", 1), (b!"c", 2)]
  entry := b!"a"
  filter := []
  st := ⟨fun a => [(⟨⟨b!"a", [(i1, Inp.new i1 1)], [], [o1], [(o1, [⟨1, i1⟩, ⟨2, i2⟩])], []⟩, .input [(i1, o1)] []⟩ : Op V),
    ⟨⟨b!"b", [(i1, Inp.new i1 2)], [], [o1], [(o1, [⟨2, i1⟩])], []⟩, .movAvg⟩,
    Op.newBinary b!"c" .plus][a]?, 0, []⟩

theorem mixer_same {V : Type} [Num V] (R : UInt64 → UInt64 → Prop) : SameProg R (mixer V) (mixer V) where
  ops := rfl
  entry := rfl
  filter := rfl
  heap := by
    intro a
    match a with
    | 0 => exact .some ⟨⟨rfl, .cons ⟨rfl, rfl, rfl, rfl, .nil⟩ .nil, .nil, rfl, rfl, rfl⟩, .input _ .nil⟩
    | 1 => exact .some ⟨⟨rfl, .cons ⟨rfl, rfl, rfl, rfl, .nil⟩ .nil, .nil, rfl, rfl, rfl⟩, .other trivial nofun⟩
    | 2 => exact .some ⟨⟨rfl, .cons ⟨rfl, rfl, rfl, rfl, .nil⟩ (.cons ⟨rfl, rfl, rfl, rfl, .nil⟩ .nil), .nil, rfl, rfl, rfl⟩, .other trivial nofun⟩
    | a + 3 => exact .none

end Relabel

/- Seconds and milliseconds: the same sums a thousand times as late. -/
open Measures Relabel in
example : told (answer (debugRun 20 [[(i1, [⟨1, 4⟩])], [(i1, [⟨3, 6⟩])]] (mixer ℚ))) b!"c" o1 = [[], [⟨3, 11⟩]] ∧
    told (answer (debugRun 20 [[(i1, [⟨1000, 4⟩])], [(i1, [⟨3000, 6⟩])]] (mixer ℚ))) b!"c" o1 = [[], [⟨3000, 11⟩]] := by
  refine ⟨?_, ?_⟩ <;> decide +kernel

/- The hypotheses of `C100_partial` for this program and these calls. -/
example : List.Forall₂ (SameOut (V := ℚ) fun a a' => a'.toNat = 1000 * a.toNat) [[(i1, [⟨1, 4⟩])], [(i1, [⟨3, 6⟩])]] [[(i1, [⟨1000, 4⟩])], [(i1, [⟨3000, 6⟩])]] ∧
    Relabels (fun a a' => a'.toNat = 1000 * a.toNat) ∧ SameProg (fun a a' => a'.toNat = 1000 * a.toNat) (Relabel.mixer ℚ) (Relabel.mixer ℚ) :=
  ⟨.cons (.cons ⟨rfl, .cons ⟨rfl, rfl⟩ .nil⟩ .nil) (.cons (.cons ⟨rfl, .cons ⟨rfl, rfl⟩ .nil⟩ .nil) .nil), C100_unit (by decide), Relabel.mixer_same _⟩

/-- C100 fails for a `TimeShift` by nothing, which reports the time zero, so that times in order come out equal, and for a `TimeShift` by one, under a change of unit. -/
theorem C100_violated : results (Op.newTimeShift b!"s" 0 1 : Op ℚ) [.recvData i1 ⟨1, 5⟩, .execData, .recvData i1 ⟨2, 6⟩, .execData] = [.ok [], .ok [(o1, [⟨0, 5⟩])], .ok [], .ok [(o1, [⟨0, 6⟩])]] ∧
    results (Op.newTimeShift b!"s" 1 1 : Op ℚ) [.recvData i1 ⟨1, 5⟩, .execData] = [.ok [], .ok [(o1, [⟨2, 5⟩])]] ∧
    results (Op.newTimeShift b!"s" 1 1 : Op ℚ) [.recvData i1 ⟨1000, 5⟩, .execData] = [.ok [], .ok [(o1, [⟨1001, 5⟩])]] := by
  refine ⟨?_, ?_, ?_⟩ <;> decide +kernel

/-- C100 fails for a `Difference` with `useOldestTime` false: it reports the value 5 as a time, whatever the unit of the times. -/
theorem C100_difference_violated : results (Op.newDifference b!"d" false : Op ℚ) [.recvData i1 ⟨1, 5⟩, .recvData i1 ⟨2, 7⟩, .execData] = [.ok [], .ok [], .ok [(o1, [⟨5, 2⟩])]] ∧
    results (Op.newDifference b!"d" false : Op ℚ) [.recvData i1 ⟨1000, 5⟩, .recvData i1 ⟨2000, 7⟩, .execData] = [.ok [], .ok [], .ok [(o1, [⟨5, 2⟩])]] := by
  refine ⟨?_, ?_⟩ <;> decide +kernel

end Rtbot
