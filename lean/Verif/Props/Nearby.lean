import Verif.Lemmas.NearbyExec
import Verif.Props.Timing

/-! # C103: programs of averages and sums are monotone; C104: programs of averages do not enlarge differences -/

set_option linter.unusedSectionVars false

namespace Rtbot
open Spec

namespace Nearby
variable {V : Type} [Num V] [Field V] [LinearOrder V] [Exact V] [IsStrictOrderedRing V] {R : UInt64 → UInt64 → Prop} {W : V → V → Prop}

theorem ins_self {m : Map (Inp V)} (h : EmptyIns m) : SameMap (ValInp R W) m m := by
  unfold SameMap
  induction m with
  | nil => exact .nil
  | cons e m ih =>
    refine .cons ⟨rfl, rfl, rfl, ?_⟩ (ih fun x hx => h x (List.mem_cons_of_mem _ hx))
    obtain ⟨max, hi⟩ := h e List.mem_cons_self
    rw [hi]
    exact .nil

theorem op_self {o : Op V} (h : Made (bare o)) (hk : FineKind R W o.kind) : NearOp R W o o := by
  have hb := h.begun
  have hl := Relabel.made_last h
  obtain ⟨c, k⟩ := o
  have ht : Tall (⟨c, k⟩ : Op V) := by
    intro _ e he
    obtain ⟨max, hi⟩ := hb.dataEmpty e he
    unfold Tallied
    rw [hi]
    show (Num.ofNat 0 : V) = _
    rw [Exact.ofNat_eq]
    simp [Inp.new]
  refine ⟨⟨⟨rfl, ins_self hb.dataEmpty, ins_self hb.ctrlEmpty, rfl, rfl, rfl⟩, ?_⟩, ht, ht⟩
  cases k with
  | input pm last =>
    cases show last = [] from hl
    exact .input pm .nil
  | _ => exact .other hk nofun

theorem created_rel (hR : Laws R W) {junk : Junk V} {json : Str} {j : Json V} {P : Prog V} (h : Prog.initWith junk json j = .ok P)
    (hk : ∀ a o, P.st.heap a = some o → FineKind R W o.kind) (fuel : Nat) {calls calls' : List (OpMsg V)} (hc : List.Forall₂ (ValOut R W) calls calls') :
    SameAnswer (List.Forall₂ (ValReport R W)) (answer (debugRun fuel calls P)) (answer (debugRun fuel calls' P)) ∧
      SameAnswer (List.Forall₂ (ValReport R W)) (answer (receiveRun fuel calls P)) (answer (receiveRun fuel calls' P)) := by
  have hp : Mapped.ProgOk (NearOp R W) P P := by
    refine ⟨rfl, rfl, rfl, fun a => ?_⟩
    cases ha : P.st.heap a with
    | none => exact .none
    | some o =>
      rcases initWith_orderly h with rfl | ⟨m, h1, h2, _⟩
      · cases ha
      · exact .some (op_self (h1.made a o (by rw [← ha, h2]; rfl)) (hk a o ha))
  exact ⟨Relabel.answer_rel (Mapped.debugRun_rel (law hR) fuel hc hp), Relabel.answer_rel (Mapped.receiveRun_rel (law hR) fuel hc hp)⟩

/-! ## At most as large -/

theorem dot_mono {xs xs' : List V} (h : List.Forall₂ (· ≤ ·) xs xs') : ∀ {as : List V}, (∀ a ∈ as, 0 ≤ a) → dot xs as ≤ dot xs' as := by
  induction h with
  | nil => intro as _; exact le_rfl
  | cons h1 _ ih =>
    intro as ha
    cases as with
    | nil => exact le_rfl
    | cons a as =>
      unfold dot
      rw [List.zipWith_cons_cons, List.zipWith_cons_cons, List.sum_cons, List.sum_cons]
      exact add_le_add (mul_le_mul_of_nonneg_right h1 (ha a List.mem_cons_self)) (ih fun b hb => ha b (List.mem_cons_of_mem _ hb))

theorem sum_mono {xs xs' : List V} (h : List.Forall₂ (· ≤ ·) xs xs') : xs.sum ≤ xs'.sum := by
  induction h with
  | nil => exact le_rfl
  | cons h1 _ ih => rw [List.sum_cons, List.sum_cons]; exact add_le_add h1 ih

theorem bool_mono {p q : Bool} (h : p = true → q = true) : (Num.ofNat (if p then 1 else 0) : V) ≤ Num.ofNat (if q then 1 else 0) := by
  rw [Exact.ofNat_eq, Exact.ofNat_eq]
  cases p <;> cases q <;> simp_all

theorem mono_fine {k : Kind V} (h : MonoKind R k) : FineKind R (· ≤ ·) k := by
  cases k with
  | add v => exact fun x x' hx => add_le_add hx le_rfl
  | scale v => exact fun x x' hx => mul_le_mul_of_nonneg_right hx h
  | cumSum a => exact fun x x' y y' hx hy => add_le_add hx hy
  | movAvg =>
    intro xs xs' hx
    rw [hx.length_eq]
    exact div_le_div_of_nonneg_right (sum_mono hx) (Nat.cast_nonneg _)
  | linear as => exact fun xs xs' hx => dot_mono hx h
  | fir as => exact fun xs xs' hx => dot_mono hx h
  | autoReg as => exact fun x x' xs xs' hx hxs => add_le_add hx (dot_mono hxs h)
  | binary op =>
    intro a a' b b' ha hb
    have h1 : (!Num.lt a Num.half) = true → (!Num.lt a' (Num.half : V)) = true := by
      rw [Bool.not_eq_true', Bool.not_eq_true', Bool.eq_false_iff, Bool.eq_false_iff, ne_eq, ne_eq, Exact.lt_iff, Exact.lt_iff, not_lt, not_lt]
      exact fun h => h.trans ha
    have h2 : Num.le Num.half b = true → Num.le (Num.half : V) b' = true := by
      rw [Exact.le_iff, Exact.le_iff]
      exact fun h => h.trans hb
    cases op with
    | plus => exact ⟨_, _, rfl, rfl, by rw [Exact.add_eq, Exact.add_eq]; exact add_le_add ha hb⟩
    | and => exact ⟨_, _, rfl, rfl, bool_mono fun h => by rw [Bool.and_eq_true] at h ⊢; exact ⟨h1 h.1, h2 h.2⟩⟩
    | or => exact ⟨_, _, rfl, rfl, bool_mono fun h => by rw [Bool.or_eq_true] at h ⊢; exact h.imp h1 h2⟩
    | _ => exact h.elim
  | timeShift | constRes => exact h
  | _ => first | trivial | exact h.elim

/-! ## Close to each other -/

theorem dot_calm {e : V} {xs xs' : List V} (h : List.Forall₂ (fun x x' => |x - x'| ≤ e) xs xs') (he : 0 ≤ e) : ∀ as : List V, |dot xs as - dot xs' as| ≤ e * (as.map fun a => |a|).sum := by
  have hs : ∀ as : List V, 0 ≤ (as.map fun a => |a|).sum := fun as => List.sum_nonneg fun x hx => by
    obtain ⟨a, _, rfl⟩ := List.mem_map.1 hx
    exact abs_nonneg a
  induction h with
  | nil => intro as; simpa [dot] using mul_nonneg he (hs as)
  | @cons x x' xs xs' h1 _ ih =>
    intro as
    cases as with
    | nil => simp [dot]
    | cons a as =>
      have h2 := ih as
      have h3 : |x * a - x' * a| ≤ e * |a| := by
        rw [← sub_mul, abs_mul]
        exact mul_le_mul_of_nonneg_right h1 (abs_nonneg a)
      have h4 : dot (x :: xs) (a :: as) - dot (x' :: xs') (a :: as) = (x * a - x' * a) + (dot xs as - dot xs' as) := by
        unfold dot
        rw [List.zipWith_cons_cons, List.zipWith_cons_cons, List.sum_cons, List.sum_cons]
        ring
      rw [h4, List.map_cons, List.sum_cons, mul_add]
      exact (abs_add_le _ _).trans (add_le_add h3 h2)

theorem sum_calm {e : V} {xs xs' : List V} (h : List.Forall₂ (fun x x' => |x - x'| ≤ e) xs xs') : |xs.sum - xs'.sum| ≤ xs.length * e := by
  induction h with
  | nil => simp
  | @cons x x' xs xs' h1 _ ih =>
    have h4 : (x :: xs).sum - (x' :: xs').sum = (x - x') + (xs.sum - xs'.sum) := by
      rw [List.sum_cons, List.sum_cons]
      ring
    rw [h4, List.length_cons, Nat.cast_succ, add_mul, one_mul, add_comm _ e]
    exact (abs_add_le _ _).trans (add_le_add h1 ih)

theorem calm_fine {e : V} (he : 0 ≤ e) {k : Kind V} (h : CalmKind R k) : FineKind R (fun x x' => |x - x'| ≤ e) k := by
  have hd : ∀ {as : List V}, (as.map fun a => |a|).sum ≤ 1 → ∀ xs xs', List.Forall₂ (fun x x' => |x - x'| ≤ e) xs xs' → |dot xs as - dot xs' as| ≤ e :=
    fun ha xs xs' hx => (dot_calm hx he _).trans (mul_le_of_le_one_right he ha)
  cases k with
  | add v => intro x x' hx; rw [add_sub_add_right_eq_sub]; exact hx
  | scale v =>
    intro x x' hx
    rw [← sub_mul, abs_mul]
    exact (mul_le_mul hx h (abs_nonneg _) he).trans (le_of_eq (mul_one e))
  | movAvg =>
    intro xs xs' hx
    rw [← hx.length_eq, ← sub_div, abs_div, Nat.abs_cast]
    rcases Nat.eq_zero_or_pos xs.length with h0 | h0
    · rw [h0, Nat.cast_zero, div_zero]
      exact he
    · rw [div_le_iff₀ (Nat.cast_pos.2 h0), mul_comm]
      exact sum_calm hx
  | linear as => exact hd h
  | fir as => exact hd h
  | timeShift | constRes => exact h
  | _ => first | trivial | exact h.elim

end Nearby

section
variable {V : Type} [Num V] [Field V] [LinearOrder V] [Exact V] [IsStrictOrderedRing V] {R : UInt64 → UInt64 → Prop}

/-- C103: of two runs of a created program of such operators, with times in the same order and values that are at most as large in the first as in the second, the first reports values at most as large as the second, on the
same ports and at corresponding times, and fails where the second fails. -/
theorem C103_created (hR : Relabels R) {junk : Junk V} {json : Str} {j : Json V} {P : Prog V} (h : Prog.initWith junk json j = .ok P)
    (hk : ∀ a o, P.st.heap a = some o → MonoKind R o.kind) (fuel : Nat) {calls calls' : List (OpMsg V)} (hc : List.Forall₂ (ValOut R (· ≤ ·)) calls calls') :
    SameAnswer (List.Forall₂ (ValReport R (· ≤ ·))) (answer (debugRun fuel calls P)) (answer (debugRun fuel calls' P)) ∧
      SameAnswer (List.Forall₂ (ValReport R (· ≤ ·))) (answer (receiveRun fuel calls P)) (answer (receiveRun fuel calls' P)) :=
  Nearby.created_rel { hR with refl := fun _ => le_rfl } h (fun a o ho => Nearby.mono_fine (hk a o ho)) fuel hc

/-- C104: of two runs of a created program of such operators, with times in the same order and values that differ by at most `e`, the reported values differ by at most `e`; ports and times correspond, and one run fails where the
other fails. -/
theorem C104_created (hR : Relabels R) {e : V} (he : 0 ≤ e) {junk : Junk V} {json : Str} {j : Json V} {P : Prog V} (h : Prog.initWith junk json j = .ok P)
    (hk : ∀ a o, P.st.heap a = some o → CalmKind R o.kind) (fuel : Nat) {calls calls' : List (OpMsg V)} (hc : List.Forall₂ (ValOut R fun x x' => |x - x'| ≤ e) calls calls') :
    SameAnswer (List.Forall₂ (ValReport R fun x x' => |x - x'| ≤ e)) (answer (debugRun fuel calls P)) (answer (debugRun fuel calls' P)) ∧
      SameAnswer (List.Forall₂ (ValReport R fun x x' => |x - x'| ≤ e)) (answer (receiveRun fuel calls P)) (answer (receiveRun fuel calls' P)) :=
  Nearby.created_rel { hR with refl := fun v => by rw [sub_self, abs_zero]; exact he } h (fun a o ho => Nearby.calm_fine he (hk a o ho)) fuel hc

end

namespace Nearby

/-- The average of two messages, and half of it. -/
def smoothDescription : Json ℚ :=
  .obj [(b!"connections", .arr [.obj [(b!"from", .str b!"in"), (b!"to", .str b!"ma")], .obj [(b!"from", .str b!"ma"), (b!"to", .str b!"s")]]),
    (b!"entryOperator", .str b!"in"),
    (b!"operators", .arr [.obj [(b!"id", .str b!"in"), (b!"type", .str b!"Input")], .obj [(b!"id", .str b!"ma"), (b!"n", .uint 2), (b!"type", .str b!"MovingAverage")],
      .obj [(b!"id", .str b!"s"), (b!"type", .str b!"Scale"), (b!"value", .float (1 / 2))]]),
    (b!"output", .obj [(b!"s", .arr [.str b!"o1"])])]

/-- The created program. -/
def smooth : Except Err (Prog ℚ) := Prog.initWith (fun _ => (0, 0)) b!"{}" smoothDescription

/-- What is reported in each call by an operator on a port. -/
def shown (x : Except Err (Prog ℚ)) (calls : List (OpMsg ℚ)) : List (List (Msg ℚ)) :=
  match x with
  | .ok P => Measures.told (answer (debugRun 20 calls P)) b!"s" o1
  | .error _ => []

/-- The program meets the hypotheses of `C103_created` and of `C104_created`. -/
theorem smooth_kinds : ∃ P, smooth = .ok P ∧ ∀ a o, P.st.heap a = some o → MonoKind Eq o.kind ∧ CalmKind Eq o.kind := by
  refine ⟨_, rfl, fun a o ho => ?_⟩
  match a with
  | 0 => cases ho; exact ⟨trivial, trivial⟩
  | 1 => cases ho; exact ⟨trivial, trivial⟩
  | 2 =>
    cases ho
    refine ⟨?_, ?_⟩
    · show (0 : ℚ) ≤ 1 / 2
      norm_num
    · show |(1 / 2 : ℚ)| ≤ 1
      rw [abs_of_pos] <;> norm_num
  | n + 3 => cases ho

end Nearby

/- Larger values, and values that differ by at most 2: the reports are larger, and differ by at most 2. -/
open Nearby in
example : shown smooth [[(i1, [⟨1, 4⟩])], [(i1, [⟨2, 6⟩])]] = [[], [⟨2, 5 / 2⟩]] ∧ shown smooth [[(i1, [⟨1, 6⟩])], [(i1, [⟨2, 7⟩])]] = [[], [⟨2, 13 / 4⟩]] := by
  refine ⟨?_, ?_⟩ <;> decide +kernel

/- The hypotheses of both theorems for these calls. -/
example : List.Forall₂ (ValOut (V := ℚ) Eq (· ≤ ·)) [[(i1, [⟨1, 4⟩])], [(i1, [⟨2, 6⟩])]] [[(i1, [⟨1, 6⟩])], [(i1, [⟨2, 7⟩])]] ∧
    List.Forall₂ (ValOut (V := ℚ) Eq fun x x' => |x - x'| ≤ 2) [[(i1, [⟨1, 4⟩])], [(i1, [⟨2, 6⟩])]] [[(i1, [⟨1, 6⟩])], [(i1, [⟨2, 7⟩])]] :=
  ⟨.cons (.cons ⟨rfl, .cons ⟨rfl, by decide +kernel⟩ .nil⟩ .nil) (.cons (.cons ⟨rfl, .cons ⟨rfl, by decide +kernel⟩ .nil⟩ .nil) .nil),
    .cons (.cons ⟨rfl, .cons ⟨rfl, by decide +kernel⟩ .nil⟩ .nil) (.cons (.cons ⟨rfl, .cons ⟨rfl, by decide +kernel⟩ .nil⟩ .nil) .nil)⟩

/- A running sum is monotone, but it enlarges differences: it is among the operators of C103 and not among those of C104. -/
example : results (Op.newCumSum b!"c" : Op ℚ) [.recvData i1 ⟨1, 1⟩, .execData, .recvData i1 ⟨2, 1⟩, .execData] = [.ok [], .ok [(o1, [⟨1, 1⟩])], .ok [], .ok [(o1, [⟨2, 2⟩])]] ∧
    results (Op.newCumSum b!"c" : Op ℚ) [.recvData i1 ⟨1, 0⟩, .execData, .recvData i1 ⟨2, 0⟩, .execData] = [.ok [], .ok [(o1, [⟨1, 0⟩])], .ok [], .ok [(o1, [⟨2, 0⟩])]] := by
  refine ⟨?_, ?_⟩ <;> decide +kernel

/- Operators that C103 leaves out: a larger second value makes the result of Minus, Multiplication and Division smaller, and a negative factor turns the order around. -/
example : BinOp.minus.eval (1 : ℚ) 1 = some 0 ∧ BinOp.minus.eval (1 : ℚ) 2 = some (-1) ∧ BinOp.mul.eval (-1 : ℚ) 1 = some (-1) ∧ BinOp.mul.eval (-1 : ℚ) 2 = some (-2) ∧
    BinOp.div.eval (1 : ℚ) 1 = some 1 ∧ BinOp.div.eval (1 : ℚ) 2 = some (1 / 2) := by
  refine ⟨?_, ?_, ?_, ?_, ?_, ?_⟩ <;> decide +kernel

example : results (Op.newScale b!"s" (-1) : Op ℚ) [.recvData i1 ⟨1, 1⟩, .execData] = [.ok [], .ok [(o1, [⟨1, -1⟩])]] ∧
    results (Op.newScale b!"s" (-1) : Op ℚ) [.recvData i1 ⟨1, 2⟩, .execData] = [.ok [], .ok [(o1, [⟨1, -2⟩])]] := by
  refine ⟨?_, ?_⟩ <;> decide +kernel

/- Operators that C104 leaves out: values that differ by 1 are 3/2 apart behind an AutoRegressive, 2 apart behind Plus, and values that differ by 1/5 are 1 apart behind And. -/
example : results (Op.newAutoReg b!"a" [1 / 2] : Op ℚ) [.recvData i1 ⟨1, 1⟩, .execData, .recvData i1 ⟨2, 1⟩, .execData] = [.ok [], .ok [(o1, [⟨1, 1⟩])], .ok [], .ok [(o1, [⟨2, 3 / 2⟩])]] ∧
    results (Op.newAutoReg b!"a" [1 / 2] : Op ℚ) [.recvData i1 ⟨1, 0⟩, .execData, .recvData i1 ⟨2, 0⟩, .execData] = [.ok [], .ok [(o1, [⟨1, 0⟩])], .ok [], .ok [(o1, [⟨2, 0⟩])]] := by
  refine ⟨?_, ?_⟩ <;> decide +kernel

example : BinOp.plus.eval (1 : ℚ) 1 = some 2 ∧ BinOp.plus.eval (0 : ℚ) 0 = some 0 ∧ BinOp.and.eval (3 / 5 : ℚ) 1 = some 1 ∧ BinOp.and.eval (2 / 5 : ℚ) 1 = some 0 := by
  refine ⟨?_, ?_, ?_, ?_⟩ <;> decide +kernel

end Rtbot
