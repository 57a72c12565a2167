import Verif.Lemmas.Simple
import Verif.Spec.Exact

/-! # Properties of the operators with a one message buffer: C08, C09, C10, C11 -/

namespace Rtbot
open Spec
variable {V : Type} [Num V]

/-- C09 Add: one message out per message in, same time, value `x + c`. -/
theorem C09_add (id : Str) (c : V) : Computes (Op.newAdd id c) i1 fun _ m => [(o1, [⟨m.time, m.value +. c⟩])] := by
  unfold Op.newAdd
  rw [simple1_eq]
  exact computes_one _ (fun _ => .add c) _ (fun _ => rfl) (by intro h m s; simp [Op.process, single])

/-- C09 Scale: value `x * c`. -/
theorem C09_scale (id : Str) (c : V) : Computes (Op.newScale id c) i1 fun _ m => [(o1, [⟨m.time, m.value *. c⟩])] := by
  unfold Op.newScale
  rw [simple1_eq]
  exact computes_one _ (fun _ => .scale c) _ (fun _ => rfl) (by intro h m s; simp [Op.process, single])

/-- C09 Power: value `pow(x, c)`. -/
theorem C09_power (id : Str) (c : V) : Computes (Op.newPower id c) i1 fun _ m => [(o1, [⟨m.time, Num.pow m.value c⟩])] := by
  unfold Op.newPower
  rw [simple1_eq]
  exact computes_one _ (fun _ => .power c) _ (fun _ => rfl) (by intro h m s; simp [Op.process, single])

/-- C09 Constant: value `c`. -/
theorem C09_constant (id : Str) (c : V) : Computes (Op.newConstant id c) i1 fun _ m => [(o1, [⟨m.time, c⟩])] := by
  unfold Op.newConstant
  rw [simple1_eq]
  exact computes_one _ (fun _ => .constant c) _ (fun _ => rfl) (by intro h m s; simp [Op.process, single])

/-- C09 Identity: the message itself. -/
theorem C09_identity (id : Str) : Computes (Op.newIdentity id : Op V) i1 fun _ m => [(o1, [m])] := by
  unfold Op.newIdentity
  rw [simple1_eq]
  exact computes_one _ (fun _ => .identity) _ (fun _ => rfl) (by intro h m s; simp [Op.process, procIdentity, single])


/-! ## C10 -/

/-- What a filter with predicate `b` does: it answers every message sequence without error, each matching message is forwarded
unmodified at the moment it arrives and the others are dropped; so the stream on "o1" is the matching subsequence. -/
def Forwards (o : Op V) (b : V → Bool) : Prop :=
  Computes o i1 (fun _ m => if b m.value then [(o1, [m])] else []) ∧
  ∀ ms, ∃ outs o', feedOp o i1 ms = .ok outs o' ∧ emittedOn o1 outs = ms.filter fun m => b m.value

/-- C10: LessThan(c), GreaterThan(c), EqualTo(c) forward exactly the messages with value `< c`, `> c`, `== c`. -/
theorem C10_filters (id : Str) (c : V) :
    Forwards (Op.newFilter id .lessThan c) (fun x => Num.lt x c) ∧
    Forwards (Op.newFilter id .greaterThan c) (fun x => Num.lt c x) ∧
    Forwards (Op.newFilter id .equalTo c) (fun x => Num.eq x c) := by
  have key : ∀ f : FilterOp, Computes (Op.newFilter id f c) i1 (fun _ m => if f.eval m.value c then [(o1, [m])] else []) := by
    intro f
    unfold Op.newFilter
    rw [simple1_eq]
    exact computes_one _ (fun _ => .filter f c) _ (fun _ => rfl) (by intro h m s; simp [Op.process, procFilter, single])
  have key2 : ∀ f : FilterOp, Forwards (Op.newFilter id f c) (fun x => f.eval x c) := by
    intro f
    refine ⟨key f, fun ms => ?_⟩
    obtain ⟨o', ho⟩ := key f ms
    exact ⟨_, o', ho, emittedOn_answers_filter (fun m => f.eval m.value c) [] ms⟩
  exact ⟨key2 .lessThan, key2 .greaterThan, key2 .equalTo⟩

/-- C10, second part: for exact (totally ordered) values every message is forwarded by exactly one of the three filters. -/
theorem C10_trichotomy [Field V] [LinearOrder V] [Exact V] (id : Str) (c : V) (ms : List (Msg V)) :
    ∃ l g e o1' o2' o3', feedOp (Op.newFilter id .lessThan c) i1 ms = .ok l o1' ∧
      feedOp (Op.newFilter id .greaterThan c) i1 ms = .ok g o2' ∧
      feedOp (Op.newFilter id .equalTo c) i1 ms = .ok e o3' ∧
      (emittedOn o1 l ++ emittedOn o1 g ++ emittedOn o1 e).Perm ms := by
  obtain ⟨⟨_, h1⟩, ⟨_, h2⟩, ⟨_, h3⟩⟩ := C10_filters id c
  obtain ⟨l, o1', hl, el⟩ := h1 ms
  obtain ⟨g, o2', hg, eg⟩ := h2 ms
  obtain ⟨e, o3', he, ee⟩ := h3 ms
  refine ⟨l, g, e, o1', o2', o3', hl, hg, he, ?_⟩
  rw [el, eg, ee]
  apply filter_three
  intro m
  have a1 := Exact.lt_iff m.value c
  have a2 := Exact.lt_iff c m.value
  have a3 := Exact.eq_iff m.value c
  rcases lt_trichotomy m.value c with h | h | h
  · left; refine ⟨a1.2 h, ?_, ?_⟩
    · rw [← Bool.not_eq_true, a2]; exact not_lt_of_gt h
    · rw [← Bool.not_eq_true, a3]; exact ne_of_lt h
  · right; right; refine ⟨?_, ?_, a3.2 h⟩
    · rw [← Bool.not_eq_true, a1, h]; exact lt_irrefl c
    · rw [← Bool.not_eq_true, a2, h]; exact lt_irrefl c
  · right; left; refine ⟨?_, a2.2 h, ?_⟩
    · rw [← Bool.not_eq_true, a1]; exact not_lt_of_gt h
    · rw [← Bool.not_eq_true, a3]; exact ne_of_gt h

example : (emittedOn o1 (match feedOp (Op.newFilter [] .lessThan (2 : ℚ)) i1 [⟨1, 1⟩, ⟨2, 5⟩, ⟨3, 0⟩] with
    | .ok outs _ => outs
    | .err _ _ => [])) = [⟨1, 1⟩, ⟨3, 0⟩] := by decide

/-! ## C08 -/

/-- C08 CumulativeSum: the k-th answer carries the k-th time and the sum of the first k values, added from left to right as
the machine does it (any arithmetic). -/
theorem C08_cumulativeSum (id : Str) : Computes (Op.newCumSum id : Op V) i1 fun h m =>
    [(o1, [⟨m.time, ((h ++ [m]).map (·.value)).foldl Num.add (Num.ofNat 0)⟩])] := by
  unfold Op.newCumSum
  rw [simple1_eq]
  exact computes_one _ (fun h => .cumSum ((h.map (·.value)).foldl Num.add (Num.ofNat 0))) _ (fun _ => rfl)
    (by intro h m s; simp [Op.process, procCumSum, single])

/-- C08 CumulativeSum in exact arithmetic: the mathematical sum of all values received so far. -/
theorem C08_cumulativeSum_exact [Field V] [LinearOrder V] [Exact V] (id : Str) : Computes (Op.newCumSum id : Op V) i1 fun h m =>
    [(o1, [⟨m.time, ((h ++ [m]).map (·.value)).sum⟩])] := by
  have h := C08_cumulativeSum (V := V) id
  have hf : ∀ l : List V, l.foldl Num.add (Num.ofNat 0) = l.sum := by
    intro l
    have : ∀ (l : List V) (a : V), l.foldl Num.add a = a + l.sum := by
      intro l
      induction l with
      | nil => intro a; simp
      | cons x l ih => intro a; simp [ih, Exact.add_eq, add_assoc]
    rw [this, Exact.ofNat_eq, Nat.cast_zero, zero_add]
  simpa [hf] using h

/-- C08 Count: the k-th answer carries the k-th time and the value k (for fewer than 2^64 messages, the range of `size_t`). -/
theorem C08_count (id : Str) : ComputesOn (fun ms => ms.length < 2 ^ 64) (Op.newCount id : Op V) i1 fun h m =>
    [(o1, [⟨m.time, Num.ofNat (h.length + 1)⟩])] := by
  unfold Op.newCount
  rw [simple1_eq]
  refine computesOn_one (fun h m hl => ?_) _ (fun h => .count (UInt64.ofNat h.length)) _ (fun _ => rfl) ?_
  · simp at hl; omega
  · intro h m s hl
    have hc : UInt64.ofNat h.length + 1 = UInt64.ofNat (h.length + 1) := by
      rw [UInt64.ofNat_add]; rfl
    simp only [List.length_append, List.length_singleton] at hl
    show procCount _ _ = _
    unfold procCount
    rw [procLast_one, hc, ofTime, UInt64.toNat_ofNat_of_lt' hl]
    simp only [single, List.length_append, List.length_singleton]

example : ([⟨1, 4⟩, ⟨1, 5⟩] : List (Msg ℚ)).length < 2 ^ 64 := by decide

/-! ## C11 -/

/-- C11 (partial): when the shift `dt * times` is not zero and the shifted times are representable, every message is
emitted with its value unchanged and its time shifted by `dt * times` (integer arithmetic).
Missing: a zero shift (see `C11_violated_zero`) and shifts that leave the range (see `C11_violated_negative`). -/
theorem C11_timeShift_partial (id : Str) (dt : UInt64) (times : Int) (hd : (dt.toNat : Int) * times ≠ 0) :
    ComputesOn (fun ms => ∀ m ∈ ms, 0 ≤ m.time.toNat + (dt.toNat : Int) * times ∧ m.time.toNat + (dt.toNat : Int) * times < 2 ^ 64)
      (Op.newTimeShift id dt times : Op V) i1
      fun _ m => [(o1, [⟨UInt64.ofNat (m.time.toNat + (dt.toNat : Int) * times).toNat, m.value⟩])] := by
  unfold Op.newTimeShift
  rw [simple1_eq]
  refine computesOn_one (fun h m hl => ?_) _ (fun h => .timeShift dt times) _ (fun _ => rfl) ?_
  · intro m' hm; exact hl m' (by simp [hm])
  · intro h m s hl
    obtain ⟨h0, h1⟩ := hl m (by simp)
    have key : timeShiftTime dt times m.time = UInt64.ofNat (m.time.toNat + (dt.toNat : Int) * times).toNat := by
      have hD : (dt * UInt64.ofInt times).toNat = (((dt.toNat : Int) * times) % 2 ^ 64).toNat := by
        rw [UInt64.toNat_mul]
        have : (UInt64.ofInt times).toNat = (times % 2 ^ 64).toNat := by
          simp only [UInt64.ofInt, UInt64.toNat_ofNat']
          apply Nat.mod_eq_of_lt
          have := Int.emod_lt_of_pos times (b := 2 ^ 64) (by decide)
          omega
        rw [this]
        have e1 : ((times % 2 ^ 64).toNat : Int) = times % 2 ^ 64 := Int.toNat_of_nonneg (Int.emod_nonneg _ (by decide))
        have e2 : ((dt.toNat * (times % 2 ^ 64).toNat % 2 ^ 64 : Nat) : Int) = ((dt.toNat : Int) * times) % 2 ^ 64 := by
          rw [Int.natCast_emod, Int.natCast_mul, e1, Int.natCast_pow, Int.mul_emod, Int.mul_emod (dt.toNat : Int) times]; exact congrArg (fun x : Int => ((dt.toNat : Int) % 2 ^ 64 * x) % 2 ^ 64) (Int.emod_emod _ _)
        rw [← e2]; rfl
      generalize (dt.toNat : Int) * times = d at *
      have ht := m.time.toNat_lt
      unfold timeShiftTime
      simp only
      have hpos : dt * UInt64.ofInt times > 0 := by
        show (0 : UInt64) < _
        rw [UInt64.lt_iff_toNat_lt, hD]
        simp only [UInt64.toNat_zero]
        omega
      rw [if_pos hpos]
      apply UInt64.toNat_inj.1
      rw [UInt64.toNat_add, hD, UInt64.toNat_ofNat']
      omega
    simp [Op.process, single, key]

/-- C11 is violated by a zero shift: the time becomes 0 whatever it was. -/
theorem C11_violated_zero (id : Str) (dt : UInt64) :
    Computes (Op.newTimeShift id dt 0 : Op V) i1 fun _ m => [(o1, [⟨0, m.value⟩])] := by
  unfold Op.newTimeShift
  rw [simple1_eq]
  refine computes_one _ (fun h => .timeShift dt 0) _ (fun _ => rfl) ?_
  intro h m s
  have : dt * UInt64.ofInt 0 = 0 := UInt64.mul_zero
  simp [Op.process, single, timeShiftTime, this]

/-- C11 is violated by a negative shift larger than the time: the result wraps around to the far future. -/
theorem C11_violated_negative (id : Str) (v : V) :
    ∃ o', feedOp (Op.newTimeShift id 1 (-2) : Op V) i1 [⟨1, v⟩] = .ok [[(o1, [⟨18446744073709551615, v⟩])]] o' := by
  have h : Computes (Op.newTimeShift id 1 (-2) : Op V) i1 fun _ m => [(o1, [⟨timeShiftTime 1 (-2) m.time, m.value⟩])] := by
    unfold Op.newTimeShift
    rw [simple1_eq]
    exact computes_one _ (fun h => .timeShift 1 (-2)) _ (fun _ => rfl) (fun h m s => by simp [Op.process, single])
  obtain ⟨o', ho⟩ := h [⟨1, v⟩]
  exact ⟨o', by rw [ho, answers, answers, show timeShiftTime 1 (-2) 1 = 18446744073709551615 by decide]⟩

example : ((5 : UInt64).toNat : Int) * (-3) ≠ 0 ∧ ∀ m ∈ ([⟨20, 1⟩, ⟨40, 2⟩] : List (Msg ℚ)),
    0 ≤ m.time.toNat + ((5 : UInt64).toNat : Int) * (-3) ∧ m.time.toNat + ((5 : UInt64).toNat : Int) * (-3) < 2 ^ 64 := by decide

end Rtbot
