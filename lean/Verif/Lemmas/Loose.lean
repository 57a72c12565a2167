import Verif.Spec.Loose
import Verif.Lemmas.Describe

set_option linter.unusedSectionVars false

/-! # What the factory makes of any description -/

namespace Rtbot
variable {V : Type} [Num V]
open Spec

theorem ofInt_toNat (i : Int) : ((UInt64.ofInt i).toNat : Int) = i % 2 ^ 64 := by
  rw [UInt64.ofInt, UInt64.toNat_ofNat_of_lt']
  · omega
  · unfold UInt64.size
    omega

theorem ofInt_eq {i : Int} {n : UInt64} (h : (n.toNat : Int) = i % 2 ^ 64) : UInt64.ofInt i = n := by
  apply UInt64.toNat_inj.1
  have := ofInt_toNat i
  omega

theorem getU64_iff {x : Json V} {n : UInt64} : x.getU64 = .ok n ↔ Reads64 x n := by
  constructor
  · intro h
    unfold Json.getU64 at h
    split at h
    · cases h; exact .natural _
    · cases h; exact .signed _ _ (ofInt_toNat _)
    · unfold toTimeE at h
      split at h
      · cases h; exact .float _ _ (by assumption)
      · cases h
    · cases h
  · intro h
    cases h with
    | natural => rfl
    | signed i n h => exact congrArg Except.ok (ofInt_eq h)
    | float v n h =>
      show toTimeE v = _
      unfold toTimeE
      rw [h]

theorem wrap32_spec (k : Int) : k % 2 ^ 32 = Json.wrap32 k % 2 ^ 32 ∧ -2 ^ 31 ≤ Json.wrap32 k ∧ Json.wrap32 k < 2 ^ 31 := by
  unfold Json.wrap32
  omega

theorem wrap32_eq {k i : Int} (h : k % 2 ^ 32 = i % 2 ^ 32) (lo : -2 ^ 31 ≤ i) (hi : i < 2 ^ 31) : Json.wrap32 k = i := by
  unfold Json.wrap32
  omega

theorem getInt_iff {x : Json V} {i : Int} : x.getInt = .ok i ↔ Reads32 x i := by
  constructor
  · intro h
    unfold Json.getInt at h
    split at h
    · rw [← Except.ok.inj h]; exact .natural _ _ (wrap32_spec _).1 (wrap32_spec _).2.1 (wrap32_spec _).2.2
    · rw [← Except.ok.inj h]; exact .signed _ _ (wrap32_spec _).1 (wrap32_spec _).2.1 (wrap32_spec _).2.2
    · unfold Json.truncInt at h
      split at h
      · split at h
        · cases h; exact .positive _ _ (by assumption) (by assumption)
        · cases h
      · split at h
        · split at h
          · cases h; exact .negative _ _ (by assumption) (by assumption) (by assumption)
          · cases h
        · cases h
    · rename_i b
      cases b <;> cases h
      · exact .no
      · exact .yes
    · cases h
  · intro h
    cases h with
    | natural n i h lo hi => exact congrArg Except.ok (wrap32_eq h lo hi)
    | signed k i h lo hi => exact congrArg Except.ok (wrap32_eq h lo hi)
    | positive v n h hi =>
      show Json.truncInt v = _
      unfold Json.truncInt
      rw [h]
      exact if_pos hi
    | negative v n h h' hi =>
      show Json.truncInt v = _
      unfold Json.truncInt
      rw [h, h']
      exact if_pos hi
    | yes => rfl
    | no => rfl

theorem given_iff {j : Json V} {id : Str} (hid : HasId j id) {k : Str} {d i : Int} : j.value k d Json.getInt = .ok i ↔ Given32 j k d i := by
  constructor
  · intro h
    rcases value_ok h with ⟨x, hx, h⟩ | h
    · exact Or.inl ⟨x, hx, getInt_iff.1 h⟩
    · exact Or.inr h
  · rintro (⟨x, hx, h⟩ | ⟨h, rfl⟩)
    · rw [hx.value]
      exact getInt_iff.2 h
    · obtain ⟨m, rfl, _⟩ := hid
      unfold Json.value
      dsimp only
      cases hx : Map.find? m k with
      | none => rfl
      | some y => exact absurd ⟨m, rfl, hx⟩ (h y)

theorem reads32_range {x : Json V} {i : Int} (h : Reads32 x i) : -2 ^ 31 ≤ i ∧ i < 2 ^ 31 := by
  cases h <;> omega

theorem given_range {j : Json V} {k : Str} {i : Int} (h : Given32 j k 1 i) : -2 ^ 31 ≤ i ∧ i < 2 ^ 31 := by
  rcases h with ⟨x, _, h⟩ | ⟨_, rfl⟩
  · exact reads32_range h
  · omega

theorem asInt_iff {i : Int} {v : V} : Json.ofInt i = v ↔ AsInt i v := by
  unfold Json.ofInt
  constructor
  · rintro rfl
    split
    · obtain ⟨n, rfl⟩ : ∃ n : Nat, i = -n := ⟨i.natAbs, by omega⟩
      rw [show (-(n : Int)).natAbs = n by omega]
      exact .negative _ (by omega)
    · obtain ⟨n, rfl⟩ : ∃ n : Nat, i = n := ⟨i.natAbs, by omega⟩
      rw [show (n : Int).natAbs = n by omega]
      exact .natural _
  · intro h
    cases h with
    | natural n => rw [if_neg (by omega), show (n : Int).natAbs = n by omega]
    | negative n h => rw [if_pos (by omega), show (-(n : Int)).natAbs = n by omega]

/-- A number of ports that is small enough for the loop is not negative. -/
theorem portCount_iff {i : Int} (lo : -2 ^ 31 ≤ i) (hi : i < 2 ^ 31) {n : Nat} : portCount (intSize i) = .ok n ↔ i = n := by
  have h : ((intSize i : Nat) : Int) = i % 2 ^ 64 := ofInt_toNat i
  constructor
  · intro hp
    obtain ⟨rfl, hb⟩ := portCount_ok hp
    omega
  · rintro rfl
    have : intSize (n : Int) = n := by omega
    rw [this]
    exact if_pos (by omega)

theorem otherOpOf_loosely {t : Str} {j : Json V} {junk : UInt64 × V} {o : Op V} (h : otherOpOf t j junk = some (.ok o)) (ht : HasType j t) :
    Loosely junk j o := by
  have ports : ∀ {id : Str} {n : Int} {k : Nat}, HasId j id → j.value b!"numPorts" 1 Json.getInt = .ok n → portCount (intSize n) = .ok k →
      Given32 j b!"numPorts" 1 k := by
    intro id n k hid h1 h2
    have hg := (given_iff hid).1 h1
    obtain ⟨lo, hi⟩ := given_range hg
    rw [(portCount_iff lo hi).1 h2] at hg
    exact hg
  unfold otherOpOf at h
  rcases of_ite h with ⟨rfl, h⟩ | ⟨_, h⟩
  · obtain ⟨id, hid, h⟩ := id_bind (Option.some.inj h)
    obtain ⟨n, h1, h⟩ := bind_eq_ok.1 h
    obtain ⟨n', h2, h⟩ := bind_eq_ok.1 h
    exact .input ht hid (ports hid h1 h2) h
  rcases of_ite h with ⟨rfl, h⟩ | ⟨_, h⟩
  · obtain ⟨id, hid, h⟩ := id_bind (Option.some.inj h)
    obtain ⟨n, h1, h⟩ := bind_eq_ok.1 h
    obtain ⟨n', h2, h⟩ := bind_eq_ok.1 h
    exact .output ht hid (ports hid h1 h2) h
  rcases of_ite h with ⟨rfl, h⟩ | ⟨_, h⟩
  · obtain ⟨id, hid, h⟩ := id_bind (Option.some.inj h)
    obtain ⟨n, h1, h⟩ := bind_eq_ok.1 h
    obtain ⟨n', h2, h⟩ := bind_eq_ok.1 h
    exact .demux ht hid (ports hid h1 h2) h
  rcases of_ite h with ⟨rfl, h⟩ | ⟨_, h⟩
  · obtain ⟨id, hid, h⟩ := id_bind (Option.some.inj h)
    obtain ⟨x, hx, h⟩ := bind_eq_ok.1 h
    obtain ⟨n, h1, h⟩ := bind_eq_ok.1 h
    obtain ⟨n', h2, h⟩ := bind_eq_ok.1 h
    obtain ⟨rfl, hb⟩ := portCount_ok h2
    exact .join ht hid (sub_ok hx) (getU64_iff.1 h1) hb h
  rcases of_ite h with ⟨rfl, h⟩ | ⟨_, h⟩
  · obtain ⟨id, hid, h⟩ := id_bind (Option.some.inj h)
    obtain ⟨x, hx, h⟩ := bind_eq_ok.1 h
    obtain ⟨n, h1, h⟩ := bind_eq_ok.1 h
    cases h
    exact .cosRes ht hid (sub_ok hx) (getU64_iff.1 h1)
  rcases of_ite h with ⟨rfl, h⟩ | ⟨_, h⟩
  · obtain ⟨id, hid, h⟩ := id_bind (Option.some.inj h)
    obtain ⟨x, hx, h⟩ := bind_eq_ok.1 h
    obtain ⟨n, h1, h⟩ := bind_eq_ok.1 h
    cases h
    exact .hermRes ht hid (sub_ok hx) (getU64_iff.1 h1)
  rcases of_ite h with ⟨rfl, h⟩ | ⟨_, h⟩
  · obtain ⟨id, hid, h⟩ := id_bind (Option.some.inj h)
    obtain ⟨x, hx, h⟩ := bind_eq_ok.1 h
    obtain ⟨n, h1, h⟩ := bind_eq_ok.1 h
    cases h
    obtain ⟨xs, rfl, hv⟩ := getNums_ok.1 h1
    exact .exact (.fir ht hid (sub_ok hx) hv)
  rcases of_ite h with ⟨rfl, h⟩ | ⟨_, h⟩
  · obtain ⟨id, hid, h⟩ := id_bind (Option.some.inj h)
    obtain ⟨x, hx, h⟩ := bind_eq_ok.1 h
    obtain ⟨n, h1, h⟩ := bind_eq_ok.1 h
    have hl : Op.newLinear id n = .ok o := h
    obtain ⟨xs, rfl, hv⟩ := getNums_ok.1 h1
    exact .exact (.linear ht hid (sub_ok hx) hv hl)
  rcases of_ite h with ⟨rfl, h⟩ | ⟨_, h⟩
  · obtain ⟨id, hid, h⟩ := id_bind (Option.some.inj h)
    obtain ⟨x, hx, h⟩ := bind_eq_ok.1 h
    obtain ⟨n, h1, h⟩ := bind_eq_ok.1 h
    cases h
    obtain ⟨xs, rfl, hv⟩ := getNums_ok.1 h1
    exact .exact (.autoReg ht hid (sub_ok hx) hv)
  rcases of_ite h with ⟨rfl, h⟩ | ⟨_, h⟩
  · obtain ⟨id, hid, h⟩ := id_bind (Option.some.inj h)
    obtain ⟨v, h1, h⟩ := bind_eq_ok.1 h
    cases h
    exact .variable ht hid ((given_iff hid).1 h1) (asInt_iff.1 rfl)
  rcases of_ite h with ⟨rfl, h⟩ | ⟨_, h⟩
  · obtain ⟨id, hid, h⟩ := id_bind (Option.some.inj h)
    obtain ⟨x, h1, h⟩ := bind_eq_ok.1 h
    obtain ⟨n, h2, h⟩ := bind_eq_ok.1 h
    cases h
    exact .timeShift ht hid ((given_iff hid).1 h1) (ofInt_toNat _) ((given_iff hid).1 h2)
  rcases of_ite h with ⟨rfl, h⟩ | ⟨_, h⟩
  · obtain ⟨id, hid, h⟩ := id_bind (Option.some.inj h)
    obtain ⟨x, hx, h⟩ := bind_eq_ok.1 h
    obtain ⟨n, h1, h⟩ := bind_eq_ok.1 h
    exact .constRes ht hid (sub_ok hx) (getU64_iff.1 h1) h
  rcases of_ite h with ⟨rfl, h⟩ | ⟨_, h⟩
  · obtain ⟨ps, _, h⟩ := bind_eq_ok.1 (Option.some.inj h)
    obtain ⟨points, _, h⟩ := bind_eq_ok.1 h
    obtain ⟨id, hid, h⟩ := id_bind h
    obtain ⟨x, hx, h⟩ := bind_eq_ok.1 h
    rw [ht.value] at hx
    cases hx
    rw [interpOf_function] at h
    unfold Op.newFunction at h
    split at h
    · cases h
    · cases h
  · cases h

theorem sizeOpOf_loosely {junk : UInt64 × V} {j x : Json V} {t id : Str} {n : UInt64} {new : Str → Nat → Op V} (h : sizeOpOf t = some new) (ht : HasType j t) (hid : HasId j id)
    (hx : Member j b!"n" x) (hn : Reads64 x n) : Loosely junk j (new id n.toNat) := by
  unfold sizeOpOf at h
  rcases of_ite h with ⟨rfl, h⟩ | ⟨_, h⟩
  · cases h; exact .movAvg ht hid hx hn
  rcases of_ite h with ⟨rfl, h⟩ | ⟨_, h⟩
  · cases h; exact .stdDev ht hid hx hn
  rcases of_ite h with ⟨rfl, h⟩ | ⟨_, h⟩
  · cases h; exact .peak ht hid hx hn
  rcases of_ite h with ⟨rfl, h⟩ | ⟨_, h⟩
  · cases h; exact .rsi ht hid hx hn
  cases h

theorem simpleOpOf_loosely {t : Str} {j : Json V} {junk : UInt64 × V} {o : Op V} (h : simpleOpOf t j junk = some (.ok o)) (ht : HasType j t) :
    Loosely junk j o := by
  unfold simpleOpOf at h
  split at h
  · rename_i hn
    obtain ⟨id, hid, h⟩ := id_bind (Option.some.inj h)
    cases h
    exact .exact (.binary ht hid (binOpOf_ok hn))
  split at h
  · rename_i hn
    obtain ⟨id, hid, h⟩ := id_bind (Option.some.inj h)
    obtain ⟨x, hx, h⟩ := bind_eq_ok.1 h
    obtain ⟨v, hv, h⟩ := bind_eq_ok.1 h
    cases h
    exact .exact (valueOpOf_describes hn ht hid (sub_ok hx) (getNum_ok.1 hv))
  split at h
  · rename_i hn
    obtain ⟨id, hid, h⟩ := id_bind (Option.some.inj h)
    obtain ⟨x, hx, h⟩ := bind_eq_ok.1 h
    obtain ⟨v, hv, h⟩ := bind_eq_ok.1 h
    cases h
    exact sizeOpOf_loosely hn ht hid (sub_ok hx) (getU64_iff.1 hv)
  split at h
  · rename_i hn
    obtain ⟨id, hid, h⟩ := id_bind (Option.some.inj h)
    cases h
    exact .exact (plainOpOf_describes hn ht hid)
  · exact otherOpOf_loosely h ht

theorem simpleOpOf_of_loosely {j : Json V} {junk : UInt64 × V} {o : Op V} (h : Loosely junk j o) :
    ∃ t, HasType j t ∧ t ≠ b!"Pipeline" ∧ simpleOpOf t j junk = some (.ok o) := by
  have ok_then : ∀ {α β : Type} (a : α) (f : α → Except Err β), ((Except.ok a : Except Err α) >>= f) = f a := fun _ _ => rfl
  cases h with
  | exact h => exact simpleOpOf_of_describes h
  | movAvg ht hid hx hn | stdDev ht hid hx hn | peak ht hid hx hn | rsi ht hid hx hn =>
    refine ⟨_, ht, by decide, congrArg some ((id_then hid _).trans ((sub_then hx _).trans ?_))⟩
    rw [getU64_iff.2 hn]
    rfl
  | input ht hid hn h | output ht hid hn h | demux ht hid hn h =>
    refine ⟨_, ht, by decide, congrArg some ((id_then hid _).trans ?_)⟩
    rw [(given_iff hid).2 hn, ok_then, (portCount_iff (given_range hn).1 (given_range hn).2).2 rfl]
    exact h
  | join ht hid hx hn hb h =>
    refine ⟨_, ht, by decide, congrArg some ((id_then hid _).trans ((sub_then hx _).trans ?_))⟩
    rw [getU64_iff.2 hn, ok_then, show portCount _ = .ok _ from if_pos hb]
    exact h
  | cosRes ht hid hx hn | hermRes ht hid hx hn =>
    refine ⟨_, ht, by decide, congrArg some ((id_then hid _).trans ((sub_then hx _).trans ?_))⟩
    rw [getU64_iff.2 hn]
    rfl
  | constRes ht hid hx hn h =>
    refine ⟨_, ht, by decide, congrArg some ((id_then hid _).trans ((sub_then hx _).trans ?_))⟩
    rw [getU64_iff.2 hn]
    exact h
  | timeShift ht hid hd hdt hn =>
    refine ⟨_, ht, by decide, congrArg some ((id_then hid _).trans ?_)⟩
    rw [(given_iff hid).2 hd, ok_then, (given_iff hid).2 hn, ok_then, ofInt_eq hdt]
  | «variable» ht hid hi hv =>
    refine ⟨_, ht, by decide, congrArg some ((id_then hid _).trans ?_)⟩
    rw [(given_iff hid).2 hi, ok_then, asInt_iff.2 hv]

end Rtbot
