import Verif.Lemmas.Create
import Verif.Model.Write

set_option linter.unusedSectionVars false

/-! # What descriptions say -/

namespace Rtbot
variable {V : Type} [Num V]
open Spec

theorem getNum_ok {x : Json V} {v : V} : x.getNum = .ok v ↔ Denotes x v := by
  constructor
  · intro h
    unfold Json.getNum at h
    split at h
    · cases h; exact .whole _
    · rename_i i
      cases h
      unfold Json.ofInt
      split
      · obtain ⟨n, rfl⟩ : ∃ n : Nat, i = -n := ⟨i.natAbs, by omega⟩
        rw [show (-(n : Int)).natAbs = n by omega]
        exact .negative _ (by omega)
      · obtain ⟨n, rfl⟩ : ∃ n : Nat, i = n := ⟨i.natAbs, by omega⟩
        rw [show (n : Int).natAbs = n by omega]
        exact .natural _
    · cases h; exact .float _
    · cases h
  · intro h
    cases h with
    | whole n => rfl
    | natural n =>
      unfold Json.getNum Json.ofInt
      dsimp only
      rw [if_neg (by omega), show (n : Int).natAbs = n by omega]
    | negative n h =>
      unfold Json.getNum Json.ofInt
      dsimp only
      rw [if_pos (by omega), show (-(n : Int)).natAbs = n by omega]
    | float v => rfl

theorem mapM_getNum {xs : List (Json V)} : ∀ {vs : List V}, xs.mapM Json.getNum = .ok vs ↔ List.Forall₂ Denotes xs vs := by
  induction xs with
  | nil =>
    intro vs
    rw [List.mapM_nil]
    constructor
    · intro h; cases h; exact .nil
    · intro h; cases h; rfl
  | cons x xs ih =>
    intro vs
    rw [List.mapM_cons]
    constructor
    · intro h
      obtain ⟨v, h1, h⟩ := bind_eq_ok.1 h
      obtain ⟨ws, h2, h⟩ := bind_eq_ok.1 h
      cases h
      exact .cons (getNum_ok.1 h1) (ih.1 h2)
    · intro h
      cases h with
      | cons h1 h2 =>
        rw [getNum_ok.2 h1]
        show (do let bs ← xs.mapM Json.getNum; pure (_ :: bs)) = _
        rw [ih.2 h2]
        rfl

theorem getNums_ok {x : Json V} {vs : List V} : x.getNums = .ok vs ↔ ∃ xs, x = .arr xs ∧ List.Forall₂ Denotes xs vs := by
  constructor
  · intro h
    obtain ⟨xs, h1, h2⟩ := bind_eq_ok.1 h
    unfold Json.getArr at h1
    split at h1
    · cases h1
      exact ⟨_, rfl, mapM_getNum.1 h2⟩
    · cases h1
  · rintro ⟨xs, rfl, h⟩
    exact mapM_getNum.2 h

theorem wrap32_small {n : Nat} (h : n < 2 ^ 31) : Json.wrap32 n = n := by
  unfold Json.wrap32
  omega

theorem ofInt_small (n : UInt64) : UInt64.ofInt (n.toNat : Int) = n := by
  apply UInt64.toNat_inj.1
  have := n.toNat_lt
  rw [UInt64.ofInt, UInt64.toNat_ofNat_of_lt']
  · omega
  · unfold UInt64.size
    omega

theorem value_ok {α : Type} {j : Json V} {k : Str} {d a : α} {g : Json V → Except Err α} (h : j.value k d g = .ok a) :
    (∃ x, Member j k x ∧ g x = .ok a) ∨ (∀ x, ¬ Member j k x) ∧ a = d := by
  unfold Json.value at h
  split at h
  · split at h
    · rename_i hx
      exact Or.inl ⟨_, ⟨_, rfl, hx⟩, h⟩
    · rename_i hx
      cases h
      refine Or.inr ⟨?_, rfl⟩
      rintro x ⟨m', h1, h2⟩
      cases h1
      rw [hx] at h2
      cases h2
  · cases h

/-- A count read as an `int`. -/
theorem counts_ok {j : Json V} {k : Str} {i : Int} (h : j.value k 1 Json.getInt = .ok i)
    (hn : ∀ x, Member j k x → ∃ n, x = .uint n) (hs : ∀ n, Member j k (.uint n) → n.toNat < 2 ^ 31) :
    ∃ n : UInt64, Counts j k n ∧ n.toNat < 2 ^ 31 ∧ i = n.toNat := by
  rcases value_ok h with ⟨x, hx, h⟩ | ⟨hx, rfl⟩
  · obtain ⟨n, rfl⟩ := hn x hx
    have hb := hs n hx
    have h : (Except.ok (Json.wrap32 n.toNat) : Except Err Int) = .ok i := h
    rw [wrap32_small hb] at h
    exact ⟨n, Or.inl hx, hb, (Except.ok.inj h).symm⟩
  · exact ⟨1, Or.inr ⟨hx, rfl⟩, by decide, rfl⟩

theorem counts_value {j : Json V} (hj : ∃ x, Member j b!"id" x) {k : Str} {n : UInt64} (h : Counts j k n) (hb : n.toNat < 2 ^ 31) :
    j.value k 1 Json.getInt = .ok (n.toNat : Int) := by
  rcases h with h | ⟨h, rfl⟩
  · rw [h.value]
    exact congrArg Except.ok (wrap32_small hb)
  · obtain ⟨x, m, rfl, _⟩ := hj
    unfold Json.value
    dsimp only
    cases hx : Map.find? m k with
    | none => rfl
    | some y => exact absurd ⟨m, rfl, hx⟩ (h y)

theorem portCount_ok {n m : Nat} (h : portCount n = .ok m) : m = n ∧ n < 2 ^ 31 := by
  unfold portCount at h
  split at h
  · cases h; exact ⟨rfl, by assumption⟩
  · cases h

theorem intSize_nat (n : UInt64) : intSize (n.toNat : Int) = n.toNat := by
  unfold intSize
  rw [ofInt_small]

theorem whole_u64 {j x : Json V} {k : Str} {n : UInt64} (hx : Member j k x) (hn : ∀ x, Member j k x → ∃ n, x = .uint n) (h : x.getU64 = .ok n) :
    Member j k (.uint n) := by
  obtain ⟨m, rfl⟩ := hn x hx
  cases h
  exact hx

theorem binOpOf_ok {t : Str} {op : BinOp} (h : binOpOf t = some op) : (t, op) ∈ [(b!"And", BinOp.and), (b!"Or", .or), (b!"Plus", .plus), (b!"Minus", .minus),
      (b!"Multiplication", .mul), (b!"Division", .div), (b!"GreaterThanStream", .gtStream), (b!"LessThanStream", .ltStream)] := by
  unfold binOpOf at h
  iterate 8
    rcases of_ite h with ⟨rfl, h⟩ | ⟨_, h⟩
    · cases h; decide
  cases h

theorem valueOpOf_describes {junk : UInt64 × V} {j x : Json V} {t id : Str} {v : V} {new : Str → V → Op V} (h : valueOpOf t = some new) (ht : HasType j t) (hid : HasId j id)
    (hx : Member j b!"value" x) (hv : Denotes x v) : Describes junk j (new id v) := by
  unfold valueOpOf at h
  rcases of_ite h with ⟨rfl, h⟩ | ⟨_, h⟩
  · cases h; exact .filter ht hid (by decide) hx hv
  rcases of_ite h with ⟨rfl, h⟩ | ⟨_, h⟩
  · cases h; exact .filter ht hid (by decide) hx hv
  rcases of_ite h with ⟨rfl, h⟩ | ⟨_, h⟩
  · cases h; exact .filter ht hid (by decide) hx hv
  rcases of_ite h with ⟨rfl, h⟩ | ⟨_, h⟩
  · cases h; exact .constant ht hid hx hv
  rcases of_ite h with ⟨rfl, h⟩ | ⟨_, h⟩
  · cases h; exact .add ht hid hx hv
  rcases of_ite h with ⟨rfl, h⟩ | ⟨_, h⟩
  · cases h; exact .scale ht hid hx hv
  rcases of_ite h with ⟨rfl, h⟩ | ⟨_, h⟩
  · cases h; exact .power ht hid hx hv
  cases h

theorem sizeOpOf_describes {junk : UInt64 × V} {j : Json V} {t id : Str} {n : UInt64} {new : Str → Nat → Op V} (h : sizeOpOf t = some new) (ht : HasType j t) (hid : HasId j id)
    (hn : Member j b!"n" (.uint n)) : Describes junk j (new id n.toNat) := by
  unfold sizeOpOf at h
  rcases of_ite h with ⟨rfl, h⟩ | ⟨_, h⟩
  · cases h; exact .movAvg ht hid hn
  rcases of_ite h with ⟨rfl, h⟩ | ⟨_, h⟩
  · cases h; exact .stdDev ht hid hn
  rcases of_ite h with ⟨rfl, h⟩ | ⟨_, h⟩
  · cases h; exact .peak ht hid hn
  rcases of_ite h with ⟨rfl, h⟩ | ⟨_, h⟩
  · cases h; exact .rsi ht hid hn
  cases h

theorem plainOpOf_describes {junk : UInt64 × V} {j : Json V} {t id : Str} {new : Str → Op V} (h : plainOpOf t = some new) (ht : HasType j t) (hid : HasId j id) :
    Describes junk j (new id) := by
  unfold plainOpOf at h
  rcases of_ite h with ⟨rfl, h⟩ | ⟨_, h⟩
  · cases h; exact .cumSum ht hid
  rcases of_ite h with ⟨rfl, h⟩ | ⟨_, h⟩
  · cases h; exact .count ht hid
  rcases of_ite h with ⟨rfl, h⟩ | ⟨_, h⟩
  · cases h; exact .difference ht hid
  rcases of_ite h with ⟨rfl, h⟩ | ⟨_, h⟩
  · cases h; exact .identity ht hid
  cases h

theorem interpOf_function : interpOf b!"Function" = none := rfl

theorem otherOpOf_describes {t : Str} {j : Json V} {junk : UInt64 × V} {o : Op V} (h : otherOpOf t j junk = some (.ok o)) (ht : HasType j t) (hw : Whole j) :
    Describes junk j o := by
  unfold otherOpOf at h
  rcases of_ite h with ⟨rfl, h⟩ | ⟨_, h⟩
  · obtain ⟨id, hid, h⟩ := id_bind (Option.some.inj h)
    obtain ⟨n, h1, h⟩ := bind_eq_ok.1 h
    obtain ⟨n', h2, h⟩ := bind_eq_ok.1 h
    obtain ⟨k, h3, h4, rfl⟩ := counts_ok h1 (hw.natural _ (by decide)) (hw.small _ (by decide))
    obtain ⟨rfl, _⟩ := portCount_ok h2
    rw [intSize_nat] at h
    exact .input ht hid h3 h4 h
  rcases of_ite h with ⟨rfl, h⟩ | ⟨_, h⟩
  · obtain ⟨id, hid, h⟩ := id_bind (Option.some.inj h)
    obtain ⟨n, h1, h⟩ := bind_eq_ok.1 h
    obtain ⟨n', h2, h⟩ := bind_eq_ok.1 h
    obtain ⟨k, h3, h4, rfl⟩ := counts_ok h1 (hw.natural _ (by decide)) (hw.small _ (by decide))
    obtain ⟨rfl, _⟩ := portCount_ok h2
    rw [intSize_nat] at h
    exact .output ht hid h3 h4 h
  rcases of_ite h with ⟨rfl, h⟩ | ⟨_, h⟩
  · obtain ⟨id, hid, h⟩ := id_bind (Option.some.inj h)
    obtain ⟨n, h1, h⟩ := bind_eq_ok.1 h
    obtain ⟨n', h2, h⟩ := bind_eq_ok.1 h
    obtain ⟨k, h3, h4, rfl⟩ := counts_ok h1 (hw.natural _ (by decide)) (hw.small _ (by decide))
    obtain ⟨rfl, _⟩ := portCount_ok h2
    rw [intSize_nat] at h
    exact .demux ht hid h3 h4 h
  rcases of_ite h with ⟨rfl, h⟩ | ⟨_, h⟩
  · obtain ⟨id, hid, h⟩ := id_bind (Option.some.inj h)
    obtain ⟨x, hx, h⟩ := bind_eq_ok.1 h
    obtain ⟨n, h1, h⟩ := bind_eq_ok.1 h
    obtain ⟨n', h2, h⟩ := bind_eq_ok.1 h
    obtain ⟨rfl, hb⟩ := portCount_ok h2
    exact .join ht hid (whole_u64 (sub_ok hx) (hw.natural _ (by decide)) h1) hb h
  rcases of_ite h with ⟨rfl, h⟩ | ⟨_, h⟩
  · obtain ⟨id, hid, h⟩ := id_bind (Option.some.inj h)
    obtain ⟨x, hx, h⟩ := bind_eq_ok.1 h
    obtain ⟨n, h1, h⟩ := bind_eq_ok.1 h
    cases h
    exact .cosRes ht hid (whole_u64 (sub_ok hx) (hw.natural _ (by decide)) h1)
  rcases of_ite h with ⟨rfl, h⟩ | ⟨_, h⟩
  · obtain ⟨id, hid, h⟩ := id_bind (Option.some.inj h)
    obtain ⟨x, hx, h⟩ := bind_eq_ok.1 h
    obtain ⟨n, h1, h⟩ := bind_eq_ok.1 h
    cases h
    exact .hermRes ht hid (whole_u64 (sub_ok hx) (hw.natural _ (by decide)) h1)
  rcases of_ite h with ⟨rfl, h⟩ | ⟨_, h⟩
  · obtain ⟨id, hid, h⟩ := id_bind (Option.some.inj h)
    obtain ⟨x, hx, h⟩ := bind_eq_ok.1 h
    obtain ⟨n, h1, h⟩ := bind_eq_ok.1 h
    cases h
    obtain ⟨xs, rfl, hv⟩ := getNums_ok.1 h1
    exact .fir ht hid (sub_ok hx) hv
  rcases of_ite h with ⟨rfl, h⟩ | ⟨_, h⟩
  · obtain ⟨id, hid, h⟩ := id_bind (Option.some.inj h)
    obtain ⟨x, hx, h⟩ := bind_eq_ok.1 h
    obtain ⟨n, h1, h⟩ := bind_eq_ok.1 h
    have hl : Op.newLinear id n = .ok o := h
    obtain ⟨xs, rfl, hv⟩ := getNums_ok.1 h1
    exact .linear ht hid (sub_ok hx) hv hl
  rcases of_ite h with ⟨rfl, h⟩ | ⟨_, h⟩
  · obtain ⟨id, hid, h⟩ := id_bind (Option.some.inj h)
    obtain ⟨x, hx, h⟩ := bind_eq_ok.1 h
    obtain ⟨n, h1, h⟩ := bind_eq_ok.1 h
    cases h
    obtain ⟨xs, rfl, hv⟩ := getNums_ok.1 h1
    exact .autoReg ht hid (sub_ok hx) hv
  rcases of_ite h with ⟨rfl, h⟩ | ⟨_, h⟩
  · obtain ⟨id, hid, h⟩ := id_bind (Option.some.inj h)
    obtain ⟨v, h1, h⟩ := bind_eq_ok.1 h
    cases h
    have hofInt : ∀ n : Nat, (Json.ofInt (n : Int) : V) = Num.ofNat n := by
      intro n
      unfold Json.ofInt
      rw [if_neg (by omega), show (n : Int).natAbs = n by omega]
    rcases value_ok h1 with ⟨x, hx, h1⟩ | ⟨hx, rfl⟩
    · obtain ⟨n, rfl, hb⟩ := hw.value ht x hx
      have h1 : (Except.ok (Json.wrap32 n.toNat) : Except Err Int) = .ok v := h1
      rw [wrap32_small hb] at h1
      cases h1
      rw [hofInt]
      exact .variable ht hid (Or.inl hx) hb
    · have := Describes.variable (junk := junk) (n := 0) ht hid (Or.inr ⟨hx, rfl⟩) (by decide)
      rw [show (0 : UInt64).toNat = 0 from rfl] at this
      rw [show (0 : Int) = ((0 : Nat) : Int) from rfl, hofInt]
      exact this
  rcases of_ite h with ⟨rfl, h⟩ | ⟨_, h⟩
  · obtain ⟨id, hid, h⟩ := id_bind (Option.some.inj h)
    obtain ⟨x, h1, h⟩ := bind_eq_ok.1 h
    obtain ⟨n, h2, h⟩ := bind_eq_ok.1 h
    cases h
    obtain ⟨dt, h3, h4, rfl⟩ := counts_ok h1 (hw.natural _ (by decide)) (hw.shift ht)
    obtain ⟨times, h5, h6, rfl⟩ := counts_ok h2 (hw.natural _ (by decide)) (hw.small _ (by decide))
    rw [ofInt_small]
    exact .timeShift ht hid h3 h4 h5 h6
  rcases of_ite h with ⟨rfl, h⟩ | ⟨_, h⟩
  · obtain ⟨id, hid, h⟩ := id_bind (Option.some.inj h)
    obtain ⟨x, hx, h⟩ := bind_eq_ok.1 h
    obtain ⟨n, h1, h⟩ := bind_eq_ok.1 h
    exact .constRes ht hid (whole_u64 (sub_ok hx) (hw.natural _ (by decide)) h1) h
  rcases of_ite h with ⟨rfl, h⟩ | ⟨_, h⟩
  · obtain ⟨ps, _, h⟩ := bind_eq_ok.1 (Option.some.inj h)
    obtain ⟨points, _, h⟩ := bind_eq_ok.1 h
    obtain ⟨id, hid, h⟩ := id_bind h
    obtain ⟨x, hx, h⟩ := bind_eq_ok.1 h
    rw [ht.value] at hx
    cases hx
    rw [interpOf_function] at h
    unfold Op.newFunction at h
    split at h
    · cases h
    · cases h
  · cases h

theorem simpleOpOf_describes {t : Str} {j : Json V} {junk : UInt64 × V} {o : Op V} (h : simpleOpOf t j junk = some (.ok o)) (ht : HasType j t) (hw : Whole j) :
    Describes junk j o := by
  unfold simpleOpOf at h
  split at h
  · rename_i hn
    obtain ⟨id, hid, h⟩ := id_bind (Option.some.inj h)
    cases h
    exact .binary ht hid (binOpOf_ok hn)
  split at h
  · rename_i hn
    obtain ⟨id, hid, h⟩ := id_bind (Option.some.inj h)
    obtain ⟨x, hx, h⟩ := bind_eq_ok.1 h
    obtain ⟨v, hv, h⟩ := bind_eq_ok.1 h
    cases h
    exact valueOpOf_describes hn ht hid (sub_ok hx) (getNum_ok.1 hv)
  split at h
  · rename_i hn
    obtain ⟨id, hid, h⟩ := id_bind (Option.some.inj h)
    obtain ⟨x, hx, h⟩ := bind_eq_ok.1 h
    obtain ⟨v, hv, h⟩ := bind_eq_ok.1 h
    cases h
    exact sizeOpOf_describes hn ht hid (whole_u64 (sub_ok hx) (hw.natural _ (by decide)) hv)
  split at h
  · rename_i hn
    obtain ⟨id, hid, h⟩ := id_bind (Option.some.inj h)
    cases h
    exact plainOpOf_describes hn ht hid
  · exact otherOpOf_describes h ht hw

/-- The id goes first. -/
theorem id_then {j : Json V} {id : Str} (hid : HasId j id) {β : Type} (f : Str → Except Err β) :
    (do let x ← j.sub b!"id"; let id ← x.getStr; f id) = f id := by
  rw [hid.sub]
  rfl

theorem sub_then {j x : Json V} {k : Str} (h : Member j k x) {β : Type} (f : Json V → Except Err β) : (do let x ← j.sub k; f x) = f x := by
  rw [h.sub]
  rfl

theorem simpleOpOf_of_describes {j : Json V} {junk : UInt64 × V} {o : Op V} (h : Describes junk j o) :
    ∃ t, HasType j t ∧ t ≠ b!"Pipeline" ∧ simpleOpOf t j junk = some (.ok o) := by
  have ok_then : ∀ {α β : Type} (a : α) (f : α → Except Err β), ((Except.ok a : Except Err α) >>= f) = f a := fun _ _ => rfl
  have hpc : ∀ {n : Nat}, n < 2 ^ 31 → portCount n = .ok n := fun h => if_pos h
  cases h with
  | binary ht hid hm =>
    refine ⟨_, ht, ?_, ?_⟩
    · rintro rfl
      revert hm
      rename_i op
      cases op <;> decide
    · simp only [List.mem_cons, Prod.mk.injEq, List.not_mem_nil, or_false] at hm
      rcases hm with ⟨rfl, rfl⟩ | ⟨rfl, rfl⟩ | ⟨rfl, rfl⟩ | ⟨rfl, rfl⟩ | ⟨rfl, rfl⟩ | ⟨rfl, rfl⟩ | ⟨rfl, rfl⟩ | ⟨rfl, rfl⟩ <;>
        exact congrArg some (id_then hid _)
  | filter ht hid hm hx hv =>
    simp only [List.mem_cons, Prod.mk.injEq, List.not_mem_nil, or_false] at hm
    rcases hm with ⟨rfl, rfl⟩ | ⟨rfl, rfl⟩ | ⟨rfl, rfl⟩ <;> refine ⟨_, ht, by decide, congrArg some ((id_then hid _).trans ((sub_then hx _).trans ?_))⟩ <;>
      rw [getNum_ok.2 hv] <;> rfl
  | constant ht hid hx hv | add ht hid hx hv | scale ht hid hx hv | power ht hid hx hv =>
    refine ⟨_, ht, by decide, congrArg some ((id_then hid _).trans ((sub_then hx _).trans ?_))⟩
    rw [getNum_ok.2 hv]
    rfl
  | movAvg ht hid hx | stdDev ht hid hx | peak ht hid hx | rsi ht hid hx =>
    exact ⟨_, ht, by decide, congrArg some ((id_then hid _).trans ((sub_then hx _).trans rfl))⟩
  | cumSum ht hid | count ht hid | difference ht hid | identity ht hid =>
    exact ⟨_, ht, by decide, congrArg some (id_then hid _)⟩
  | input ht hid hn hb h | output ht hid hn hb h | demux ht hid hn hb h =>
    refine ⟨_, ht, by decide, congrArg some ((id_then hid _).trans ?_)⟩
    rw [counts_value ⟨_, hid⟩ hn hb]
    rw [ok_then, intSize_nat, hpc hb]
    exact h
  | join ht hid hx hb h =>
    refine ⟨_, ht, by decide, congrArg some ((id_then hid _).trans ((sub_then hx _).trans ?_))⟩
    rw [show ∀ n, (Json.uint n : Json V).getU64 = .ok n from fun _ => rfl, ok_then, hpc hb]
    exact h
  | cosRes ht hid hx | hermRes ht hid hx =>
    exact ⟨_, ht, by decide, congrArg some ((id_then hid _).trans ((sub_then hx _).trans rfl))⟩
  | constRes ht hid hx h =>
    exact ⟨_, ht, by decide, congrArg some ((id_then hid _).trans ((sub_then hx _).trans h))⟩
  | fir ht hid hx hv | autoReg ht hid hx hv =>
    refine ⟨_, ht, by decide, congrArg some ((id_then hid _).trans ((sub_then hx _).trans ?_))⟩
    rw [getNums_ok.2 ⟨_, rfl, hv⟩]
    rfl
  | linear ht hid hx hv h =>
    refine ⟨_, ht, by decide, congrArg some ((id_then hid _).trans ((sub_then hx _).trans ?_))⟩
    rw [getNums_ok.2 ⟨_, rfl, hv⟩]
    exact h
  | timeShift ht hid hd hdb hn hnb =>
    refine ⟨_, ht, by decide, congrArg some ((id_then hid _).trans ?_)⟩
    rw [counts_value ⟨_, hid⟩ hd hdb, ok_then, counts_value ⟨_, hid⟩ hn hnb, ok_then, ofInt_small]
  | «variable» ht hid hv hb =>
    refine ⟨_, ht, by decide, congrArg some ((id_then hid _).trans ?_)⟩
    rename_i id n
    have : j.value b!"value" 0 Json.getInt = .ok (n.toNat : Int) := by
      rcases hv with hv | ⟨hv, rfl⟩
      · rw [hv.value]
        exact congrArg Except.ok (wrap32_small hb)
      · obtain ⟨m, rfl, _⟩ := hid
        unfold Json.value
        dsimp only
        cases hx : Map.find? m b!"value" with
        | none => rfl
        | some y => exact absurd ⟨m, rfl, hx⟩ (hv y)
    rw [this, ok_then]
    unfold Json.ofInt
    rw [if_neg (by omega), show (n.toNat : Int).natAbs = n.toNat by omega]

end Rtbot
