import Mathlib.Tactic.Ring
import Verif.Lemmas.ConstRes

/-! # The loop of the interpolating resamplers -/

set_option linter.unusedSectionVars false

namespace Rtbot
open Spec
variable {V : Type} [Num V]

theorem gridLoop_eq {d dt carry : UInt64} {D C : Nat} (hD : dt.toNat = D) (hC : carry.toNat = C) (hCD : C < D) (r : Nat) :
    ∀ (fuel j : Nat), 1 ≤ j → r ≤ fuel → (∀ i < r, (j + i) * D - C ≤ d.toNat) → d.toNat < (j + r) * D - C → (j + r) * D < 2 ^ 64 →
    ∃ offs, gridLoop d dt carry fuel j = .ok (offs, j + r) ∧ offs.map UInt64.toNat = (List.range r).map fun i => (j + i) * D - C := by
  have off : ∀ j, 1 ≤ j → j * D < 2 ^ 64 → (UInt64.ofNat j * dt - carry).toNat = j * D - C := by
    intro j hj hlt
    have h1 : j * 1 ≤ j * D := Nat.mul_le_mul_left j (by omega)
    have h2 : 1 * D ≤ j * D := Nat.mul_le_mul_right D hj
    have h3 : (UInt64.ofNat j * dt).toNat = j * D := by
      rw [UInt64.toNat_mul, UInt64.toNat_ofNat', hD, Nat.mod_eq_of_lt (show j < 2 ^ 64 by omega), Nat.mod_eq_of_lt hlt]
    rw [UInt64.toNat_sub, h3, hC]
    omega
  induction r with
  | zero =>
    intro fuel j hj _ _ hd hlt
    refine ⟨[], ?_, rfl⟩
    unfold gridLoop
    rw [if_neg, Nat.add_zero]
    rw [ge_iff_le, UInt64.le_iff_toNat_le, off j hj (by simpa using hlt)]
    simp only [Nat.add_zero] at hd
    omega
  | succ r ih =>
    intro fuel j hj hf hi hd hlt
    cases fuel with
    | zero => omega
    | succ f =>
      have hjl : j * D < 2 ^ 64 := by
        have : j * D ≤ (j + (r + 1)) * D := Nat.mul_le_mul_right D (by omega)
        omega
      have e : j + 1 + r = j + (r + 1) := by omega
      obtain ⟨offs, h1, h2⟩ := ih f (j + 1) (by omega) (by omega) (by
        intro i hir
        have := hi (i + 1) (by omega)
        rw [show j + 1 + i = j + (i + 1) by omega]; exact this) (by rw [e]; exact hd) (by rw [e]; exact hlt)
      refine ⟨(UInt64.ofNat j * dt - carry) :: offs, ?_, ?_⟩
      · unfold gridLoop
        rw [if_pos]
        · simp only [h1]
          rw [bind_ok, e]
        · rw [ge_iff_le, UInt64.le_iff_toNat_le, off j hj hjl]
          exact hi 0 (by omega)
      · rw [List.map_cons, h2, off j hj hjl, List.range_succ_eq_map, List.map_cons, List.map_map]
        congr 1
        apply List.map_congr_left
        intro i _
        simp only [Function.comp_def, Nat.succ_eq_add_one]
        rw [show j + 1 + i = j + (i + 1) by omega]

theorem Spec.GridPre.init {dt : UInt64} (h : List (Msg V)) (m : Msg V) (hp : GridPre dt (h ++ [m])) : GridPre dt h :=
  ⟨Increasing.init hp.inc, fun x hx => hp.ov x (by simp [hx]), hp.gap.left_of_append⟩

/-- One interval `(a, b]` of the grid started at `T0`. -/
theorem interval {dt carry : UInt64} {a b : UInt64} {T0 : Nat} (hdt : 0 < dt.toNat) (h0 : T0 ≤ a.toNat) (hab : a.toNat < b.toNat)
    (hov : b.toNat + dt.toNat < 2 ^ 64) (hgap : b.toNat - a.toNat < (2 ^ 31 - 3) * dt.toNat)
    (hc : carry.toNat = (a.toNat - T0) % dt.toNat) :
    ∃ offs j, gridLoop (b - a) dt carry intFuel 1 = .ok (offs, j) ∧
      (newCarry a b dt carry j).toNat = (b.toNat - T0) % dt.toNat ∧
      (∀ off ∈ offs, 0 < off.toNat ∧ off.toNat ≤ b.toNat - a.toNat) ∧
      gridUpTo T0 dt.toNat b.toNat = gridUpTo T0 dt.toNat a.toNat ++ offs.map fun off => (a + off).toNat := by
  have hd : (b - a).toNat = b.toNat - a.toNat := by
    rw [UInt64.toNat_sub]; have := a.toNat_lt; have := b.toNat_lt; omega
  have hgr := gridUpTo_append (t0 := T0) (dt := dt.toNat) (Nat.le_of_lt hab)
  have hcl := Nat.mod_lt (a.toNat - T0) hdt
  have hadm := Nat.div_add_mod (a.toNat - T0) dt.toNat
  have hbdm := Nat.div_add_mod (b.toNat - T0) dt.toNat
  have hbml := Nat.mod_lt (b.toNat - T0) hdt
  have hqq : (a.toNat - T0) / dt.toNat ≤ (b.toNat - T0) / dt.toNat := Nat.div_le_div_right (by omega)
  generalize hq : (a.toNat - T0) / dt.toNat = q at *
  generalize hq' : (b.toNat - T0) / dt.toNat = q' at *
  generalize hC : (a.toNat - T0) % dt.toNat = C at *
  generalize hC' : (b.toNat - T0) % dt.toNat = C' at *
  obtain ⟨r, rfl⟩ := Nat.exists_eq_add_of_le hqq
  have hblt := b.toNat_lt
  have halt := a.toNat_lt
  generalize hA : a.toNat = A at *
  generalize hB : b.toNat = B at *
  generalize hD : dt.toNat = D at *
  have e1 : D * (q + r) = D * q + D * r := by ring
  have e2 : ∀ i, (1 + i) * D = D + D * i := by intro i; ring
  have hmono : ∀ i, i < r → D * i + D ≤ D * r := by
    intro i hi
    have := Nat.mul_le_mul_left D (Nat.succ_le_of_lt hi)
    rw [Nat.succ_eq_add_one, Nat.mul_add, Nat.mul_one] at this; exact this
  have hrf : r ≤ intFuel := by
    unfold intFuel
    by_contra hx
    have h5 : D * (2 ^ 31 - 1) ≤ D * r := Nat.mul_le_mul_left D (by omega)
    have h6 : (2 ^ 31 - 3) * D = D * (2 ^ 31 - 1) - 2 * D := by omega
    omega
  obtain ⟨offs, h1, h2⟩ := gridLoop_eq (d := b - a) hD hc hcl r intFuel 1 (by omega) hrf
    (by intro i hi; have := hmono i hi; rw [e2, hd]; omega) (by rw [e2, hd]; omega) (by rw [e2]; omega)
  refine ⟨offs, 1 + r, h1, ?_, ?_, ?_⟩
  · unfold newCarry
    have hr64 : r < 2 ^ 64 := by unfold intFuel at hrf; omega
    have h3 : (UInt64.ofNat (1 + r - 1) * dt).toNat = D * r := by
      rw [UInt64.toNat_mul, UInt64.toNat_ofNat', hD, show 1 + r - 1 = r by omega, Nat.mod_eq_of_lt hr64, Nat.mul_comm,
        Nat.mod_eq_of_lt (by omega)]
    rw [UInt64.toNat_sub, UInt64.toNat_add, UInt64.toNat_sub, h3, hc, hA, hB]
    omega
  · intro off ho
    have : off.toNat ∈ offs.map UInt64.toNat := List.mem_map_of_mem ho
    rw [h2] at this
    obtain ⟨i, hi, he⟩ := List.mem_map.1 this
    have hi' := hmono i (List.mem_range.1 hi)
    simp only [e2] at he
    omega
  · rw [hgr]
    congr 1
    rw [show q + r - q = r by omega]
    have h4 := congrArg (List.map fun x => A + x) h2
    rw [List.map_map, List.map_map] at h4
    have h5 : (offs.map fun off => (a + off).toNat) = offs.map ((fun x => A + x) ∘ UInt64.toNat) := by
      apply List.map_congr_left
      intro off ho
      have : off.toNat ∈ offs.map UInt64.toNat := List.mem_map_of_mem ho
      rw [h2] at this
      obtain ⟨i, hi, he⟩ := List.mem_map.1 this
      have hi' := hmono i (List.mem_range.1 hi)
      simp only [e2] at he
      rw [UInt64.toNat_add, hA, Nat.mod_eq_of_lt (by omega)]
      rfl
    rw [h5, h4]
    apply List.map_congr_left
    intro i hi
    have hi' := hmono i (List.mem_range.1 hi)
    simp only [Function.comp_def, e2]
    have e3 : (q + i + 1) * D = D * q + D * i + D := by ring
    omega

end Rtbot
