import Verif.Spec.Stream
import Mathlib.Tactic.Linarith
import Mathlib.Data.List.Chain

/-! # Specification vocabulary: time grids, bracketing messages -/

namespace Rtbot.Spec
variable {V : Type}

/-- The grid points `t0 + dt, t0 + 2*dt, ...` up to and including `t`, in increasing order. -/
def gridUpTo (t0 dt t : Nat) : List Nat := (List.range ((t - t0) / dt)).map fun k => t0 + (k + 1) * dt

/-- The grid contains exactly the points `t0 + k*dt`, `k ≥ 1`, not beyond `t`. -/
theorem mem_gridUpTo {t0 dt t g : Nat} (hdt : 0 < dt) : g ∈ gridUpTo t0 dt t ↔ ∃ k, 1 ≤ k ∧ g = t0 + k * dt ∧ g ≤ t := by
  unfold gridUpTo
  simp only [List.mem_map, List.mem_range]
  constructor
  · rintro ⟨k, hk, rfl⟩
    have := (Nat.le_div_iff_mul_le hdt).1 (Nat.succ_le_of_lt hk)
    refine ⟨k + 1, by omega, rfl, ?_⟩
    have : 0 < (k + 1) * dt := Nat.mul_pos (by omega) hdt
    simp only [Nat.succ_eq_add_one] at *
    omega
  · rintro ⟨k, hk, rfl, hle⟩
    refine ⟨k - 1, ?_, ?_⟩
    · have := (Nat.le_div_iff_mul_le hdt).2 (show k * dt ≤ t - t0 by omega)
      omega
    · rw [Nat.sub_add_cancel hk]

/-- The grid is strictly increasing (in particular free of repetitions). -/
theorem gridUpTo_increasing {t0 dt t : Nat} (hdt : 0 < dt) : (gridUpTo t0 dt t).Pairwise (· < ·) := by
  unfold gridUpTo
  rw [List.pairwise_map]
  refine List.Pairwise.imp ?_ List.pairwise_lt_range
  intro a b h
  have := Nat.mul_lt_mul_of_pos_right (show a + 1 < b + 1 by omega) hdt
  omega

/-- The latest message at or before time `g`. -/
def latestAt (ms : List (Msg V)) (g : Nat) : Option (Msg V) := (ms.filter fun m => m.time.toNat ≤ g).getLast?

/-- The latest message strictly before time `g`. -/
def latestBefore (ms : List (Msg V)) (g : Nat) : Option (Msg V) := (ms.filter fun m => m.time.toNat < g).getLast?

/-- The first message at or after time `g`. -/
def firstFrom (ms : List (Msg V)) (g : Nat) : Option (Msg V) := (ms.filter fun m => g ≤ m.time.toNat).head?

/-- Consecutive messages are less than `(2^31 - 3) * dt` apart: the `int` counter of the interpolating resamplers does not overflow;
times increase; `time + dt` does not overflow. -/
structure GridPre (dt : UInt64) (h : List (Msg V)) : Prop where
  inc : Increasing h
  ov : ∀ m ∈ h, m.time.toNat + dt.toNat < 2 ^ 64
  gap : h.IsChain fun a b => b.time.toNat - a.time.toNat < (2 ^ 31 - 3) * dt.toNat

variable [Num V]

/-- Cosine interpolation between `a` and `b` at time `g`: `a*(1-μ₂) + b*μ₂` with `μ₂ = (1 - cos(π μ))/2`, `μ = (g-a)/(b-a)`. -/
def cosineBetween (a b : Msg V) (g : Nat) : V :=
  let mu : V := Num.ofNat (g - a.time.toNat) /. Num.ofNat (b.time.toNat - a.time.toNat)
  let mu2 := (Num.ofNat 1 -. Num.cos (mu *. Num.pi)) /. Num.ofNat 2
  a.value *. (Num.ofNat 1 -. mu2) +. b.value *. mu2

/-- Cosine interpolation of a history at time `g`, between the messages that bracket `g`. -/
def cosineAt (ms : List (Msg V)) (g : Nat) : Option V :=
  match latestBefore ms g, firstFrom ms g with
  | some a, some b => some (cosineBetween a b g)
  | _, _ => none

end Rtbot.Spec
