import Mathlib.Tactic.Ring
import Verif.Lemmas.Feed

/-! # ConstantResampler -/

set_option linter.unusedSectionVars false

namespace Rtbot
open Spec
variable {V : Type} [Num V]

namespace ConstRes

theorem loop (dt t : UInt64) (v : V) (r : Nat) : ∀ (fuel a : Nat) (next : UInt64), next.toNat = a → r < fuel →
    a + r * dt.toNat < 2 ^ 64 → (∀ k < r, a + k * dt.toNat < t.toNat) → t.toNat ≤ a + r * dt.toNat →
    ∃ ms next', constLoop dt t v fuel next = .ok (ms, next') ∧ next'.toNat = a + r * dt.toNat ∧
      ms.map (fun m => (m.time.toNat, m.value)) = (List.range r).map fun k => (a + k * dt.toNat, v) := by
  induction r with
  | zero =>
    intro fuel a next ha hf _ _ ht
    cases fuel with
    | zero => omega
    | succ f =>
      refine ⟨[], next, ?_, by omega, rfl⟩
      unfold constLoop
      rw [if_neg]
      rw [UInt64.lt_iff_toNat_lt]; omega
  | succ r ih =>
    intro fuel a next ha hf hov hk ht
    cases fuel with
    | zero => omega
    | succ f =>
      have h0 := hk 0 (by omega)
      have hsum : a + dt.toNat + r * dt.toNat = a + (r + 1) * dt.toNat := by rw [Nat.succ_mul]; omega
      have hnext : (next + dt).toNat = a + dt.toNat := by
        rw [UInt64.toNat_add, ha, Nat.mod_eq_of_lt]
        have : 0 ≤ r * dt.toNat := Nat.zero_le _
        omega
      obtain ⟨ms, next', h1, h2, h3⟩ := ih f (a + dt.toNat) (next + dt) hnext (by omega) (by omega) (by
        intro k hkr
        have := hk (k + 1) (by omega)
        rw [Nat.succ_mul] at this
        omega) (by omega)
      refine ⟨⟨next, v⟩ :: ms, next', ?_, by omega, ?_⟩
      · unfold constLoop
        rw [if_pos (by rw [UInt64.lt_iff_toNat_lt]; omega), h1]
        rfl
      · rw [List.map_cons, h3, List.range_succ_eq_map, List.map_cons, List.map_map]
        congr 1
        · simp [ha]
        · apply List.map_congr_left
          intro k _
          simp only [Function.comp_def, Nat.succ_eq_add_one, Nat.succ_mul]
          congr 1
          omega

/-- The messages that are due, as (time, value). -/
def due (dt : Nat) (h : List (Msg V)) : List (Nat × Option V) :=
  match h.head?, h.getLast? with
  | some m0, some l => (gridUpTo m0.time.toNat dt l.time.toNat).map fun g => (g, (latestAt h g).map (·.value))
  | _, _ => []

/-- State after a history. -/
def KI (dt : UInt64) (h : List (Msg V)) (k : Kind V) : Prop :=
  match h.head?, h.getLast? with
  | some m0, some l => ∃ next : UInt64,
      next.toNat = m0.time.toNat + ((l.time.toNat - m0.time.toNat) / dt.toNat + 1) * dt.toNat ∧
      k = .constRes dt next true l.value
  | _, _ => ∃ a b, k = .constRes dt a false b

def Pre (dt : UInt64) (h : List (Msg V)) : Prop := Increasing h ∧ ∀ m ∈ h, m.time.toNat + dt.toNat < 2 ^ 64

theorem head_le {h : List (Msg V)} (hi : Increasing h) {m0 l : Msg V} (h0 : h.head? = some m0) (hl : h.getLast? = some l) :
    m0.time.toNat ≤ l.time.toNat := by
  cases h with
  | nil => cases h0
  | cons a t =>
    cases h0
    rcases List.eq_nil_or_concat t with rfl | ⟨t', b, rfl⟩
    · simp at hl; subst hl; exact Nat.le_refl _
    · rw [List.concat_eq_append] at *
      have : (m0 :: (t' ++ [b])).getLast? = some b := by
        rw [← List.cons_append, List.getLast?_append]; simp
      rw [this] at hl; cases hl
      have := (List.pairwise_cons.1 hi).1 l (by simp)
      exact Nat.le_of_lt (UInt64.lt_iff_toNat_lt.1 this)

theorem le_last {h : List (Msg V)} (hi : Increasing h) {l : Msg V} (hl : h.getLast? = some l) : ∀ x ∈ h, x.time.toNat ≤ l.time.toNat := by
  rcases List.eq_nil_or_concat h with rfl | ⟨t, b, rfl⟩
  · simp
  · rw [List.concat_eq_append] at *
    rw [List.getLast?_append] at hl; simp at hl; subst hl
    intro x hx
    rcases List.mem_append.1 hx with hx | hx
    · exact Nat.le_of_lt (Increasing.lt_last hi x hx)
    · simp at hx; subst hx; exact Nat.le_refl _

theorem latestAt_after {h : List (Msg V)} (hi : Increasing h) {l : Msg V} (hl : h.getLast? = some l) {g : Nat} (hg : l.time.toNat ≤ g) :
    latestAt h g = some l := by
  unfold latestAt
  rw [List.filter_eq_self.2, hl]
  intro x hx
  have := le_last hi hl x hx
  simp; omega

theorem step_due {dt : UInt64} (hdt : 0 < dt.toNat) {c : Core V} {h : List (Msg V)} {m : Msg V} {k : Kind V} {s : V}
    (hp : Pre dt (h ++ [m])) (hk : KI dt h k) :
    ∃ out k', Op.process ⟨runCore c 1 s [m], k⟩ = .ok (out, k') ∧ KI dt (h ++ [m]) k' ∧
      due dt.toNat (h ++ [m]) = due dt.toNat h ++ (msgsOn o1 out).map fun x => (x.time.toNat, some x.value) := by
  cases hh : h.head? with
  | none =>
    have : h = [] := List.head?_eq_none_iff.1 hh
    subst this
    obtain ⟨a, b, rfl⟩ := hk
    refine ⟨[], .constRes dt (m.time + dt) true m.value, ?_, ?_, ?_⟩
    · simp [Op.process, procConstRes]
    · refine ⟨m.time + dt, ?_, rfl⟩
      have := hp.2 m (by simp)
      rw [UInt64.toNat_add, Nat.mod_eq_of_lt this]
      simp
    · simp [due, gridUpTo_self, msgsOn]
  | some m0 =>
    have hne : h ≠ [] := by rintro rfl; cases hh
    obtain ⟨l, hl⟩ : ∃ l, h.getLast? = some l := ⟨_, List.getLast?_eq_some_getLast hne⟩
    have hinc := Increasing.init hp.1
    have hml := Increasing.lt_last hp.1 l (List.mem_of_getLast? hl)
    have h0l := head_le hinc hh hl
    have hh' : (h ++ [m]).head? = some m0 := by rw [List.head?_append, hh]; rfl
    have hl' : (h ++ [m]).getLast? = some m := by simp
    have hov := hp.2 m (by simp)
    unfold KI at hk ⊢
    unfold due
    rw [hh, hl] at hk
    obtain ⟨next, hnext, rfl⟩ := hk
    simp only [hh', hl', hh, hl]
    rw [gridUpTo_append (Nat.le_of_lt hml), List.map_append]
    have hold : ((gridUpTo m0.time.toNat dt.toNat l.time.toNat).map fun g => (g, (latestAt (h ++ [m]) g).map (·.value))) =
        (gridUpTo m0.time.toNat dt.toNat l.time.toNat).map fun g => (g, (latestAt h g).map (·.value)) := by
      apply List.map_congr_left
      intro g hg
      obtain ⟨k, _, _, hle⟩ := (mem_gridUpTo hdt).1 hg
      rw [latestAt_snoc_lt (by omega)]
    rw [hold]
    generalize hD : dt.toNat = D at *
    generalize hT : m.time.toNat = T at *
    generalize hL : l.time.toNat = L at *
    generalize hT0 : m0.time.toNat = T0 at *
    have hq : (L - T0) / D * D ≤ L - T0 := Nat.div_mul_le_self _ _
    have hq2 : L - T0 < ((L - T0) / D + 1) * D := by
      have := Nat.lt_div_mul_add (a := L - T0) hdt; rw [Nat.add_mul, Nat.one_mul]; exact this
    have hq' : (T - T0) / D * D ≤ T - T0 := Nat.div_mul_le_self _ _
    have hq2' : T - T0 < ((T - T0) / D + 1) * D := by
      have := Nat.lt_div_mul_add (a := T - T0) hdt; rw [Nat.add_mul, Nat.one_mul]; exact this
    have hqq : (L - T0) / D ≤ (T - T0) / D := Nat.div_le_div_right (by omega)
    generalize hQ : (L - T0) / D = q at *
    generalize hQ' : (T - T0) / D = q' at *
    -- number of grid points strictly before `T`
    by_cases hon : T0 + q' * D = T
    · -- the message is on the grid
      have hlt : q < q' := by
        by_contra hc
        have : q = q' := by omega
        subst this; omega
      obtain ⟨r, rfl⟩ : ∃ r, q' = q + 1 + r := ⟨q' - q - 1, by omega⟩
      have e1 : (q + 1) * D + r * D = (q + 1 + r) * D := by rw [← Nat.add_mul]
      have hr64 : r < 2 ^ 64 := by
        have : r * 1 ≤ r * D := Nat.mul_le_mul_left r hdt
        omega
      obtain ⟨ms, next', h1, h2, h3⟩ := loop dt m.time l.value r (2 ^ 64) (T0 + (q + 1) * D) next hnext
        hr64 (by rw [hD]; omega) (by
          intro k hk; rw [hD, hT]
          have := Nat.mul_lt_mul_of_pos_right hk hdt
          omega) (by rw [hD, hT]; omega)
      have hnt : next' = m.time := UInt64.toNat_inj.1 (by rw [h2, hT, hD]; omega)
      refine ⟨[(o1, ms ++ [⟨m.time, m.value⟩])], .constRes dt (next' + dt) true m.value, ?_, ⟨_, ?_, rfl⟩, ?_⟩
      · simp only [Op.process, procConstRes, procLast_one, if_true, h1]
        simp only [bind_ok]
        rw [if_pos hnt]
        simp
      · rw [hnt, UInt64.toNat_add, hT, hD, Nat.mod_eq_of_lt hov, Nat.succ_mul]; omega
      · congr 1
        have : q + 1 + r - q = r + 1 := by omega
        rw [this, List.range_succ]
        have hmsg : msgsOn o1 [(o1, ms ++ [⟨m.time, m.value⟩])] = ms ++ [⟨m.time, m.value⟩] := by simp [msgsOn]
        rw [hmsg, List.map_append, List.map_append, List.map_append]
        congr 1
        · have h3' := congrArg (List.map fun x : Nat × V => (x.1, some x.2)) h3
          rw [List.map_map, List.map_map] at h3'
          simp only [Function.comp_def] at h3'
          rw [h3', List.map_map]
          apply List.map_congr_left
          intro k hk
          have hk' := List.mem_range.1 hk
          have := Nat.mul_lt_mul_of_pos_right hk' hdt
          have e2 : T0 + (q + k + 1) * D = T0 + (q + 1) * D + k * D := by ring
          simp only [Function.comp_def]
          rw [latestAt_snoc_lt (by omega), latestAt_after hinc hl (by omega), hD]
          simp only [Option.map_some]
          rw [e2]
        · simp only [List.map_cons, List.map_nil]
          have e3 : T0 + (q + r + 1) * D = T := by rw [← hon]; congr 2; omega
          rw [e3, latestAt_snoc_ge (by omega), hT]
          rfl
    · -- the message is off the grid
      obtain ⟨r, rfl⟩ : ∃ r, q' = q + r := ⟨q' - q, by omega⟩
      have e1 : (q + 1) * D + r * D = (q + r + 1) * D := by rw [← Nat.add_mul]; congr 1; omega
      have e2 : (q + r + 1) * D = (q + r) * D + D := by rw [Nat.succ_mul]
      have hr64 : r < 2 ^ 64 := by
        have : r * 1 ≤ r * D := Nat.mul_le_mul_left r hdt
        omega
      obtain ⟨ms, next', h1, h2, h3⟩ := loop dt m.time l.value r (2 ^ 64) (T0 + (q + 1) * D) next hnext
        hr64 (by rw [hD]; omega) (by
          intro k hk; rw [hD, hT]
          have h5 := Nat.mul_le_mul_right D (Nat.succ_le_of_lt hk)
          rw [Nat.succ_mul] at h5
          omega) (by rw [hD, hT]; omega)
      have hnt : next' ≠ m.time := by
        intro hx
        have h9 := congrArg UInt64.toNat hx
        rw [h2, hT, hD] at h9
        omega
      refine ⟨if ms = [] then [] else [(o1, ms)], .constRes dt next' true m.value, ?_, ⟨_, ?_, rfl⟩, ?_⟩
      · simp only [Op.process, procConstRes, procLast_one, if_true, h1]
        simp only [bind_ok]
        rw [if_neg hnt]
      · rw [h2, hD]; omega
      · congr 1
        have : q + r - q = r := by omega
        rw [this]
        have hmsg : msgsOn o1 (if ms = [] then [] else [(o1, ms)]) = ms := by
          split <;> simp_all [msgsOn]
        rw [hmsg]
        have h3' := congrArg (List.map fun x : Nat × V => (x.1, some x.2)) h3
        rw [List.map_map, List.map_map] at h3'
        simp only [Function.comp_def] at h3'
        rw [h3', List.map_map]
        apply List.map_congr_left
        intro k hk
        have hk' := List.mem_range.1 hk
        have h5 := Nat.mul_le_mul_right D (Nat.succ_le_of_lt hk')
        rw [Nat.succ_mul] at h5
        have e2 : T0 + (q + k + 1) * D = T0 + (q + 1) * D + k * D := by ring
        simp only [Function.comp_def]
        rw [latestAt_snoc_lt (by omega), latestAt_after hinc hl (by omega), hD]
        simp only [Option.map_some]
        rw [e2]

theorem pre_init {dt : UInt64} (h : List (Msg V)) (m : Msg V) (hp : Pre dt (h ++ [m])) : Pre dt h :=
  ⟨Increasing.init hp.1, fun x hx => hp.2 x (by simp [hx])⟩

end ConstRes
end Rtbot
