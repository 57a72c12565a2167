import Verif.Lemmas.GridLoop

/-! # CosineResampler -/

set_option linter.unusedSectionVars false

namespace Rtbot
open Spec
variable {V : Type} [Num V]

theorem latestBefore_snoc_le {h : List (Msg V)} {m : Msg V} {g : Nat} (hg : g ≤ m.time.toNat) :
    latestBefore (h ++ [m]) g = latestBefore h g := by
  unfold latestBefore
  rw [List.filter_append]
  simp [Nat.not_lt.2 hg]

theorem latestBefore_after {h : List (Msg V)} (hi : Increasing h) {l : Msg V} (hl : h.getLast? = some l) {g : Nat}
    (hg : l.time.toNat < g) : latestBefore h g = some l := by
  unfold latestBefore
  rw [List.filter_eq_self.2, hl]
  intro x hx
  have := ConstRes.le_last hi hl x hx
  simp; omega

theorem firstFrom_append_left {h t : List (Msg V)} {g : Nat} {x : Msg V} (hx : x ∈ h) (hg : g ≤ x.time.toNat) :
    firstFrom (h ++ t) g = firstFrom h g := by
  unfold firstFrom
  rw [List.filter_append, List.head?_append]
  cases hf : (h.filter fun m => g ≤ m.time.toNat).head? with
  | some y => rfl
  | none =>
    rw [List.head?_eq_none_iff, List.filter_eq_nil_iff] at hf
    exact absurd (by simpa using hg) (hf x hx)

theorem firstFrom_snoc_after {h : List (Msg V)} (hi : Increasing h) {l m : Msg V} (hl : h.getLast? = some l) {g : Nat}
    (hg : l.time.toNat < g) (hg' : g ≤ m.time.toNat) : firstFrom (h ++ [m]) g = some m := by
  unfold firstFrom
  rw [List.filter_append]
  have : h.filter (fun m => g ≤ m.time.toNat) = [] := by
    rw [List.filter_eq_nil_iff]
    intro x hx
    have := ConstRes.le_last hi hl x hx
    simp; omega
  rw [this]
  simp [hg']

namespace CosRes

/-- The messages that are due. -/
def due (dt : Nat) (h : List (Msg V)) : List (Nat × Option V) :=
  match h.head?, h.getLast? with
  | some m0, some l => (gridUpTo m0.time.toNat dt l.time.toNat).map fun g => (g, cosineAt h g)
  | _, _ => []

/-- State after a history. -/
def KI (dt : UInt64) (h : List (Msg V)) (k : Kind V) : Prop :=
  ∃ carry : UInt64, k = .cosRes dt carry ∧
    match h.head?, h.getLast? with
    | some m0, some l => carry.toNat = (l.time.toNat - m0.time.toNat) % dt.toNat
    | _, _ => carry = 0

theorem step_due {dt : UInt64} (hdt : 0 < dt.toNat) {c : Core V} {h : List (Msg V)} {m : Msg V} {k : Kind V} {s : V}
    (hp : GridPre dt (h ++ [m])) (hk : KI dt h k) (hlen : 2 ≤ h.length + 1) :
    ∃ out k', Op.process ⟨runCore c 2 s (lastN 2 (h ++ [m])), k⟩ = .ok (out, k') ∧ KI dt (h ++ [m]) k' ∧
      due dt.toNat (h ++ [m]) = due dt.toNat h ++ (msgsOn o1 out).map fun x => (x.time.toNat, some x.value) := by
  obtain ⟨carry, rfl, hk⟩ := hk
  have hne : h ≠ [] := by rintro rfl; simp at hlen
  obtain ⟨m0, hh⟩ : ∃ m0, h.head? = some m0 := ⟨_, List.head?_eq_some_head hne⟩
  obtain ⟨l, hl⟩ : ∃ l, h.getLast? = some l := ⟨_, List.getLast?_eq_some_getLast hne⟩
  rw [hh, hl] at hk
  have hinc := Increasing.init hp.inc
  have hml := Increasing.lt_last hp.inc l (List.mem_of_getLast? hl)
  have h0l := ConstRes.head_le hinc hh hl
  have hh' : (h ++ [m]).head? = some m0 := by rw [List.head?_append, hh]; rfl
  have hl' : (h ++ [m]).getLast? = some m := by simp
  have hov := hp.ov m (by simp)
  have hgap : m.time.toNat - l.time.toNat < (2 ^ 31 - 3) * dt.toNat :=
    (List.isChain_append.1 hp.gap).2.2 l (by simp [hl]) m (by simp)
  obtain ⟨offs, j, h1, h2, h3, h4⟩ := interval hdt h0l hml hov hgap hk
  have hw : lastN 2 (h ++ [m]) = [l, m] := by
    rw [lastN_snoc (by decide)]
    rcases List.eq_nil_or_concat h with rfl | ⟨t, b, rfl⟩
    · exact absurd rfl hne
    · rw [List.concat_eq_append] at *
      rw [List.getLast?_append] at hl; simp at hl; subst hl
      rw [lastN_snoc (by decide)]
      simp [lastN]
  have hd : (m.time - l.time).toNat = m.time.toNat - l.time.toNat := by
    rw [UInt64.toNat_sub]; have := m.time.toNat_lt; have := l.time.toNat_lt; omega
  let ms : List (Msg V) := offs.map fun off =>
    ⟨l.time + off, cosineInterpolate l.value m.value (ofTime off /. ofTime (m.time - l.time))⟩
  refine ⟨if ms = [] then [] else [(o1, ms)], .cosRes dt (newCarry l.time m.time dt carry j), ?_, ?_, ?_⟩
  · rw [hw]
    simp only [Op.process, procCosRes, solePort_run, bind_ok]
    rw [dataMsg_run _ _ _ _ 1 m rfl, dataMsg_run _ _ _ _ 0 l rfl]
    simp only [bind_ok, h1]
    rfl
  · refine ⟨_, rfl, ?_⟩
    rw [hh', hl']
    exact h2
  · have hmsg : msgsOn o1 (if ms = [] then [] else [(o1, ms)]) = ms := by
      split <;> simp_all [msgsOn]
    rw [hmsg]
    unfold due
    simp only [hh', hl', hh, hl]
    rw [h4, List.map_append]
    congr 1
    · apply List.map_congr_left
      intro g hg
      obtain ⟨k, _, _, hle⟩ := (mem_gridUpTo hdt).1 hg
      unfold cosineAt
      rw [latestBefore_snoc_le (by omega), firstFrom_append_left (List.mem_of_getLast? hl) hle]
    · rw [List.map_map, List.map_map]
      apply List.map_congr_left
      intro off ho
      obtain ⟨hpos, hle⟩ := h3 off ho
      have hadd : (l.time + off).toNat = l.time.toNat + off.toNat := by
        rw [UInt64.toNat_add, Nat.mod_eq_of_lt]; have := m.time.toNat_lt; omega
      simp only [Function.comp_def, hadd]
      unfold cosineAt
      rw [latestBefore_snoc_le (by omega), latestBefore_after hinc hl (by omega), firstFrom_snoc_after hinc hl (by omega) (by omega)]
      simp only [cosineBetween, cosineInterpolate, ofTime, hd, Nat.add_sub_cancel_left]

end CosRes
end Rtbot
