import Verif.Lemmas.OrderConsume

/-! # Operators emit in the order of time: resamplers, TimeShift and AutoRegressive -/

set_option linter.unusedSectionVars false

namespace Rtbot
open Spec
variable {V : Type} [Num V]

namespace Order
open Times

/-! ## The loop of the interpolating resamplers -/

theorem off_toNat {dt carry : UInt64} {j : Nat} (h1 : carry.toNat ≤ j * dt.toNat) (h2 : j * dt.toNat - carry.toNat < 2 ^ 64) :
    (UInt64.ofNat j * dt - carry).toNat = j * dt.toNat - carry.toNat := by
  rw [UInt64.toNat_sub, UInt64.toNat_mul, UInt64.toNat_ofNat', Nat.mod_mul_mod]
  have hc := carry.toNat_lt
  generalize hx : j * dt.toNat = X at *
  generalize carry.toNat = C at *
  omega

theorem gridLoop_grid {d dt carry : UInt64} (hC : carry.toNat < dt.toNat) (hd : d.toNat + dt.toNat < 2 ^ 64) :
    ∀ (fuel j : Nat) {offs : List UInt64} {j' : Nat}, 1 ≤ j → (j - 1) * dt.toNat ≤ d.toNat + carry.toNat → gridLoop d dt carry fuel j = .ok (offs, j') →
      j ≤ j' ∧ (j' - 1) * dt.toNat ≤ d.toNat + carry.toNat ∧ d.toNat + carry.toNat < j' * dt.toNat ∧
      offs.map UInt64.toNat = (List.range (j' - j)).map fun i => (j + i) * dt.toNat - carry.toNat := by
  have step : ∀ j, 1 ≤ j → (j - 1) * dt.toNat ≤ d.toNat + carry.toNat → (UInt64.ofNat j * dt - carry).toNat = j * dt.toNat - carry.toNat ∧ dt.toNat ≤ j * dt.toNat := by
    intro j hj h
    have h1 : 1 * dt.toNat ≤ j * dt.toNat := Nat.mul_le_mul_right _ hj
    have h2 : j * dt.toNat = (j - 1) * dt.toNat + dt.toNat := by
      obtain ⟨k, rfl⟩ := Nat.exists_eq_add_of_le hj
      rw [Nat.add_sub_cancel_left, Nat.add_mul, Nat.one_mul, Nat.add_comm]
    exact ⟨off_toNat (by omega) (by omega), by omega⟩
  intro fuel
  induction fuel with
  | zero =>
    intro j offs j' hj h hg
    obtain ⟨h1, h2⟩ := step j hj h
    unfold gridLoop at hg
    dsimp only at hg
    split at hg
    · cases hg
    · next hlt =>
      cases hg
      rw [ge_iff_le, UInt64.le_iff_toNat_le, h1] at hlt
      exact ⟨Nat.le_refl _, h, by omega, by simp⟩
  | succ f ih =>
    intro j offs j' hj h hg
    obtain ⟨h1, h2⟩ := step j hj h
    unfold gridLoop at hg
    dsimp only at hg
    split at hg
    · next hle =>
      rw [ge_iff_le, UInt64.le_iff_toNat_le, h1] at hle
      obtain ⟨⟨offs', j''⟩, hg', he⟩ := bind_eq_ok.1 hg
      cases he
      obtain ⟨h3, h4, h5, h6⟩ := ih (j + 1) (by omega) (by rw [Nat.add_sub_cancel]; omega) hg'
      refine ⟨by omega, h4, h5, ?_⟩
      rw [List.map_cons, h6, h1, show j'' - j = (j'' - (j + 1)) + 1 by omega, List.range_succ_eq_map, List.map_cons, List.map_map]
      congr 1
      apply List.map_congr_left
      intro i _
      simp only [Function.comp_def, Nat.succ_eq_add_one]
      rw [show j + 1 + i = j + (i + 1) by omega]
    · next hlt =>
      cases hg
      rw [ge_iff_le, UInt64.le_iff_toNat_le, h1] at hlt
      exact ⟨Nat.le_refl _, h, by omega, by simp⟩

/-- With the interval 0 the loop does not end. -/
theorem gridLoop_zero {d : UInt64} : ∀ (fuel j : Nat), ∀ r, gridLoop d 0 0 fuel j ≠ .ok r := by
  intro fuel
  induction fuel with
  | zero =>
    intro j r h
    unfold gridLoop at h
    simp at h
    cases h
  | succ f ih =>
    intro j r h
    unfold gridLoop at h
    simp only [UInt64.mul_zero, UInt64.sub_self, ge_iff_le, UInt64.zero_le, if_true] at h
    obtain ⟨⟨offs', j''⟩, hg', he⟩ := bind_eq_ok.1 h
    exact ih _ _ hg'

/-- One interval `(a, b]`: increasing times in it, and what is carried over to the next one is below the distance. -/
theorem interval_inc {a b dt carry : UInt64} (hC : carry < dt) (hab : a < b) (hov : b.toNat + dt.toNat < 2 ^ 64) {offs : List UInt64} {j : Nat}
    (hg : gridLoop (b - a) dt carry intFuel 1 = .ok (offs, j)) :
    (offs.map fun off => a + off).Pairwise (· < ·) ∧ (∀ off ∈ offs, a < a + off ∧ a + off ≤ b) ∧ newCarry a b dt carry j < dt ∧
      (carry = 0 → a.toNat + dt.toNat ≤ b.toNat → offs ≠ []) := by
  rw [UInt64.lt_iff_toNat_lt] at hC hab
  have hd : (b - a).toNat = b.toNat - a.toNat := by
    rw [UInt64.toNat_sub]
    have := a.toNat_lt
    have := b.toNat_lt
    omega
  obtain ⟨h1, h2, h3, h4⟩ := gridLoop_grid hC (by rw [hd]; omega) intFuel 1 (Nat.le_refl _) (by simp) hg
  have hb := b.toNat_lt
  have ha := a.toNat_lt
  have hoff : ∀ off ∈ offs, 0 < off.toNat ∧ off.toNat ≤ b.toNat - a.toNat := by
    intro off ho
    have hle := gridLoop_le _ _ hg off ho
    rw [UInt64.le_iff_toNat_le, hd] at hle
    have : off.toNat ∈ offs.map UInt64.toNat := List.mem_map_of_mem ho
    rw [h4] at this
    obtain ⟨i, hi, he⟩ := List.mem_map.1 this
    have h5 : 1 * dt.toNat ≤ (1 + i) * dt.toNat := Nat.mul_le_mul_right _ (by omega)
    omega
  have hadd : ∀ off ∈ offs, (a + off).toNat = a.toNat + off.toNat := by
    intro off ho
    obtain ⟨h5, h6⟩ := hoff off ho
    rw [UInt64.toNat_add, Nat.mod_eq_of_lt (by omega)]
  refine ⟨?_, ?_, ?_, ?_⟩
  · rw [List.pairwise_map]
    have hp : (offs.map UInt64.toNat).Pairwise (· < ·) := by
      rw [h4, List.pairwise_map]
      refine List.Pairwise.imp ?_ List.pairwise_lt_range
      intro i k hik
      have h5 : (1 + i) * dt.toNat + dt.toNat ≤ (1 + k) * dt.toNat := by
        rw [← Nat.succ_mul]
        exact Nat.mul_le_mul_right _ (by omega)
      have h6 : 1 * dt.toNat ≤ (1 + i) * dt.toNat := Nat.mul_le_mul_right _ (by omega)
      omega
    rw [List.pairwise_map] at hp
    refine List.Pairwise.imp_of_mem ?_ hp
    intro x y hx hy hxy
    rw [UInt64.lt_iff_toNat_lt, hadd x hx, hadd y hy]
    omega
  · intro off ho
    obtain ⟨h5, h6⟩ := hoff off ho
    rw [UInt64.lt_iff_toNat_lt, UInt64.le_iff_toNat_le, hadd off ho]
    omega
  · unfold newCarry
    rw [UInt64.lt_iff_toNat_lt, UInt64.toNat_sub, UInt64.toNat_add, UInt64.toNat_sub, UInt64.toNat_mul, UInt64.toNat_ofNat', Nat.mod_mul_mod]
    have h5 : j * dt.toNat = (j - 1) * dt.toNat + dt.toNat := by
      obtain ⟨k, rfl⟩ := Nat.exists_eq_add_of_le h1
      rw [Nat.add_sub_cancel_left, Nat.add_mul, Nat.one_mul, Nat.add_comm]
    have hc := carry.toNat_lt
    rw [hd] at h2 h3
    generalize (j - 1) * dt.toNat = X at *
    omega
  · intro hc hgap hnil
    rw [hnil] at h4
    have h5 := congrArg List.length h4
    simp only [List.map_nil, List.length_nil, List.length_map, List.length_range] at h5
    have h6 : j = 1 := by omega
    rw [h6, hc, hd] at h3
    simp at h3
    omega

/-! ## CosineResampler -/

theorem cosRes_run {o : Op V} (hb : Built o) {dt : UInt64} (hk : o.kind = .cosRes dt 0) (ho : o.core.dataIn = [(i1, Inp.new i1 2)]) (as : List (Act V))
    (hinc : Increasing (addressed true i1 as)) (hov : ∀ x ∈ addressed true i1 as, x.time.toNat + dt.toNat < 2 ^ 64) : ∀ q, Increasing (sent q (results o as)) := by
  have hS : (o.core.dataIn.length == 1) = true := by rw [ho]; rfl
  have hone : ∀ p' i, o.core.dataIn.find? p' = some i → p' = i1 := fun p' i h => (find_one (by rw [← ho]; exact h)).1
  refine window_run hb (by rw [hk]; rfl) (link := fun p' q => p' = i1 ∧ q = o1) (fun a b q h1 h2 => h1.1.trans h2.1.symm)
    (off := fun _ => 1) (f := id) (K := fun k _ => ∃ carry, k = .cosRes dt carry ∧ (carry < dt ∨ dt = 0 ∧ carry = 0)) as ?_ ?_ (fun _ _ _ _ _ _ _ h => h) ?_ ?_
  · rintro p' q ⟨rfl, _⟩
    exact ⟨_, by rw [ho, Map.find?_cons, if_pos rfl]⟩
  · intro p' i hi
    rw [hone p' i hi, hS]
    exact hinc
  · refine ⟨0, hk, ?_⟩
    by_cases h : dt = 0
    · exact Or.inr ⟨h, rfl⟩
    · exact Or.inl (UInt64.pos_iff_ne_zero.2 h)
  · intro c k E r hc hK hinf hne hfull hr
    obtain ⟨carry, rfl, hcar⟩ := hK
    obtain ⟨i, hd, hfind, hlen, hmem, hsole⟩ := sole_window ho hc hne hfull
    have hin := hinf i1 i hfind
    rw [hS] at hin
    have hne' : i.data ≠ [] := by intro h; rw [h] at hlen; cases hlen
    obtain ⟨p, hp, hr⟩ := bind_eq_ok.1 hr
    rw [hsole] at hp
    cases hp
    obtain ⟨b, hbm, hr⟩ := bind_eq_ok.1 hr
    obtain ⟨a, ham, hr⟩ := bind_eq_ok.1 hr
    obtain ⟨⟨offs, j⟩, hg, hr⟩ := bind_eq_ok.1 hr
    cases hr
    have hb1 := dataMsg_eq hfind hne' hbm
    have ha1 := dataMsg_eq hfind hne' ham
    have hab := inc_get (inc_infix hinc hin) ha1 hb1 (by omega)
    rcases hcar with hcar | ⟨rfl, rfl⟩
    · obtain ⟨h1, h2, h3, _⟩ := interval_inc hcar hab (hov b (hin.subset (List.mem_of_getElem? hb1))) hg
      refine ⟨⟨_, rfl, Or.inl h3⟩, fun q => ?_⟩
      dsimp only
      rw [msgsOn_o1]
      split
      · next hq =>
        right
        refine ⟨i1, i, b, ⟨rfl, hq⟩, hmem, hfind, hb1, ?_, ?_⟩
        · rw [inc_times, List.map_map]
          exact h1
        · intro x hx
          obtain ⟨off, hoff, rfl⟩ := List.mem_map.1 hx
          refine ⟨(h2 off hoff).2, fun e _ _ he => ?_⟩
          exact UInt64.lt_of_le_of_lt (he a (Nat.le_refl _) ha1) (h2 off hoff).1
      · exact Or.inl rfl
    · exact absurd hg (gridLoop_zero _ _ _)

/-! ## HermiteResampler -/

theorem lookAt_inc {c : Core V} {i : Inp V} (hfind : c.dataIn.find? i1 = some i) (hne : i.data ≠ []) (hinc : Increasing i.data) {frm : Nat} {dt carry : UInt64}
    (hcar : carry < dt) (hov : ∀ x ∈ i.data, x.time.toNat + dt.toNat < 2 ^ 64) {before : Option (Msg V)} {r : List (Msg V) × UInt64 × Option (Msg V)}
    (hr : lookAt c i1 frm dt carry before = .ok r) :
    ∃ a b, i.data[frm]? = some a ∧ i.data[frm + 1]? = some b ∧ Increasing r.1 ∧ (∀ m ∈ r.1, a.time < m.time ∧ m.time ≤ b.time) ∧ r.2.1 < dt ∧
      (before.isSome = true ∨ frm ≠ 0 → r.2.2 = before) ∧ (frm = 0 → carry = 0 → a.time.toNat + dt.toNat ≤ b.time.toNat → r.2.2.isSome = true) := by
  obtain ⟨a, b, offs, j, ha, hb, hg, hms, hca, hb1, hb2, hb3, hb4⟩ := lookAt_shape hfind hne hr
  have hab := inc_get hinc ha hb (by omega)
  obtain ⟨h1, h2, h3, h4⟩ := interval_inc hcar hab (hov b (List.mem_of_getElem? hb)) hg
  refine ⟨a, b, ha, hb, ?_, ?_, by rw [hca]; exact h3, ?_, ?_⟩
  · rw [inc_times, hms]; exact h1
  · intro m hm
    have : m.time ∈ r.1.map Msg.time := List.mem_map_of_mem hm
    rw [hms] at this
    obtain ⟨off, hoff, he⟩ := List.mem_map.1 this
    rw [← he]
    exact h2 off hoff
  · rintro (h | h)
    · exact hb2 h
    · exact hb4 h
  · intro hf hc hgap
    exact hb3 (h4 hc hgap) hf

theorem lookAt_zero {c : Core V} {i : Inp V} (hfind : c.dataIn.find? i1 = some i) (hne : i.data ≠ []) {frm : Nat}
    {before : Option (Msg V)} {r : List (Msg V) × UInt64 × Option (Msg V)} (hr : lookAt c i1 frm 0 0 before = .ok r) : False := by
  obtain ⟨a, b, offs, j, ha, hb, hg, _⟩ := lookAt_shape hfind hne hr
  exact gridLoop_zero _ _ _ hg

theorem hermRes_run {o : Op V} (hb : Built o) {dt : UInt64} (hk : o.kind = .hermRes dt 0 none) (ho : o.core.dataIn = [(i1, Inp.new i1 4)]) (as : List (Act V))
    (hinc : Increasing (addressed true i1 as)) (hov : ∀ x ∈ addressed true i1 as, x.time.toNat + dt.toNat < 2 ^ 64)
    (hgap : ∀ pre a b post, addressed true i1 as = pre ++ a :: b :: post → a.time.toNat + dt.toNat ≤ b.time.toNat) : ∀ q, Increasing (sent q (results o as)) := by
  have hS : (o.core.dataIn.length == 1) = true := by rw [ho]; rfl
  have hone : ∀ p' i, o.core.dataIn.find? p' = some i → p' = i1 := fun p' i h => (find_one (by rw [← ho]; exact h)).1
  refine window_run hb (by rw [hk]; rfl) (link := fun p' q => p' = i1 ∧ q = o1) (fun a b q h1 h2 => h1.1.trans h2.1.symm)
    (off := fun _ => 2) (f := id)
    (K := fun k E => ∃ carry before, k = .hermRes dt carry before ∧ (carry < dt ∨ dt = 0 ∧ carry = 0) ∧ (before = none → carry = 0 ∧ E o1 = []))
    as ?_ ?_ (fun _ _ _ _ _ _ _ h => h) ?_ ?_
  · rintro p' q ⟨rfl, _⟩
    exact ⟨_, by rw [ho, Map.find?_cons, if_pos rfl]⟩
  · intro p' i hi
    rw [hone p' i hi, hS]
    exact hinc
  · refine ⟨0, none, hk, ?_, fun _ => ⟨rfl, rfl⟩⟩
    by_cases h : dt = 0
    · exact Or.inr ⟨h, rfl⟩
    · exact Or.inl (UInt64.pos_iff_ne_zero.2 h)
  · intro c k E r hc hK hinf hne hfull hr
    obtain ⟨carry, before, rfl, hcar, hnone⟩ := hK
    obtain ⟨i, hd, hfind, hlen, hmem, hsole⟩ := sole_window ho hc hne hfull
    have hin := hinf i1 i hfind
    rw [hS] at hin
    have hne' : i.data ≠ [] := by intro h; rw [h] at hlen; cases hlen
    have hid := inc_infix hinc hin
    have hov' : ∀ x ∈ i.data, x.time.toNat + dt.toNat < 2 ^ 64 := fun x hx => hov x (hin.subset hx)
    simp only [Op.process, procHermRes] at hr
    obtain ⟨p, hp, hr⟩ := bind_eq_ok.1 hr
    rw [hsole] at hp
    cases hp
    cases before with
    | none =>
      obtain ⟨rfl, hE⟩ := hnone rfl
      obtain ⟨⟨ms1, c1, b1⟩, h1, hr⟩ := bind_eq_ok.1 hr
      obtain ⟨⟨ms2, c2, b2⟩, h2, hr⟩ := bind_eq_ok.1 hr
      obtain ⟨⟨ms, c', b'⟩, hx, hr⟩ := bind_eq_ok.1 hr
      cases hx
      cases hr
      rcases hcar with hcar | ⟨rfl, _⟩
      · obtain ⟨x0, x1, hx0, hx1, hi1, hm1, hc1, _, hs1⟩ := lookAt_inc hfind hne' hid hcar hov' h1
        obtain ⟨y1, y2, hy1, hy2, hi2, hm2, hc2, hs2, _⟩ := lookAt_inc hfind hne' hid hc1 hov' h2
        have hxy : x1 = y1 := by
          have := hx1.symm.trans hy1
          exact Option.some.inj this
        subst hxy
        have hg : x0.time.toNat + dt.toNat ≤ x1.time.toNat := by
          obtain ⟨u, v, huv⟩ := hin
          match hdata : i.data, hlen with
          | [d0, d1, d2, d3], _ =>
            rw [hdata] at huv hx0 hx1
            simp at hx0 hx1
            subst hx0
            subst hx1
            exact hgap u d0 d1 (d2 :: d3 :: v) (by rw [← huv]; simp)
        have hb1 := hs1 rfl rfl hg
        dsimp only at hb1 hs2 hc2 hi1 hi2 hm1 hm2
        have hb2 : b2 = b1 := hs2 (Or.inl hb1)
        refine ⟨⟨c2, b2, rfl, Or.inl hc2, fun h => ?_⟩, fun q => ?_⟩
        · rw [h] at hb2
          rw [← hb2] at hb1
          cases hb1
        · dsimp only
          rw [msgsOn_o1]
          split
          · next hq =>
            right
            refine ⟨i1, i, y2, ⟨rfl, hq⟩, hmem, hfind, hy2, inc_join hi1 hi2 fun x hx y hy => ?_, ?_⟩
            · exact UInt64.lt_of_le_of_lt (hm1 x hx).2 (hm2 y hy).1
            · intro x hx
              refine ⟨?_, fun e he _ _ => by rw [hq, hE] at he; cases he⟩
              rcases List.mem_append.1 hx with hx | hx
              · have := inc_get hid hx1 hy2 (by omega)
                exact UInt64.le_of_lt (UInt64.lt_of_le_of_lt (hm1 x hx).2 this)
              · exact (hm2 x hx).2
          · exact Or.inl rfl
      · exact (lookAt_zero hfind hne' h1).elim
    | some z =>
      obtain ⟨⟨ms, c', b'⟩, hx, hr⟩ := bind_eq_ok.1 hr
      cases hr
      rcases hcar with hcar | ⟨rfl, rfl⟩
      · obtain ⟨y1, y2, hy1, hy2, hi2, hm2, hc2, hs2, _⟩ := lookAt_inc hfind hne' hid hcar hov' hx
        dsimp only at hs2 hc2 hi2 hm2
        have hb2 : b' = some z := hs2 (Or.inl rfl)
        refine ⟨⟨c', b', rfl, Or.inl hc2, fun h => by rw [h] at hb2; cases hb2⟩, fun q => ?_⟩
        dsimp only
        rw [msgsOn_o1]
        split
        · next hq =>
          right
          refine ⟨i1, i, y2, ⟨rfl, hq⟩, hmem, hfind, hy2, hi2, ?_⟩
          intro x hx
          exact ⟨(hm2 x hx).2, fun e _ _ he => UInt64.lt_of_le_of_lt (he y1 (Nat.le_succ _) hy1) (hm2 x hx).1⟩
        · exact Or.inl rfl
      · exact (lookAt_zero hfind hne' hx).elim

/-! ## ConstantResampler -/

theorem constLoop_inc {dt t : UInt64} {v : V} (hdt : 0 < dt) (hov : t.toNat + dt.toNat < 2 ^ 64) : ∀ (fuel : Nat) {next : UInt64} {ms : List (Msg V)} {next' : UInt64},
    constLoop dt t v fuel next = .ok (ms, next') → Increasing ms ∧ next ≤ next' ∧ t ≤ next' ∧ ∀ m ∈ ms, next ≤ m.time ∧ m.time < next' ∧ m.time < t := by
  intro fuel
  induction fuel with
  | zero => intro next ms next' h; cases h
  | succ f ih =>
    intro next ms next' h
    unfold constLoop at h
    split at h
    · next hlt =>
      obtain ⟨⟨ms1, n1⟩, h1, h2⟩ := bind_eq_ok.1 h
      cases h2
      obtain ⟨h3, h4, h5, h6⟩ := ih h1
      have hnext : next < next + dt := by
        rw [UInt64.lt_iff_toNat_lt] at *
        rw [UInt64.toNat_add, Nat.mod_eq_of_lt (by omega)]
        have : (0 : UInt64).toNat = 0 := rfl
        omega
      refine ⟨List.pairwise_cons.2 ⟨fun m hm => UInt64.lt_of_lt_of_le hnext (h6 m hm).1, h3⟩, UInt64.le_trans (UInt64.le_of_lt hnext) h4, h5, ?_⟩
      intro m hm
      rcases List.mem_cons.1 hm with rfl | hm
      · exact ⟨UInt64.le_refl _, UInt64.lt_of_lt_of_le hnext h4, hlt⟩
      · exact ⟨UInt64.le_trans (UInt64.le_of_lt hnext) (h6 m hm).1, (h6 m hm).2⟩
    · next hge =>
      cases h
      exact ⟨inc_nil, UInt64.le_refl _, UInt64.not_lt.1 hge, fun m hm => by cases hm⟩

theorem constRes_run {o : Op V} (hb : Built o) {dt next0 : UInt64} {v0 : V} (hk : o.kind = .constRes dt next0 false v0) (hdt : 0 < dt) (ho : o.core.dataIn = [(i1, Inp.new i1 1)])
    (as : List (Act V)) (hov : ∀ x ∈ addressed true i1 as, x.time.toNat + dt.toNat < 2 ^ 64) : ∀ q, Increasing (sent q (results o as)) := by
  have hS : (o.core.dataIn.length == 1) = true := by rw [ho]; rfl
  have main := base_run hb (by rw [hk]; rfl)
    (K := fun k E => ∃ next ini v, k = .constRes dt next ini v ∧ (ini = true → ∀ e ∈ E o1, e.time < next) ∧ (ini = false → E o1 = []) ∧ Increasing (E o1) ∧
      ∀ q, q ≠ o1 → E q = []) as ⟨next0, false, v0, hk, fun h => (by cases h), fun _ => rfl, inc_nil, fun q _ => rfl⟩ ?_
  · obtain ⟨_, _, _, _, _, _, h1, h2⟩ := main
    intro q
    by_cases hq : q = o1
    · rw [hq]; exact h1
    · have := h2 q hq; dsimp only at this; rw [this]; exact inc_nil
  · intro c k E r hc hK hinf hne hfull hr
    obtain ⟨next, ini, v, rfl, hE1, hE2, hE3, hE4⟩ := hK
    obtain ⟨i, hd, hfind, hlen, hmem, hsole⟩ := sole_window ho hc hne hfull
    have hin := hinf i1 i hfind
    rw [hS] at hin
    obtain ⟨p', i', l, hd', hp', hl, hr⟩ := procLast_eq (filled_full hne hfull) hr
    rw [hd] at hd'
    cases hd'
    have hovl := hov l (hin.subset (List.mem_of_getLast? hl))
    have hother : ∀ (ms : List (Msg V)) q, q ≠ o1 → E q ++ msgsOn q (if ms = [] then [] else [(o1, ms)]) = [] := by
      intro ms q hq
      rw [hE4 q hq, msgsOn_o1, if_neg hq]
      rfl
    cases ini with
    | false =>
      simp only [Bool.false_eq_true, if_false] at hr
      cases hr
      refine ⟨l.time + dt, true, l.value, rfl, fun _ e he => ?_, fun h => (by cases h), ?_, fun q hq => ?_⟩
      · dsimp only at he; rw [hE2 rfl] at he; cases he
      · dsimp only; rw [hE2 rfl]; exact inc_nil
      · dsimp only; rw [hE4 q hq]; rfl
    | true =>
      simp only [if_true] at hr
      obtain ⟨⟨ms, next'⟩, hx, hr⟩ := bind_eq_ok.1 hr
      obtain ⟨h1, h2, h3, h4⟩ := constLoop_inc hdt hovl _ hx
      dsimp only at hr
      split at hr
      · next heq =>
        cases hr
        have hnn : l.time < next' + dt := by
          rw [heq, UInt64.lt_iff_toNat_lt, UInt64.toNat_add, Nat.mod_eq_of_lt hovl]
          rw [UInt64.lt_iff_toNat_lt] at hdt
          have : (0 : UInt64).toNat = 0 := rfl
          omega
        have hall : ∀ m ∈ ms ++ [(⟨l.time, l.value⟩ : Msg V)], next ≤ m.time ∧ m.time ≤ l.time := by
          intro m hm
          rcases List.mem_append.1 hm with hm | hm
          · exact ⟨(h4 m hm).1, UInt64.le_of_lt (h4 m hm).2.2⟩
          · rw [List.mem_singleton.1 hm]
            exact ⟨by rw [← heq]; exact h2, UInt64.le_refl _⟩
        refine ⟨next' + dt, true, l.value, rfl, fun _ e he => ?_, fun h => (by cases h), ?_, fun q hq => hother _ q hq⟩
        · dsimp only at he
          rw [msgsOn_o1, if_pos rfl] at he
          rcases List.mem_append.1 he with he | he
          · exact UInt64.lt_of_lt_of_le (hE1 rfl e he) (UInt64.le_trans h2 (by rw [heq]; rw [heq] at hnn; exact UInt64.le_of_lt hnn))
          · exact UInt64.lt_of_le_of_lt (hall e he).2 hnn
        · dsimp only
          rw [msgsOn_o1, if_pos rfl]
          refine inc_join hE3 (inc_join h1 (inc_one _) fun x hx y hy => ?_) fun x hx y hy => ?_
          · rw [List.mem_singleton.1 hy]; exact (h4 x hx).2.2
          · exact UInt64.lt_of_lt_of_le (hE1 rfl x hx) (hall y hy).1
      · cases hr
        refine ⟨next', true, l.value, rfl, fun _ e he => ?_, fun h => (by cases h), ?_, fun q hq => hother _ q hq⟩
        · dsimp only at he
          rw [msgsOn_o1, if_pos rfl] at he
          rcases List.mem_append.1 he with he | he
          · exact UInt64.lt_of_lt_of_le (hE1 rfl e he) h2
          · exact (h4 e he).2.1
        · dsimp only
          rw [msgsOn_o1, if_pos rfl]
          exact inc_join hE3 h1 fun x hx y hy => UInt64.lt_of_lt_of_le (hE1 rfl x hx) (h4 y hy).1

/-! ## TimeShift -/

theorem timeShift_mono {dt : UInt64} {n : Int} {ms : List (Msg V)} (hd : 0 < dt * UInt64.ofInt n)
    (h : (∀ x ∈ ms, x.time.toNat + (dt * UInt64.ofInt n).toNat < 2 ^ 64) ∨ (∀ x ∈ ms, 2 ^ 64 ≤ x.time.toNat + (dt * UInt64.ofInt n).toNat)) :
    ∀ x ∈ ms, ∀ y ∈ ms, x.time < y.time → timeShiftTime dt n x.time < timeShiftTime dt n y.time := by
  intro x hx y hy hxy
  unfold timeShiftTime
  dsimp only
  rw [if_pos hd, if_pos hd]
  rw [UInt64.lt_iff_toNat_lt] at hxy ⊢
  rw [UInt64.toNat_add, UInt64.toNat_add]
  have h1 := x.time.toNat_lt
  have h2 := y.time.toNat_lt
  have h3 := (dt * UInt64.ofInt n).toNat_lt
  rcases h with h | h
  · have := h x hx; have := h y hy; omega
  · have := h x hx; have := h y hy; omega

/-! ## AutoRegressive -/

theorem ar_run {o0 : Op V} (hb : Built o0) {coeff : List V} (hk : o0.kind = .autoReg coeff) {n : Nat} (ho : o0.core.dataIn = [(i1, Inp.new i1 n)]) (as : List (Act V))
    (hinc : Increasing (addressed true i1 as))
    (hsep : ∀ pre mid post, as = pre ++ .execData :: mid ++ .execData :: post → addressed true i1 mid ≠ []) : ∀ q, Increasing (sent q (results o0 as)) := by
  have hw : o0.core.WF := ⟨hb.new.core.data, hb.new.core.ctrl⟩
  suffices main : ∀ as1, as1 <+: as → (after o0 as1).kind = .autoReg coeff ∧ (∀ q, Increasing (sent q (results o0 as1))) ∧
      (∃ i, (after o0 as1).core.dataIn = [(i1, i)] ∧ (i.max = sizeMax → i.data = []) ∧
        ∀ l, i.data.getLast? = some l → ∃ x, (addressed true i1 as1).getLast? = some x ∧ x.time = l.time) ∧
      (∀ q, ∀ e ∈ sent q (results o0 as1), ∃ pre mid, as1 = pre ++ .execData :: mid ∧ ∃ x ∈ addressed true i1 pre, e.time = x.time) from
    (main as (List.prefix_refl _)).2.1
  intro as1
  induction as1 using List.reverseRecOn with
  | nil =>
    intro _
    exact ⟨hk, fun q => inc_nil, ⟨_, ho, fun _ => rfl, fun l hl => by cases hl⟩, fun q e he => by cases he⟩
  | append_singleton as1 a ih =>
    intro hpre
    obtain ⟨h1, h2, ⟨i, hd, hmax, hlast⟩, h4⟩ := ih ((List.prefix_append as1 [a]).trans hpre)
    have quiet : ∀ o', (act (after o0 as1) a).1 = o' → (∀ q, msgsOn q (outOf (act (after o0 as1) a).2) = []) → o'.kind = .autoReg coeff →
        (∃ i, o'.core.dataIn = [(i1, i)] ∧ (i.max = sizeMax → i.data = []) ∧
          ∀ l, i.data.getLast? = some l → ∃ x, (addressed true i1 (as1 ++ [a])).getLast? = some x ∧ x.time = l.time) →
        (after o0 (as1 ++ [a])).kind = .autoReg coeff ∧ (∀ q, Increasing (sent q (results o0 (as1 ++ [a])))) ∧
        (∃ i, (after o0 (as1 ++ [a])).core.dataIn = [(i1, i)] ∧ (i.max = sizeMax → i.data = []) ∧
          ∀ l, i.data.getLast? = some l → ∃ x, (addressed true i1 (as1 ++ [a])).getLast? = some x ∧ x.time = l.time) ∧
        (∀ q, ∀ e ∈ sent q (results o0 (as1 ++ [a])), ∃ pre mid, as1 ++ [a] = pre ++ .execData :: mid ∧ ∃ x ∈ addressed true i1 pre, e.time = x.time) := by
      intro o' ho' hq hkind hsh
      have hs : ∀ q, sent q (results o0 (as1 ++ [a])) = sent q (results o0 as1) := by
        intro q
        rw [sent_snoc, hq q, List.append_nil]
      rw [after_snoc, ho']
      simp only [hs]
      refine ⟨hkind, h2, hsh, fun q e he => ?_⟩
      obtain ⟨pre, mid, heq, hx⟩ := h4 q e he
      exact ⟨pre, mid ++ [a], by rw [heq, List.append_assoc, List.cons_append], hx⟩
    have hfind : (after o0 as1).core.dataIn.find? i1 = some i := by rw [hd, Map.find?_cons, if_pos rfl]
    cases a with
    | recvData p m =>
      cases hr : (after o0 as1).recvData m p with
      | error e =>
        refine quiet (after o0 as1) (by simp only [act, hr]) (by intro q; simp only [act, hr]; rfl) h1 ⟨i, hd, hmax, fun l hl => ?_⟩
        simp only [Op.recvData, h1] at hr
        by_cases hadd : p = i1 ∨ (p = [] ∧ true = true)
        · have hres : (after o0 as1).core.resolveData p = i1 := Buffers.resolve_eq hfind (hadd.imp id fun ⟨a, _⟩ => ⟨a, by rw [hd]; rfl⟩)
          simp only [Core.receiveDataAR, hres, hfind] at hr
          split at hr
          · next hm => rw [hmax hm.1] at hl; cases hl
          · cases hr
        · have : addressed true i1 [Act.recvData p m] = [] := by
            simp only [addressed, List.filterMap_cons, List.filterMap_nil]
            rw [if_neg (by simpa using hadd)]
          rw [addressed_append, this, List.append_nil]
          exact hlast l hl
      | ok o' =>
        have hr' := hr
        simp only [Op.recvData, h1] at hr'
        obtain ⟨c, hc, hr'⟩ := bind_eq_ok.1 hr'
        cases hr'
        refine quiet _ (by simp only [act, hr]; rfl) (by intro q; simp only [act, hr]; rfl) rfl ?_
        unfold Core.receiveDataAR at hc
        dsimp only at hc
        split at hc
        · cases hc
        · next i' hi' =>
          have hres : (after o0 as1).core.resolveData p = i1 ∧ i' = i := by
            rw [hd] at hi'
            exact find_one hi'
          obtain ⟨hres, rfl⟩ := hres
          have hadd : addressed true i1 [Act.recvData p m] = [m] := by
            refine addressed_one ?_
            by_contra hx
            exact Buffers.resolve_ne hfind (fun h' => hx (h'.imp id fun ⟨a, _⟩ => ⟨a, rfl⟩)) hres
          split at hc
          · cases hc
          · next hm =>
            cases hc
            refine ⟨{ i' with data := i'.data ++ List.replicate (i'.max - i'.data.length) Msg.zero ++ [m] }, ?_, ?_, ?_⟩
            · dsimp only
              rw [hres, hd]
              simp only [Map.put, if_true]
            · intro hx
              dsimp only at hx
              exfalso
              apply hm
              refine ⟨hx, ?_⟩
              rw [hmax hx, hx]
              show 0 < sizeMax
              decide
            · intro l hl
              dsimp only at hl
              rw [List.getLast?_concat] at hl
              cases hl
              exact ⟨_, by rw [addressed_append, hadd, List.getLast?_concat], rfl⟩
    | recvCtrl p m =>
      have hadd : addressed true i1 (as1 ++ [Act.recvCtrl p m]) = addressed true i1 as1 := by
        rw [addressed_append]
        exact List.append_nil _
      cases hr : (after o0 as1).recvCtrl m p with
      | error e =>
        exact quiet (after o0 as1) (by simp only [act, hr]) (by intro q; simp only [act, hr]; rfl) h1 ⟨i, hd, hmax, by rw [hadd]; exact hlast⟩
      | ok o' =>
        have h5 := recvCtrl_sub hr i1
        obtain ⟨c, _, rfl⟩ := recvCtrl_cases hr
        refine quiet { after o0 as1 with core := c } (by simp only [act, hr]) (by intro q; simp only [act, hr]; rfl) h1 ⟨i, ?_, hmax, by rw [hadd]; exact hlast⟩
        exact h5.2.trans hd
    | execCtrl =>
      have : (act (after o0 as1) .execCtrl) = (after o0 as1, .ok []) := by simp only [act, Op.execCtrl, h1]
      refine quiet (after o0 as1) (by rw [this]) (by intro q; rw [this]; rfl) h1 ⟨i, hd, hmax, ?_⟩
      have hadd : addressed true i1 (as1 ++ [Act.execCtrl]) = addressed true i1 as1 := by
        rw [addressed_append]
        exact List.append_nil _
      rw [hadd]
      exact hlast
    | execData =>
      have hadd : addressed true i1 (as1 ++ [Act.execData]) = addressed true i1 as1 := by
        rw [addressed_append]
        exact List.append_nil _
      have hsame : ∃ i, (after o0 as1).core.dataIn = [(i1, i)] ∧ (i.max = sizeMax → i.data = []) ∧
          ∀ l, i.data.getLast? = some l → ∃ x, (addressed true i1 (as1 ++ [Act.execData])).getLast? = some x ∧ x.time = l.time :=
        ⟨i, hd, hmax, by rw [hadd]; exact hlast⟩
      have hx : (after o0 as1).execData = (after o0 as1).execAR coeff := by simp only [Op.execData, h1]
      unfold Op.execAR at hx
      rw [hd] at hx
      dsimp only at hx
      split at hx
      · exact quiet (after o0 as1) (by simp only [act, hx]) (by intro q; simp only [act, hx]; rfl) h1 hsame
      · next l hl =>
        split at hx
        · exact quiet (after o0 as1) (by simp only [act, hx]) (by intro q; simp only [act, hx]; rfl) h1 hsame
        · next v hv =>
          split at hx
          · exact quiet (after o0 as1) (by simp only [act, hx]) (by intro q; simp only [act, hx]; rfl) h1 hsame
          · obtain ⟨x, hx1, hx2⟩ := hlast l hl
            have hact1 : (act (after o0 as1) .execData).1.core.dataIn = [(i1, { i with data := i.data.tail.dropLast ++ [⟨l.time, v⟩] })] ∧
                (act (after o0 as1) .execData).1.kind = .autoReg coeff := by
              simp only [act, hx]
              exact ⟨trivial, h1⟩
            have hact2 : (act (after o0 as1) .execData).2 = .ok (single ⟨l.time, v⟩) := by simp only [act, hx]
            have hs : ∀ q, sent q (results o0 (as1 ++ [.execData])) = sent q (results o0 as1) ++ if q = o1 then [⟨l.time, v⟩] else [] := by
              intro q
              rw [sent_snoc, hact2, ← msgsOn_single]
              rfl
            have hsub : addressed true i1 as1 <+: addressed true i1 as := by
              obtain ⟨t, ht⟩ := hpre
              rw [← ht, addressed_append, hadd]
              exact List.prefix_append _ _
            rw [after_snoc]
            simp only [hs]
            refine ⟨hact1.2, fun q => ?_, ⟨_, hact1.1, ?_, ?_⟩, ?_⟩
            · refine inc_join (h2 q) (by split; exacts [inc_one _, inc_nil]) fun e he y hy => ?_
              split at hy
              · rw [List.mem_singleton.1 hy]
                obtain ⟨pre, mid, heq, z, hz, hez⟩ := h4 q e he
                have hmid : addressed true i1 mid ≠ [] := by
                  obtain ⟨t, ht⟩ := hpre
                  refine hsep pre mid t ?_
                  rw [← ht, heq]
                  simp
                rw [hez]
                dsimp only
                rw [← hx2]
                have hA : addressed true i1 as1 = addressed true i1 pre ++ addressed true i1 mid := by
                  rw [heq, addressed_append]
                  rfl
                have hincA : Increasing (addressed true i1 as1) := inc_infix hinc hsub.isInfix
                rw [hA] at hincA
                have hxm : x ∈ addressed true i1 mid := by
                  rw [hA, List.getLast?_append_of_ne_nil _ hmid] at hx1
                  exact List.mem_of_getLast? hx1
                exact (Sync.inc_append hincA).2.2 z hz x hxm
              · cases hy
            · intro hm
              dsimp only at hm
              rw [hmax hm] at hl
              cases hl
            · intro l' hl'
              dsimp only at hl'
              rw [List.getLast?_concat] at hl'
              cases hl'
              exact ⟨x, by rw [hadd]; exact hx1, hx2⟩
            · intro q e he
              rcases List.mem_append.1 he with he | he
              · obtain ⟨pre, mid, heq, hz⟩ := h4 q e he
                exact ⟨pre, mid ++ [.execData], by rw [heq, List.append_assoc, List.cons_append], hz⟩
              · split at he
                · rw [List.mem_singleton.1 he]
                  exact ⟨as1, [], rfl, x, List.mem_of_getLast? hx1, hx2.symm⟩
                · cases he

end Order
end Rtbot
