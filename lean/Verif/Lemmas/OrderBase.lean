import Verif.Lemmas.OrderWindow
import Verif.Lemmas.GridLoop

/-! # Operators emit in the order of time: invariants of `processData` -/

set_option linter.unusedSectionVars false

namespace Rtbot
open Spec
variable {V : Type} [Num V]

namespace Order
open Times

theorem quiet_kind {o : Op V} (a : Act V) (ha : a ≠ .execData) (hb : o.kind.isBase = true) :
    (act o a).1.kind = o.kind ∧ ∀ q, msgsOn q (outOf (act o a).2) = [] := by
  cases a with
  | recvData p m =>
    simp only [act]
    cases ho : o.recvData m p with
    | error e => exact ⟨rfl, fun q => rfl⟩
    | ok o' =>
      obtain ⟨c, _, rfl⟩ := recvData_cases ho
      exact ⟨rfl, fun q => rfl⟩
  | recvCtrl p m =>
    simp only [act]
    cases ho : o.recvCtrl m p with
    | error e => exact ⟨rfl, fun q => rfl⟩
    | ok o' =>
      obtain ⟨c, _, rfl⟩ := recvCtrl_cases ho
      exact ⟨rfl, fun q => rfl⟩
  | execCtrl =>
    simp only [act, base_execCtrl hb]
    exact ⟨trivial, fun q => rfl⟩
  | execData => exact absurd rfl ha

/-- An invariant of the state of an operator and of the messages emitted so far, kept by `processData`. -/
theorem base_run {o0 : Op V} (hb : Built o0) (hk : o0.kind.isBase = true) {K : Kind V → (Str → List (Msg V)) → Prop}
    (as : List (Act V)) (h0 : K o0.kind fun _ => [])
    (hproc : ∀ (c : Core V) k E r, c.fresh = o0.core.fresh → K k E →
      (∀ p i, c.dataIn.find? p = some i → i.data <:+: addressed (o0.core.dataIn.length == 1) p as) → c.toProcess ≠ [] →
      (∀ p ∈ c.toProcess, ∃ i, c.dataIn.find? p = some i ∧ i.data.length = i.max ∧ 0 < i.max) →
      (⟨c, k⟩ : Op V).process = .ok r → K r.2 (fun q => E q ++ msgsOn q r.1)) :
    K (after o0 as).kind (fun q => sent q (results o0 as)) := by
  have hw : o0.core.WF := ⟨hb.new.core.data, hb.new.core.ctrl⟩
  generalize hS : (o0.core.dataIn.length == 1) = S at *
  have hport : ∀ (as1 : List (Act V)) p i, (after o0 as1).core.dataIn.find? p = some i → ∃ i0, o0.core.dataIn.find? p = some i0 := by
    intro as1 p i hi
    have h1 := congrArg (fun x : Op V => x.core.dataIn) (after_fresh hw as1)
    have h2 : freshMap (after o0 as1).core.dataIn = freshMap o0.core.dataIn := h1
    have h3 := find?_freshMap (after o0 as1).core.dataIn p
    rw [h2, find?_freshMap, hi] at h3
    cases h4 : o0.core.dataIn.find? p with
    | none => rw [h4] at h3; cases h3
    | some i0 => exact ⟨i0, rfl⟩
  have hbuf : ∀ (as1 : List (Act V)) p i0, o0.core.dataIn.find? p = some i0 → ∃ i, (after o0 as1).core.dataIn.find? p = some i ∧ i.max = i0.max ∧
      i.data = lastN i0.max (addressed S p as1) := by
    intro as1 p i0 hi0
    obtain ⟨hpos, hinv⟩ := inv_start hb hk hi0
    have := Buffers.inv_after hpos as1 hinv
    rw [List.nil_append, hS] at this
    exact this.win
  suffices main : ∀ as1, as1 <+: as → K (after o0 as1).kind (fun q => sent q (results o0 as1)) from main as (List.prefix_refl _)
  intro as1
  induction as1 using List.reverseRecOn with
  | nil => intro _; exact h0
  | append_singleton as1 a ih =>
    intro hpre
    have h2 := ih ((List.prefix_append as1 [a]).trans hpre)
    have hkb := base_after hb hk as1
    have hpre' : ∀ p, addressed S p as1 <+: addressed S p as := by
      intro p
      obtain ⟨t, ht⟩ := hpre
      rw [← ht, List.append_assoc, addressed_append]
      exact List.prefix_append _ _
    have quiet : (act (after o0 as1) a).1.kind = (after o0 as1).kind → (∀ q, msgsOn q (outOf (act (after o0 as1) a).2) = []) →
        K (after o0 (as1 ++ [a])).kind (fun q => sent q (results o0 (as1 ++ [a]))) := by
      intro hkind hq
      have hs : ∀ q, sent q (results o0 (as1 ++ [a])) = sent q (results o0 as1) := by
        intro q
        rw [sent_snoc, hq q, List.append_nil]
      rw [after_snoc]
      simp only [hs]
      rw [hkind]
      exact h2
    by_cases ha : a = .execData
    · subst ha
      have hx : (after o0 as1).execData = (after o0 as1).execBase := execData_base hkb
      unfold Op.execBase at hx
      split at hx
      · exact quiet (by simp only [act, hx]) (by intro q; simp only [act, hx]; rfl)
      · next ready hready =>
        dsimp only at hx
        split at hx
        · exact quiet (by simp only [act, hx]) (by intro q; simp only [act, hx]; rfl)
        · next hne =>
          split at hx
          · exact quiet (by simp only [act, hx]) (by intro q; simp only [act, hx]; rfl)
          · next out k hr =>
            have hfull : ∀ p ∈ ready, ∃ i, (after o0 as1).core.dataIn.find? p = some i ∧ i.data.length = i.max ∧ 0 < i.max := by
              intro p hp
              unfold Core.readyPorts at hready
              split at hready
              · cases hready
                have hp' := (List.mem_filter.1 hp).2
                split at hp'
                · next i hi =>
                  obtain ⟨i0, hi0⟩ := hport as1 p i hi
                  obtain ⟨i2, hi2, hm2, hd2⟩ := hbuf as1 p i0 hi0
                  rw [hi] at hi2
                  cases hi2
                  have hlen := congrArg List.length hd2
                  rw [length_lastN] at hlen
                  have := of_decide_eq_true hp'
                  have hpos := (inv_start hb hk hi0).1
                  exact ⟨i, hi, by omega, by omega⟩
                · cases hp'
              · cases hready
            have hact1 : (act (after o0 as1) .execData).1 = { core := { (after o0 as1).core with toProcess := [] }, kind := k } := by
              simp only [act, hx]
            have hact2 : (act (after o0 as1) .execData).2 = .ok out := by simp only [act, hx]
            have hinfix : ∀ p i, (after o0 as1).core.dataIn.find? p = some i → i.data <:+: addressed S p as := by
              intro p i hi
              obtain ⟨i0, hi0⟩ := hport as1 p i hi
              obtain ⟨i2, hi2, hm2, hd2⟩ := hbuf as1 p i0 hi0
              rw [hi] at hi2
              cases hi2
              rw [hd2]
              exact (List.drop_suffix _ _).isInfix.trans (hpre' p).isInfix
            have hfr : ({ (after o0 as1).core with toProcess := ready } : Core V).fresh = o0.core.fresh := congrArg Op.core (after_fresh hw as1)
            have hK := hproc { (after o0 as1).core with toProcess := ready } (after o0 as1).kind _ _ hfr h2 hinfix hne hfull hr
            have hs : ∀ q, sent q (results o0 (as1 ++ [.execData])) = sent q (results o0 as1) ++ msgsOn q out := by
              intro q
              rw [sent_snoc, hact2]
              rfl
            rw [after_snoc, hact1]
            simp only [hs]
            exact hK
    · obtain ⟨h3, h4⟩ := quiet_kind a ha hkb
      exact quiet h3 h4

/-! ## The sole window of an operator -/

/-- The window of an operator with one port, when `processData` is called. -/
theorem sole_window {o : Op V} {p : Str} {n : Nat} (ho : o.core.dataIn = [(p, Inp.new p n)]) {c : Core V} (hc : c.fresh = o.core.fresh) (hne : c.toProcess ≠ [])
    (hfull : ∀ p ∈ c.toProcess, ∃ i, c.dataIn.find? p = some i ∧ i.data.length = i.max ∧ 0 < i.max) :
    ∃ i, c.dataIn = [(p, i)] ∧ c.dataIn.find? p = some i ∧ i.data.length = (Inp.new p n : Inp V).max ∧ p ∈ c.toProcess ∧ c.solePort = .ok p := by
  obtain ⟨i, hd, hm⟩ := single_shape ho hc
  have hfind : c.dataIn.find? p = some i := by rw [hd, Map.find?_cons, if_pos rfl]
  obtain ⟨p', hp'⟩ := List.exists_mem_of_ne_nil _ hne
  obtain ⟨i', hi', h1, h2⟩ := hfull p' hp'
  rw [hd] at hi'
  obtain ⟨rfl, rfl⟩ := find_one hi'
  refine ⟨i', hd, hfind, by rw [h1, hm], hp', ?_⟩
  simp only [Core.solePort, hd]

/-! ## CosineResampler and HermiteResampler: no message later than the newest one -/

theorem gridLoop_le {d dt carry : UInt64} : ∀ (fuel j : Nat) {r : List UInt64 × Nat}, gridLoop d dt carry fuel j = .ok r → ∀ off ∈ r.1, off ≤ d := by
  intro fuel
  induction fuel with
  | zero =>
    intro j r h
    unfold gridLoop at h
    dsimp only at h
    split at h
    · cases h
    · cases h; intro off ho; cases ho
  | succ f ih =>
    intro j r h
    unfold gridLoop at h
    dsimp only at h
    split at h
    · next hd =>
      obtain ⟨⟨offs, j'⟩, h1, h2⟩ := bind_eq_ok.1 h
      cases h2
      intro off ho
      rcases List.mem_cons.1 ho with rfl | ho
      · exact hd
      · exact ih (j + 1) h1 off ho
    · cases h; intro off ho; cases ho

theorem add_le_of_le {a b off : UInt64} (hab : a ≤ b) (ho : off ≤ b - a) : a + off ≤ b := by
  rw [UInt64.le_iff_toNat_le] at *
  rw [UInt64.toNat_sub] at ho
  rw [UInt64.toNat_add]
  have := a.toNat_lt
  have := b.toNat_lt
  omega

theorem msgsOn_o1 (q : Str) (ms : List (Msg V)) : msgsOn q (if ms = [] then [] else [(o1, ms)]) = if q = o1 then ms else [] := by
  unfold msgsOn
  by_cases hm : ms = []
  · subst hm
    simp [Map.find?]
  · rw [if_neg hm, Map.find?_cons]
    by_cases h : q = o1
    · rw [if_pos h.symm, if_pos h]
    · rw [if_neg fun e => h e.symm, if_neg h]
      rfl

theorem cosRes_before {o : Op V} (hb : Built o) {dt carry : UInt64} (hk : o.kind = .cosRes dt carry) (ho : o.core.dataIn = [(i1, Inp.new i1 2)]) (as : List (Act V))
    (hinc : Increasing (addressed true i1 as)) : ∀ q, ∀ m ∈ sent q (results o as), ∃ x ∈ addressed true i1 as, m.time ≤ x.time := by
  have hS : (o.core.dataIn.length == 1) = true := by rw [ho]; rfl
  refine (base_run hb (by rw [hk]; rfl) (K := fun k E => (∃ dt c, k = .cosRes dt c) ∧ ∀ q, ∀ m ∈ E q, ∃ x ∈ addressed true i1 as, m.time ≤ x.time)
    as ⟨⟨dt, carry, hk⟩, fun q m hm => by cases hm⟩ ?_).2
  intro c k E r hc hK hinf hne hfull hr
  obtain ⟨⟨dt, carry, rfl⟩, hE⟩ := hK
  obtain ⟨i, hd, hfind, hlen, hmem, hsole⟩ := sole_window ho hc hne hfull
  have hin := hinf i1 i hfind
  rw [hS] at hin
  have hne' : i.data ≠ [] := by intro h; rw [h] at hlen; cases hlen
  obtain ⟨p, hp, hr⟩ := bind_eq_ok.1 hr
  rw [hsole] at hp
  cases hp
  obtain ⟨b, hbm, hr⟩ := bind_eq_ok.1 hr
  obtain ⟨a, ham, hr⟩ := bind_eq_ok.1 hr
  obtain ⟨⟨offs, j⟩, hg, hr⟩ := bind_eq_ok.1 hr
  cases hr
  have hb1 := dataMsg_eq hfind hne' hbm
  have ha1 := dataMsg_eq hfind hne' ham
  have hab := inc_get (inc_infix hinc hin) ha1 hb1 (by omega)
  refine ⟨⟨_, _, rfl⟩, fun q m hm => ?_⟩
  dsimp only at hm
  rcases List.mem_append.1 hm with hm | hm
  · exact hE q m hm
  · rw [msgsOn_o1] at hm
    split at hm
    · obtain ⟨off, hoff, rfl⟩ := List.mem_map.1 hm
      exact ⟨b, hin.subset (List.mem_of_getElem? hb1), add_le_of_le (UInt64.le_of_lt hab) (gridLoop_le _ _ hg off hoff)⟩
    · cases hm

/-- What `lookAt` emits and what it leaves. -/
theorem lookAt_shape {c : Core V} {i : Inp V} (hfind : c.dataIn.find? i1 = some i) (hne : i.data ≠ []) {frm : Nat} {dt carry : UInt64}
    {before : Option (Msg V)} {r : List (Msg V) × UInt64 × Option (Msg V)} (hr : lookAt c i1 frm dt carry before = .ok r) :
    ∃ a b offs j, i.data[frm]? = some a ∧ i.data[frm + 1]? = some b ∧ gridLoop (b.time - a.time) dt carry intFuel 1 = .ok (offs, j) ∧
      r.1.map Msg.time = offs.map (fun off => a.time + off) ∧ r.2.1 = newCarry a.time b.time dt carry j ∧
      (offs = [] → r.2.2 = before) ∧ (before.isSome = true → r.2.2 = before) ∧ (offs ≠ [] → frm = 0 → r.2.2.isSome = true) ∧ (frm ≠ 0 → r.2.2 = before) := by
  unfold lookAt at hr
  obtain ⟨b, hbm, hr⟩ := bind_eq_ok.1 hr
  obtain ⟨a, ham, hr⟩ := bind_eq_ok.1 hr
  obtain ⟨⟨offs, j⟩, hg, hr⟩ := bind_eq_ok.1 hr
  refine ⟨a, b, offs, j, dataMsg_eq hfind hne ham, dataMsg_eq hfind hne hbm, hg, ?_⟩
  dsimp only at hr
  split at hr
  · next h =>
    cases hr
    subst h
    exact ⟨rfl, rfl, fun _ => rfl, fun _ => rfl, fun h => absurd rfl h, fun _ => rfl⟩
  · next h =>
    cases frm with
    | zero =>
      cases before with
      | some z =>
        obtain ⟨z', hz, hr⟩ := bind_eq_ok.1 hr
        cases hz
        obtain ⟨e, _, hr⟩ := bind_eq_ok.1 hr
        cases hr
        refine ⟨by simp, rfl, fun h' => absurd h' h, fun _ => rfl, fun _ _ => rfl, fun h => absurd rfl h⟩
      | none =>
        obtain ⟨z', hz, hr⟩ := bind_eq_ok.1 hr
        obtain ⟨z'', _, hz⟩ := bind_eq_ok.1 hz
        cases hz
        obtain ⟨e, _, hr⟩ := bind_eq_ok.1 hr
        cases hr
        refine ⟨by simp, rfl, fun h' => absurd h' h, fun hh => (nomatch hh), fun _ _ => rfl, fun h => absurd rfl h⟩
    | succ f =>
      obtain ⟨z0, _, hr⟩ := bind_eq_ok.1 hr
      obtain ⟨z', hz, hr⟩ := bind_eq_ok.1 hr
      cases hz
      obtain ⟨e, _, hr⟩ := bind_eq_ok.1 hr
      cases hr
      refine ⟨by simp, rfl, fun h' => absurd h' h, fun _ => rfl, fun _ h => (nomatch h), fun _ => rfl⟩

theorem lookAt_before {c : Core V} {i : Inp V} (hfind : c.dataIn.find? i1 = some i) (hne : i.data ≠ []) (hinc : Increasing i.data) {frm : Nat} {dt carry : UInt64}
    {before : Option (Msg V)} {r : List (Msg V) × UInt64 × Option (Msg V)} (hr : lookAt c i1 frm dt carry before = .ok r) :
    ∃ b, i.data[frm + 1]? = some b ∧ ∀ m ∈ r.1, m.time ≤ b.time := by
  obtain ⟨a, b, offs, j, ha1, hb1, hg, hms, _⟩ := lookAt_shape hfind hne hr
  refine ⟨b, hb1, fun m hm => ?_⟩
  have hab := inc_get hinc ha1 hb1 (by omega)
  have h1 : m.time ∈ r.1.map Msg.time := List.mem_map_of_mem hm
  rw [hms] at h1
  obtain ⟨off, hoff, h2⟩ := List.mem_map.1 h1
  rw [← h2]
  exact add_le_of_le (UInt64.le_of_lt hab) (gridLoop_le _ _ hg off hoff)

theorem hermRes_before {o : Op V} (hb : Built o) {dt carry : UInt64} {before : Option (Msg V)} (hk : o.kind = .hermRes dt carry before) (ho : o.core.dataIn = [(i1, Inp.new i1 4)]) (as : List (Act V))
    (hinc : Increasing (addressed true i1 as)) : ∀ q, ∀ m ∈ sent q (results o as), ∃ x ∈ addressed true i1 as, m.time ≤ x.time := by
  have hS : (o.core.dataIn.length == 1) = true := by rw [ho]; rfl
  refine (base_run hb (by rw [hk]; rfl) (K := fun k E => (∃ dt c b, k = .hermRes dt c b) ∧ ∀ q, ∀ m ∈ E q, ∃ x ∈ addressed true i1 as, m.time ≤ x.time)
    as ⟨⟨dt, carry, before, hk⟩, fun q m hm => by cases hm⟩ ?_).2
  intro c k E r hc hK hinf hne hfull hr
  obtain ⟨⟨dt, carry, before, rfl⟩, hE⟩ := hK
  obtain ⟨i, hd, hfind, hlen, hmem, hsole⟩ := sole_window ho hc hne hfull
  have hin := hinf i1 i hfind
  rw [hS] at hin
  have hne' : i.data ≠ [] := by intro h; rw [h] at hlen; cases hlen
  have hid := inc_infix hinc hin
  simp only [Op.process, procHermRes] at hr
  obtain ⟨p, hp, hr⟩ := bind_eq_ok.1 hr
  rw [hsole] at hp
  cases hp
  have key : ∀ ms : List (Msg V), (∀ m ∈ ms, ∃ x ∈ addressed true i1 as, m.time ≤ x.time) → ∀ q, ∀ m ∈ E q ++ msgsOn q (if ms = [] then [] else [(o1, ms)]),
      ∃ x ∈ addressed true i1 as, m.time ≤ x.time := by
    intro ms hms q m hm
    rcases List.mem_append.1 hm with hm | hm
    · exact hE q m hm
    · rw [msgsOn_o1] at hm
      split at hm
      · exact hms m hm
      · cases hm
  have one : ∀ {frm dt carry before r}, lookAt c i1 frm dt carry before = .ok r → ∀ m ∈ r.1, ∃ x ∈ addressed true i1 as, m.time ≤ x.time := by
    intro frm dt carry before r hr m hm
    obtain ⟨b, hb1, hb2⟩ := lookAt_before hfind hne' hid hr
    exact ⟨b, hin.subset (List.mem_of_getElem? hb1), hb2 m hm⟩
  cases before with
  | none =>
    obtain ⟨⟨ms1, c1, b1⟩, h1, hr⟩ := bind_eq_ok.1 hr
    obtain ⟨⟨ms2, c2, b2⟩, h2, hr⟩ := bind_eq_ok.1 hr
    obtain ⟨⟨ms, c', b'⟩, hx, hr⟩ := bind_eq_ok.1 hr
    cases hx
    cases hr
    refine ⟨⟨_, _, _, rfl⟩, key _ fun m hm => ?_⟩
    rcases List.mem_append.1 hm with hm | hm
    · exact one h1 m hm
    · exact one h2 m hm
  | some z =>
    obtain ⟨⟨ms, c', b'⟩, hx, hr⟩ := bind_eq_ok.1 hr
    cases hr
    exact ⟨⟨_, _, _, rfl⟩, key _ (one hx)⟩

end Order
end Rtbot
