import Verif.Lemmas.Order
import Verif.Lemmas.Ports

/-! # Operators emit in the order of time: windows -/

set_option linter.unusedSectionVars false

namespace Rtbot
open Spec
variable {V : Type} [Num V]

namespace Order
open Times

/-- The time of the message emitted for a last message of time `t`. -/
def Stamp : Kind V → UInt64 → UInt64 → Prop
  | .timeShift dt n, t, x => x = timeShiftTime dt n t
  | .difference true, t, x => toTimeE (V := V) (ofTime t) = .ok x
  | .difference false, _, _ => False
  | _, t, x => x = t

/-- Operators with one port that emit at most one message for each window, at the time of its last message (or its image). -/
def IsLast : Kind V → Prop
  | .filter _ _ | .add _ | .scale _ | .power _ | .constant _ | .identity | .count _ | .cumSum _ | .difference true | .movAvg | .stdDev | .fir _
  | .timeShift _ _ | .function _ _ | .rsi _ | .collector => True
  | _ => False

theorem isLast_fresh {k k' : Kind V} (h : k'.fresh = k.fresh) (hk : IsLast k) : IsLast k' := by
  cases k' <;> first
    | trivial
    | (cases k <;> first | exact hk.elim | (cases h; exact hk) | cases h)

theorem stamp_fresh {k k' : Kind V} (h : k'.fresh = k.fresh) {t x : UInt64} (hk : Stamp k' t x) : Stamp k t x := by
  cases k' <;> cases k <;> first | (cases h; exact hk) | exact hk | cases h

/-- What such an operator emits. -/
def LastOut (k : Kind V) (c : Core V) (out : OpMsg V) : Prop :=
  out = [] ∨ ∃ p i l x, c.dataIn = [(p, i)] ∧ p ∈ c.toProcess ∧ i.data.getLast? = some l ∧ out = single x ∧ Stamp k l.time x.time

theorem procLast_out {k : Kind V} {c : Core V} (hf : Filled c) {f : Msg V → Except Err (OpMsg V × Kind V)} {r : OpMsg V × Kind V}
    (hr : procLast c f = .ok r) (hF : ∀ l r, f l = .ok r → r.1 = [] ∨ ∃ x, r.1 = single x ∧ Stamp k l.time x.time) : LastOut k c r.1 := by
  obtain ⟨p, i, l, hd, hp, hl, hfl⟩ := procLast_eq hf hr
  rcases hF l r hfl with h | ⟨x, hx, hs⟩
  · exact Or.inl h
  · exact Or.inr ⟨p, i, l, x, hd, hp, hl, hx, hs⟩

theorem window_out {k : Kind V} {c : Core V} (hf : Filled c) {p : Str} {l x : Msg V} (hp : c.solePort = .ok p) (hl : c.dataLast p = .ok l)
    (hs : Stamp k l.time x.time) : LastOut k c (single x) := by
  obtain ⟨i, hd, hne, hmem⟩ := filled_sole hf hp
  exact Or.inr ⟨p, i, l, x, hd, hmem, dataLast_eq (find_sole hd) hne hl, rfl, hs⟩

theorem process_last {c : Core V} {k : Kind V} (hf : Filled c) (hk : IsLast k) {r : OpMsg V × Kind V}
    (hid : k = .identity → ∀ p i, c.dataIn = [(p, i)] → i.data.length = 1) (hdiff : ∀ b, k = .difference b → ∀ p i, c.dataIn = [(p, i)] → i.data.length = 2)
    (hr : (⟨c, k⟩ : Op V).process = .ok r) : LastOut k c r.1 := by
  cases k with
  | filter g v =>
    refine procLast_out hf hr fun l r hr => ?_
    cases hr
    dsimp only
    split
    · exact Or.inr ⟨l, rfl, rfl⟩
    · exact Or.inl rfl
  | add v => exact procLast_out hf hr fun l r hr => by cases hr; exact Or.inr ⟨_, rfl, rfl⟩
  | scale v => exact procLast_out hf hr fun l r hr => by cases hr; exact Or.inr ⟨_, rfl, rfl⟩
  | power v => exact procLast_out hf hr fun l r hr => by cases hr; exact Or.inr ⟨_, rfl, rfl⟩
  | constant v => exact procLast_out hf hr fun l r hr => by cases hr; exact Or.inr ⟨_, rfl, rfl⟩
  | identity =>
    obtain ⟨p, hp, hr⟩ := bind_eq_ok.1 hr
    obtain ⟨m, hm, hr⟩ := bind_eq_ok.1 hr
    cases hr
    obtain ⟨i, hd, hne, hmem⟩ := filled_sole hf hp
    refine Or.inr ⟨p, i, m, m, hd, hmem, ?_, rfl, rfl⟩
    have h1 := hid rfl p i hd
    have h2 := dataFirst_eq (find_sole hd) hne hm
    match hdd : i.data, h1 with
    | [a], _ => rw [hdd] at h2; cases h2; rfl
  | count n => exact procLast_out hf hr fun l r hr => by cases hr; exact Or.inr ⟨_, rfl, rfl⟩
  | cumSum a => exact procLast_out hf hr fun l r hr => by cases hr; exact Or.inr ⟨_, rfl, rfl⟩
  | difference b =>
    cases b with
    | false => exact hk.elim
    | true =>
      obtain ⟨p, hp, hr⟩ := bind_eq_ok.1 hr
      obtain ⟨m1, h1, hr⟩ := bind_eq_ok.1 hr
      obtain ⟨m0, _, hr⟩ := bind_eq_ok.1 hr
      obtain ⟨t, ht, hr⟩ := bind_eq_ok.1 hr
      cases hr
      obtain ⟨i, hd, hne, hmem⟩ := filled_sole hf hp
      refine Or.inr ⟨p, i, m1, _, hd, hmem, ?_, rfl, ht⟩
      have h3 := hdiff true rfl p i hd
      have h2 := dataMsg_eq (find_sole hd) hne h1
      match hdd : i.data, h3 with
      | [a, b], _ => rw [hdd] at h2; cases h2; rfl
  | movAvg =>
    obtain ⟨p, hp, hr⟩ := bind_eq_ok.1 hr
    obtain ⟨i, _, hr⟩ := bind_eq_ok.1 hr
    obtain ⟨l, hl, hr⟩ := bind_eq_ok.1 hr
    cases hr
    exact window_out hf hp hl rfl
  | stdDev =>
    obtain ⟨p, hp, hr⟩ := bind_eq_ok.1 hr
    obtain ⟨i, _, hr⟩ := bind_eq_ok.1 hr
    obtain ⟨l, hl, hr⟩ := bind_eq_ok.1 hr
    cases hr
    exact window_out hf hp hl rfl
  | fir a =>
    obtain ⟨p, hp, hr⟩ := bind_eq_ok.1 hr
    obtain ⟨i, _, hr⟩ := bind_eq_ok.1 hr
    obtain ⟨l, hl, hr⟩ := bind_eq_ok.1 hr
    obtain ⟨v, _, hr⟩ := bind_eq_ok.1 hr
    cases hr
    exact window_out hf hp hl rfl
  | timeShift dt n => exact procLast_out hf hr fun l r hr => by cases hr; exact Or.inr ⟨_, rfl, rfl⟩
  | function pts t =>
    refine procLast_out hf hr fun l r hr => ?_
    obtain ⟨v, _, hr⟩ := bind_eq_ok.1 hr
    cases hr
    exact Or.inr ⟨_, rfl, rfl⟩
  | rsi prev =>
    simp only [Op.process, procRsi] at hr
    obtain ⟨p, hp, hr⟩ := bind_eq_ok.1 hr
    obtain ⟨i, _, hr⟩ := bind_eq_ok.1 hr
    cases prev with
    | none =>
      obtain ⟨gl, _, hr⟩ := bind_eq_ok.1 hr
      obtain ⟨l, hl, hr⟩ := bind_eq_ok.1 hr
      cases hr
      exact window_out hf hp hl rfl
    | some pr =>
      obtain ⟨_, _, hr⟩ := bind_eq_ok.1 hr
      obtain ⟨_, _, hr⟩ := bind_eq_ok.1 hr
      obtain ⟨gl, _, hr⟩ := bind_eq_ok.1 hr
      obtain ⟨l, hl, hr⟩ := bind_eq_ok.1 hr
      cases hr
      exact window_out hf hp hl rfl
  | collector => cases hr; exact Or.inl rfl
  | _ => exact hk.elim

theorem single_shape {o : Op V} {p : Str} {n : Nat} (ho : o.core.dataIn = [(p, Inp.new p n)]) {c : Core V} (hc : c.fresh = o.core.fresh) :
    ∃ i, c.dataIn = [(p, i)] ∧ i.max = (Inp.new p n : Inp V).max := by
  have h1 : freshMap c.dataIn = freshMap o.core.dataIn := congrArg Core.dataIn hc
  rw [ho] at h1
  cases hd : c.dataIn with
  | nil => rw [hd] at h1; cases h1
  | cons x rest =>
    obtain ⟨p', i⟩ := x
    rw [hd] at h1
    cases rest with
    | cons y r => simp [freshMap] at h1
    | nil =>
      simp only [freshMap, List.map_cons, List.map_nil, List.cons.injEq, and_true, Prod.mk.injEq] at h1
      obtain ⟨rfl, h2⟩ := h1
      exact ⟨i, rfl, (congrArg Inp.max h2 : i.fresh.max = (Inp.new p' n : Inp V).fresh.max)⟩

theorem filled_full {c : Core V} (h1 : c.toProcess ≠ []) (h2 : ∀ p ∈ c.toProcess, ∃ i, c.dataIn.find? p = some i ∧ i.data.length = i.max ∧ 0 < i.max) : Filled c :=
  ⟨h1, fun p hp => by
    obtain ⟨i, hi, hl, hm⟩ := h2 p hp
    exact ⟨i, hi, fun h => by rw [h] at hl; simp at hl; omega⟩⟩

theorem find_one {p q : Str} {i j : Inp V} (h : Map.find? [(p, i)] q = some j) : q = p ∧ j = i := by
  rw [Map.find?_cons] at h
  split at h
  · next he => cases h; exact ⟨he.symm, rfl⟩
  · cases h

theorem msgsOn_single (q : Str) (x : Msg V) : msgsOn q (single x) = if q = o1 then [x] else [] := by
  unfold msgsOn single
  rw [Map.find?_cons]
  by_cases h : q = o1
  · rw [if_pos h.symm, if_pos h]
  · rw [if_neg fun e => h e.symm, if_neg h]
    rfl

/-- Single port operators that emit at the time of the last message. -/
theorem last_run {o : Op V} (hb : Built o) (hk : o.kind.isBase = true) (hl : IsLast o.kind) {p : Str} {n : Nat} (ho : o.core.dataIn = [(p, Inp.new p n)])
    (hid : o.kind = .identity → n = 1) (hdiff : ∀ b, o.kind = .difference b → n = 2) {f : UInt64 → UInt64} (as : List (Act V))
    (hinc : Increasing (addressed true p as))
    (hf : ∀ x ∈ addressed true p as, ∀ y ∈ addressed true p as, x.time < y.time → f x.time < f y.time)
    (hs : ∀ x ∈ addressed true p as, ∀ t, Stamp o.kind x.time t → t = f x.time) : ∀ q, Increasing (sent q (results o as)) := by
  have hS : (o.core.dataIn.length == 1) = true := by rw [ho]; rfl
  have hone : ∀ p' i, o.core.dataIn.find? p' = some i → p' = p := fun p' i h => (find_one (by rw [← ho]; exact h)).1
  refine window_run hb hk (link := fun p' q => p' = p ∧ q = o1) (fun a b q h1 h2 => h1.1.trans h2.1.symm)
    (off := fun _ => (Inp.new p n : Inp V).max - 1) (f := f) (K := fun k _ => k.fresh = o.kind.fresh) as ?_ ?_ ?_ rfl ?_
  · rintro p' q ⟨rfl, _⟩
    exact ⟨_, by rw [ho, Map.find?_cons, if_pos rfl]⟩
  · intro p' i hi
    rw [hone p' i hi, hS]
    exact hinc
  · intro p' i hi
    rw [hone p' i hi, hS]
    exact hf
  · intro c k E r hc hK hinf hne hfull hr
    have hfilled := filled_full hne hfull
    obtain ⟨i, hd, hm⟩ := single_shape ho hc
    have hfind : c.dataIn.find? p = some i := by rw [hd, Map.find?_cons, if_pos rfl]
    have hlen : i.data.length = i.max ∧ 0 < i.max := by
      obtain ⟨p', hp'⟩ := List.exists_mem_of_ne_nil _ hne
      obtain ⟨i', hi', h1, h2⟩ := hfull p' hp'
      rw [hd] at hi'
      obtain ⟨_, rfl⟩ := find_one hi'
      exact ⟨h1, h2⟩
    have hkk : ∀ k', k'.fresh = o.kind.fresh → o.kind.fresh = o.kind → k' = k → True := fun _ _ _ _ => trivial
    have hkid : k = .identity → o.kind = .identity := by
      rintro rfl
      cases hx : o.kind <;> rw [hx] at hK <;> first | rfl | cases hK
    have hkdiff : ∀ b, k = .difference b → o.kind = .difference b := by
      rintro b rfl
      cases hx : o.kind <;> rw [hx] at hK <;> first | (cases hK; rfl) | cases hK
    have hout := process_last hfilled (isLast_fresh hK hl) (r := r)
      (fun h p' i' hd' => by
        rw [hd] at hd'
        cases hd'
        rw [hlen.1, hm, hid (hkid h)]
        rfl)
      (fun b h p' i' hd' => by
        rw [hd] at hd'
        cases hd'
        rw [hlen.1, hm, hdiff b (hkdiff b h)]
        rfl) hr
    refine ⟨?_, fun q => ?_⟩
    · have h2 := process_fresh (o := ⟨c, k⟩) hr
      exact h2.trans hK
    · rcases hout with h | ⟨p', i', l, x, hd', hp', hl', hx, hst⟩
      · rw [h]; exact Or.inl rfl
      · rw [hd] at hd'
        cases hd'
        rw [hx, msgsOn_single]
        split
        · next hq =>
          right
          have hget : i.data[(Inp.new p n : Inp V).max - 1]? = some l := by
            rw [List.getLast?_eq_getElem?] at hl'
            rw [← hl', hlen.1, hm]
          have hmem : l ∈ addressed true p as := by
            have := hinf p i hfind
            rw [hS] at this
            exact this.subset (List.mem_of_getLast? hl')
          have hxt := hs l hmem _ (stamp_fresh hK hst)
          refine ⟨p, i, l, ⟨rfl, hq⟩, hp', hfind, hget, inc_one _, ?_⟩
          intro y hy
          rw [List.mem_singleton.1 hy]
          refine ⟨by rw [hxt]; exact UInt64.le_refl _, fun e _ he _ => by rw [hxt]; exact he⟩
        · exact Or.inl rfl

/-! ## PeakDetector -/

theorem peak_run {o : Op V} (hb : Built o) (hk : o.kind = .peak) {p : Str} {n : Nat} (ho : o.core.dataIn = [(p, Inp.new p n)]) (as : List (Act V))
    (hinc : Increasing (addressed true p as)) : ∀ q, Increasing (sent q (results o as)) := by
  have hS : (o.core.dataIn.length == 1) = true := by rw [ho]; rfl
  have hone : ∀ p' i, o.core.dataIn.find? p' = some i → p' = p := fun p' i h => (find_one (by rw [← ho]; exact h)).1
  refine window_run hb (by rw [hk]; rfl) (link := fun p' q => p' = p ∧ q = o1) (fun a b q h1 h2 => h1.1.trans h2.1.symm)
    (off := fun _ => (Inp.new p n : Inp V).max / 2) (f := id) (K := fun k _ => k = .peak) as ?_ ?_ (fun _ _ _ _ _ _ _ h => h) hk ?_
  · rintro p' q ⟨rfl, _⟩
    exact ⟨_, by rw [ho, Map.find?_cons, if_pos rfl]⟩
  · intro p' i hi
    rw [hone p' i hi, hS]
    exact hinc
  · intro c k E r hc hK hinf hne hfull hr
    subst hK
    have hfilled := filled_full hne hfull
    obtain ⟨i, hd, hm⟩ := single_shape ho hc
    have hfind : c.dataIn.find? p = some i := by rw [hd, Map.find?_cons, if_pos rfl]
    have hlen : i.data.length = i.max ∧ 0 < i.max := by
      obtain ⟨p', hp'⟩ := List.exists_mem_of_ne_nil _ hne
      obtain ⟨i', hi', h1, h2⟩ := hfull p' hp'
      rw [hd] at hi'
      obtain ⟨_, rfl⟩ := find_one hi'
      exact ⟨h1, h2⟩
    obtain ⟨p', hp, hr⟩ := bind_eq_ok.1 hr
    obtain ⟨i', hi', hr⟩ := bind_eq_ok.1 hr
    obtain ⟨mid, hmid, hr⟩ := bind_eq_ok.1 hr
    cases hr
    obtain ⟨i2, hd2, hne2, hmem⟩ := filled_sole hfilled hp
    rw [hd] at hd2
    cases hd2
    have hii : i' = i := by
      simp only [Core.dataPort, hfind] at hi'
      cases hi'
      rfl
    subst hii
    have hget := dataMsg_eq hfind hne2 hmid
    rw [hlen.1, hm] at hget
    refine ⟨rfl, fun q => ?_⟩
    dsimp only
    split
    · exact Or.inl rfl
    · rw [msgsOn_single]
      split
      · next hq =>
        right
        refine ⟨p, i', mid, ⟨rfl, hq⟩, hmem, hfind, hget, inc_one _, ?_⟩
        intro y hy
        rw [List.mem_singleton.1 hy]
        exact ⟨UInt64.le_refl _, fun e _ he _ => he⟩
      · exact Or.inl rfl

/-! ## Input and Output -/

/-- What the ports forward. -/
def Forwards (c : Core V) (pm : Map Str) (out : OpMsg V) : Prop :=
  ∀ q ms, out.find? q = some ms → ∃ p i m, pm.find? p = some q ∧ p ∈ c.toProcess ∧ c.dataIn.find? p = some i ∧ i.data[0]? = some m ∧ ms = [m]

theorem forwards_nil (c : Core V) (pm : Map Str) : Forwards c pm [] := by intro q ms h; cases h

theorem forwards_emplace {c : Core V} {pm : Map Str} {out : OpMsg V} (h : Forwards c pm out) {p q : Str} {i : Inp V} {m : Msg V}
    (hq : pm.find? p = some q) (hp : p ∈ c.toProcess) (hi : c.dataIn.find? p = some i) (hm : i.data[0]? = some m) : Forwards c pm (Map.emplace out q [m]) := by
  intro q' ms hms
  rw [Map.find?_emplace] at hms
  split at hms
  · next he =>
    cases hx : Map.find? out q with
    | none =>
      rw [hx] at hms
      cases hms
      exact ⟨p, i, m, by rw [he]; exact hq, hp, hi, hm, rfl⟩
    | some ms' =>
      rw [hx] at hms
      cases hms
      rw [he]
      exact h q _ hx
  · exact h q' ms hms

theorem ports_run {o : Op V} (hb : Built o) {ident : Str} {n : Nat} {pm : Map Str} {c0 : Core V} (hadd : addPorts (Core.new ident : Core V) 1 n = .ok (c0, pm))
    (hcore : o.core = c0) (hkind : o.kind = .input pm [] ∨ o.kind = .output pm) (as : List (Act V))
    (hinc : ∀ p i, o.core.dataIn.find? p = some i → Increasing (addressed (o.core.dataIn.length == 1) p as)) : ∀ q, Increasing (sent q (results o as)) := by
  obtain ⟨c1, pm1, h1, hports, _, _, _, _, _, hsorted, hkeys, hpm⟩ := addPorts_spec (V := V) ident 1 n
  rw [hadd] at h1
  cases h1
  subst hcore
  have hpm' : ∀ p q, pm.find? p = some q → ∃ k, 1 ≤ k ∧ k ≤ n ∧ p = iPort k ∧ q = oPort k := by
    intro p q h
    obtain ⟨k, h1, h2, rfl⟩ := (hkeys p).1 (by rw [← Map.find?_isSome_iff, h]; rfl)
    rw [hpm k h1 h2] at h
    cases h
    exact ⟨k, h1, h2, rfl, rfl⟩
  have hmax : ∀ p i, o.core.dataIn.find? p = some i → i.max = 1 := by
    intro p i hi
    obtain ⟨k, h1, h2, rfl⟩ := (hports.keys p).1 (by rw [← Map.find?_isSome_iff, hi]; rfl)
    rw [hports.find k h1 h2] at hi
    cases hi
    rfl
  refine window_run hb (by rcases hkind with h | h <;> rw [h] <;> rfl) (link := fun p q => pm.find? p = some q) ?_ (off := fun _ => 0) (f := id)
    (K := fun k _ => k.fresh = o.kind.fresh) as ?_ hinc (fun _ _ _ _ _ _ _ h => h) rfl ?_
  · intro p p' q h h'
    obtain ⟨k, _, _, rfl, rfl⟩ := hpm' p q h
    obtain ⟨k', _, _, rfl, he⟩ := hpm' p' _ h'
    rw [oPort_inj he]
  · intro p q h
    obtain ⟨k, h1, h2, rfl, rfl⟩ := hpm' p q h
    exact ⟨_, hports.find k h1 h2⟩
  · intro c k E r hc hK hinf hne hfull hr
    have hfilled := filled_full hne hfull
    have hlen : ∀ p i, p ∈ c.toProcess → c.dataIn.find? p = some i → i.data.length = 1 := by
      intro p i hp hi
      obtain ⟨i', hi', h3, _⟩ := hfull p hp
      rw [hi] at hi'
      cases hi'
      have h1 : freshMap c.dataIn = freshMap o.core.dataIn := congrArg Core.dataIn hc
      have h2 := find?_freshMap c.dataIn p
      rw [h1, find?_freshMap, hi] at h2
      cases h4 : o.core.dataIn.find? p with
      | none => rw [h4] at h2; cases h2
      | some i0 =>
        rw [h4] at h2
        have h5 : i0.max = i.max := (congrArg Inp.max (Option.some.inj (show some i0.fresh = some i.fresh from h2)) : i0.fresh.max = i.fresh.max)
        rw [h3, ← h5]
        exact hmax p i0 h4
    have hfw : Forwards c pm r.1 := by
      rcases hkind with h | h
      · have : ∃ last, k = .input pm last := by
          rw [h] at hK
          cases k <;> first | (cases hK; exact ⟨_, rfl⟩) | cases hK
        obtain ⟨last, rfl⟩ := this
        obtain ⟨x, hx, hr⟩ := bind_eq_ok.1 hr
        cases hr
        refine foldlM_times (P := fun b => Forwards c pm b.1) (forwards_nil c pm) hx ?_
        intro b p r hp hb' hr
        obtain ⟨i, hi, hne'⟩ := hfilled.2 p hp
        unfold inputStep at hr
        obtain ⟨m0, hm, hr⟩ := bind_eq_ok.1 hr
        have hget := dataMsg_eq hi hne' hm
        dsimp only at hr
        have hsend : ∀ r', (match pm.find? p with
            | none => undefined .endDeref
            | some q => .ok (Map.emplace b.1 q [m0], (b.2.erase p).emplace p m0) : Except Err (OpMsg V × Map (Msg V))) = .ok r' → Forwards c pm r'.1 := by
          intro r' hr'
          split at hr'
          · cases hr'
          · next q hq =>
            cases hr'
            exact forwards_emplace hb' hq hp hi hget
        split at hr
        · split at hr
          · exact hsend _ hr
          · cases hr; exact hb'
        · exact hsend _ hr
      · have : k = .output pm := by
          rw [h] at hK
          cases k <;> first | (cases hK; rfl) | cases hK
        subst this
        obtain ⟨x, hx, hr⟩ := bind_eq_ok.1 hr
        cases hr
        refine foldlM_times (P := fun b => Forwards c pm b) (forwards_nil c pm) hx ?_
        intro b p r hp hb' hr
        obtain ⟨i, hi, hne'⟩ := hfilled.2 p hp
        obtain ⟨m0, hm, hr⟩ := bind_eq_ok.1 hr
        have hget := dataLast_eq hi hne' hm
        rw [List.getLast?_eq_getElem?, hlen p i hp hi] at hget
        split at hr
        · cases hr
        · next q hq =>
          cases hr
          exact forwards_emplace hb' hq hp hi hget
    refine ⟨(process_fresh (o := ⟨c, k⟩) hr).trans hK, fun q => ?_⟩
    unfold msgsOn
    cases hq : Map.find? r.1 q with
    | none => exact Or.inl rfl
    | some ms =>
      obtain ⟨p, i, m, h1, h2, h3, h4, rfl⟩ := hfw q ms hq
      right
      refine ⟨p, i, m, h1, h2, h3, h4, inc_one _, ?_⟩
      intro y hy
      rw [List.mem_singleton.1 hy]
      exact ⟨UInt64.le_refl _, fun e _ he _ => he⟩

end Order
end Rtbot
