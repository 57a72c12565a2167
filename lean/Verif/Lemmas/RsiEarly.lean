import Verif.Lemmas.RsiStart

/-! # The sums of the program of C94 -/

namespace Rtbot.RsiProgram
open Spec Wave Selector Ripple
variable {V : Type} [Num V]

/-! The report once both averages are known. -/

def fresh (t : UInt64) (A A' : Bool → Option V) : List (Msg V) := if (A true).isSome && (A false).isSome then [] else told t (A' false) (A' true)

def Grow (A A' : Bool → Option V) : Prop := ∀ e v, A e = some v → A' e = some v

theorem fresh_refl {t : UInt64} {A : Bool → Option V} : fresh t A A = [] := by
  unfold fresh
  cases A true <;> cases A false <;> rfl

theorem fresh_trans {t : UInt64} {A A' A'' : Bool → Option V} (h : Grow A A') (h' : Grow A' A'') : fresh t A A' ++ fresh t A' A'' = fresh t A A'' := by
  have h1 := h true
  have h2 := h false
  have h3 := h' true
  have h4 := h' false
  unfold fresh
  cases ha : A true <;> cases hb : A false <;> cases hc : A' true <;> cases hd : A' false <;> simp_all [told]

theorem fresh_one {t : UInt64} {A A' : Bool → Option V} {e : Bool} (h : Grow A A') (he : A' (!e) = A (!e)) : news e t (A e) (A' e) (A (!e)) = fresh t A A' := by
  have h1 := h true
  have h2 := h false
  unfold fresh
  cases e <;> cases ha : A true <;> cases hb : A false <;> cases hc : A' true <;> cases hd : A' false <;> simp_all [told, news, rep2, rep]

def avgs (S : Bool → VS V) (e : Bool) : Option V := (S e).avg

def upd (S : Bool → VS V) (e : Bool) (X : VS V) : Bool → VS V := fun x => if x = e then X else S x

theorem take_avg {S : VS V} {t t' : UInt64} {x v : V} (h : S.avg = some v) : (S.take t t' x).avg = some v := by
  cases S <;> cases h
  rfl

theorem upd_grow {S : Bool → VS V} {e : Bool} {t t' : UInt64} {x : V} : Grow (avgs S) (avgs (upd S e ((S e).take t t' x))) := by
  intro y v h
  unfold avgs upd at *
  by_cases hy : y = e
  · subst hy
    rw [if_pos rfl]
    exact take_avg h
  · rw [if_neg hy]
    exact h

/-- The Variables, Linears and the Division. -/
structure J (a b : V) (s : St V) (t : UInt64) (S : Bool → VS V) : Prop where
  vp : ∀ e, Vp s e t (S e)
  ln : ∀ e, Ln a b s e ((S e).q t) []
  dv : Dv s (half t (S false).avg (S true).avg) (half t (S true).avg (S false).avg)

theorem J.frame {a b : V} {s s' : St V} {t : UInt64} {S : Bool → VS V} {R : List Nat} {L : List (Msg V)} (h : J a b s t S) (hf : Fr R L s s') (hR : ∀ x ∈ [5, 6, 7, 18, 19], x ∉ R) : J a b s' t S :=
  ⟨fun e => (h.vp e).frame hf (by cases e <;> exact hR _ (by decide)), fun e => (h.ln e).frame hf (by cases e <;> exact hR _ (by decide)), h.dv.frame hf (hR _ (by decide))⟩

/-- Data come to a Variable and it executes. -/
theorem v_one {a b : V} {θ : Keep V} {s : St V} {e : Bool} {t t' : UInt64} {x : V} {S : Bool → VS V} {f : Nat} {p : List Nat} {src : Nat × Str} (h : J a b s t S) (ht : (S e).due t t') (hk : (S e).k < 1000)
    (hr : Rest θ s p) (hp : From 10 p) :
    ∃ s1 s2, Dl (f + 8) src ⟨t', x⟩ [⟨vr e, i1⟩] s s1 ∧ Tr (f + 8) [⟨vr e, i1⟩] s1 s2 ∧ Fr [vr e, 5, 4, 3, 2, 1, 0, sh e, lin e] (fresh t (avgs S) (avgs (upd S e ((S e).take t t' x)))) s s2 ∧
      J a b s2 t (upd S e ((S e).take t t' x)) ∧ Rest θ s2 p := by
  obtain ⟨s1, k1, k2, k3⟩ := v_data (f := f + 7) (src := src) (t' := t') (x := x) (h.vp e) hk
  have hn : tb θ (vr e) = none := by cases e <;> rfl
  have hd : Dq s e (half t (S e).avg (S !e).avg) (half t (S !e).avg (S e).avg) := by cases e <;> exact h.dv
  obtain ⟨s2, j1, j2, j3, j4, j5, j6⟩ := v_exec (f := f) k3 ht ((h.ln e).frame k2 (by cases e <;> decide)) (hd.frame k2 (by cases e <;> decide)) (hr.other k2 hn) hp
  refine ⟨s1, s2, k1, k3.tr j1 (Tr.nil _), ?_, ?_, j6⟩
  · have hf := (k2.trans j2).mono (S' := [vr e, 5, 4, 3, 2, 1, 0, sh e, lin e]) (by intro z hz; simp at hz ⊢; omega)
    have := fresh_one (t := t) (e := e) (upd_grow (S := S) (e := e) (t := t) (t' := t') (x := x)) (by cases e <;> rfl)
    rw [← this]
    have q : avgs (upd S e ((S e).take t t' x)) e = ((S e).take t t' x).avg := by
      show (if e = e then (S e).take t t' x else S e).avg = _
      rw [if_pos rfl]
    rw [q]
    exact hf
  · have hv := ((h.vp (!e)).frame k2 (by cases e <;> decide)).frame j2 (by cases e <;> decide)
    have hl := ((h.ln (!e)).frame k2 (by cases e <;> decide)).frame j2 (by cases e <;> decide)
    cases e
    · exact ⟨fun y => (by cases y; exacts [j3, hv]), fun y => (by cases y; exacts [j4, hl]), j5⟩
    · exact ⟨fun y => (by cases y; exacts [hv, j3]), fun y => (by cases y; exacts [hl, j4]), j5⟩

def sm (e : Bool) : Nat := if e then 22 else 24
def sc (e : Bool) : Nat := if e then 20 else 21

def Keep.add (θ : Keep V) (e : Bool) (x : V) : Keep V := { θ with u := fun y => if y = e then θ.u e +. x else θ.u y }

theorem tb_out {θ : Keep V} {y : Nat} (h : 41 ≤ y) : tb θ y = none := by
  unfold tb
  rw [List.getElem?_eq_none (by simpa [tbl] using h)]
  rfl

theorem tb_add {θ : Keep V} {e : Bool} {x : V} {y : Nat} (h : y ≠ sm e) : tb (θ.add e x) y = tb θ y := by
  by_cases hy : y < 41
  · cases e <;> interval_cases y <;> first | rfl | exact absurd rfl h
  · rw [tb_out (by omega), tb_out (by omega)]

/-- An operator changes what it keeps. -/
theorem Rest.turn {θ θ' : Keep V} {s s' : St V} {p : List Nat} {x : Nat} {L : List (Msg V)} {t : Str × Map (List Conn) × Kind V} (h : Rest θ s (x :: p)) (hf : Fr [x] L s s') (hx : tb θ' x = some t)
    (hi : Idle s' x t.1 t.2.1 t.2.2) (ho : ∀ y, y ≠ x → tb θ' y = tb θ y) : Rest θ' s' p := fun y t' ht hy => by
  by_cases hyx : y = x
  · subst hyx
    rw [hx] at ht
    cases ht
    exact hi
  · exact (h y t' (by rw [← ho y hyx]; exact ht) (by simp [hyx, hy])).frame hf (by simpa using hyx)

/-- A change comes to a sum. -/
theorem sum {a b : V} {θ : Keep V} {s : St V} {e : Bool} {t t' : UInt64} {x : V} {S : Bool → VS V} {f : Nat} {p : List Nat} {ty : Str × Map (List Conn) × Kind V} (h : J a b s t S) (ht : (S e).due t t')
    (hk : (S e).k < 1000) (hty : tb θ (sm e) = some ty) (hm : Pend s (sm e) ty.1 ty.2.1 ty.2.2 ⟨t', x⟩) (hr : Rest θ s (sm e :: p)) (hp : From 22 p) :
    ∃ s', Ex (f + 10) false (sm e) s s' ∧ Fr [sm e, sc e, vr e, 5, 4, 3, 2, 1, 0, sh e, lin e] (fresh t (avgs S) (avgs (upd S e ((S e).take t t' ((θ.u e +. x) *. θ.b))))) s s' ∧
      J a b s' t (upd S e ((S e).take t t' ((θ.u e +. x) *. θ.b))) ∧ Rest (θ.add e x) s' p := by
  have hty' : ∃ id, ty = (id, [(o1, [⟨sc e, i1⟩])], .cumSum (θ.u e)) ∧ tb (θ.add e x) (sm e) = some (id, [(o1, [⟨sc e, i1⟩])], .cumSum (θ.u e +. x)) := by
    cases e <;> cases hty <;> exact ⟨_, rfl, rfl⟩
  obtain ⟨id, rfl, hid⟩ := hty'
  have hsc : ∃ id, tb (θ.add e x) (sc e) = some (id, [(o1, [⟨vr e, i1⟩])], .scale θ.b) := by cases e <;> exact ⟨_, rfl⟩
  obtain ⟨id', hid'⟩ := hsc
  obtain ⟨s1, k1, k2, k3⟩ := ex_makes (f := f + 9) (by cases e <;> decide) (makes_cumSum _ _) hm (cs := [⟨sc e, i1⟩]) rfl
  have hr1 : Rest (θ.add e x) s1 p := hr.turn k1 hid k2 (fun y hy => tb_add hy)
  obtain ⟨s2, j1, j2, j3⟩ := dl_idle (f := f + 8) (src := (sm e, o1)) (base_scale _) (hr1 _ _ hid' (hp.not (by cases e <;> decide))) ⟨t', θ.u e +. x⟩
  have hr2 := hr1.out j2
  obtain ⟨s3, n1, n2, n3⟩ := ex_makes (f := f + 8) (by cases e <;> decide) (makes_scale _ _) j3 (cs := [⟨vr e, i1⟩]) rfl
  have hr3 : Rest (θ.add e x) s3 p := hr2.back n1 hid' n2 (by simp; tauto)
  have hf3 := (k1.trans j2).trans n1
  obtain ⟨s4, s5, l1, l2, l3, l4, l5⟩ := v_one (f := f) (src := (sc e, o1)) (x := (θ.u e +. x) *. θ.b) (h.frame hf3 (by cases e <;> decide)) ht hk hr3 (hp.le (by decide))
  exact ⟨s5, k3 _ _ j1 (j3.tr (n3 _ _ l1 l2) (Tr.nil _)), (hf3.trans l3).mono (by intro z hz; simp at hz ⊢; omega), l4, l5⟩

/-- What a change adds to a sum. -/
def gets (e : Bool) (d : V) : Option V :=
  if e then (if Num.lt d (Num.ofNat 0) then some (d *. Num.neg (Num.ofNat 1)) else if Num.eq d (Num.ofNat 0) then some d else none)
  else if Num.lt (Num.ofNat 0) d || Num.eq d (Num.ofNat 0) then some d else none

def Keep.adds (θ : Keep V) (d : V) : Keep V := { θ with u := fun e => match gets e d with | none => θ.u e | some x => θ.u e +. x }

def takes (θ : Keep V) (t t' : UInt64) (d : V) (S : Bool → VS V) : Bool → VS V := fun e =>
  match gets e d with
  | none => S e
  | some x => (S e).take t t' ((θ.u e +. x) *. θ.b)

/-- The operators that tell whether a change is added to the losses or the gains. -/
theorem sums {a b : V} {θ : Keep V} {s : St V} {t t' : UInt64} {d : V} {S : Bool → VS V} {f : Nat} {p : List Nat} {src : Nat × Str} (hd : Sgn d) (h : J a b s t S) (ht : ∀ e, (S e).due t t')
    (hk : ∀ e, (S e).k < 1000) (hr : Rest θ s p) (hp : From 28 p) :
    ∃ s1 s2, Dl (f + 14) src ⟨t', d⟩ [⟨25, i1⟩, ⟨26, i1⟩, ⟨27, i1⟩] s s1 ∧ Tr (f + 14) [⟨25, i1⟩, ⟨26, i1⟩, ⟨27, i1⟩] s1 s2 ∧
      Fr (List.range 10 ++ [18, 19, 20, 21, 22, 23, 24, 25, 26, 27]) (fresh t (avgs S) (avgs (takes θ t t' d S))) s s2 ∧ J a b s2 t (takes θ t t' d S) ∧ Rest (θ.adds d) s2 p := by
  obtain ⟨s1, a1, a2, a3, a4⟩ := dls (f := f + 13) (src := src) (m := ⟨t', d⟩) [25, 26, 27] (by decide) (by intro x hx; fin_cases hx <;> rfl)
    (by intro x hx; exact hp.not (by fin_cases hx <;> decide)) hr
  have p25 := a3 25 (by decide) _ rfl
  have p26 := a3 26 (by decide) _ rfl
  have p27 := a3 27 (by decide) _ rfl
  have h1 : J a b s1 t S := h.frame a2 (by decide)
  have g27 : From 25 (27 :: p) := (hp.le (by decide)).cons (by decide)
  have g26 : From 25 (26 :: 27 :: p) := g27.cons (by decide)
  cases hd with
  | neg l1 l2 l3 =>
    have q1 : gets true d = some (d *. Num.neg (Num.ofNat 1)) := by simp [gets, l1]
    have q2 : gets false d = none := by simp [gets, l2, l3]
    have e1 : θ.adds d = θ.add true (d *. Num.neg (Num.ofNat 1)) := by
      unfold Keep.adds Keep.add
      congr 1
      funext e
      cases e
      · rw [q2]; rfl
      · rw [q1]; rfl
    have e2 : takes θ t t' d S = upd S true ((S true).take t t' ((θ.u true +. (d *. Num.neg (Num.ofNat 1))) *. θ.b)) := by
      unfold takes upd
      funext e
      cases e
      · rw [q2]; rfl
      · rw [q1]; rfl
    rw [e1, e2]
    obtain ⟨s2, b1, b2, b3, b4⟩ := link (f := f + 12) (by decide) rfl rfl (base_scale _) (makes_filter (fo := .lessThan) (m := ⟨t', d⟩) l1) p25 a4 (by decide) (g26.not (by decide))
    obtain ⟨s3, c1, c2, c3, c4⟩ := link (f := f + 11) (by decide) rfl rfl (base_cumSum _) (makes_scale _ _) b2 b3 (by decide) (g26.not (by decide))
    have f3 := b1.trans c1
    obtain ⟨s4, d1, d2, d3, d4⟩ := sum (f := f + 2) (e := true) (x := d *. Num.neg (Num.ofNat 1)) (h1.frame f3 (by decide)) (ht true) (hk true) rfl c2 c3 (g26.le (by decide))
    have p26' := (p26.frame f3 (by decide)).frame d2 (by decide)
    obtain ⟨s5, k1, k2, k3⟩ := halt (f := f + 13) (x := 26) rfl (stops_filter (fo := .equalTo) (m := ⟨t', d⟩) l2) p26' d4
    have p27' := ((p27.frame f3 (by decide)).frame d2 (by decide)).frame k2 (by decide)
    obtain ⟨s6, m1, m2, m3⟩ := halt (f := f + 13) (x := 27) rfl (stops_filter (fo := .greaterThan) (m := ⟨t', d⟩) l3) p27' k3
    refine ⟨s1, s6, a1, p25.tr (b4 _ (c4 _ d1)) (p26'.tr k1 (p27'.tr m1 (Tr.nil _))), ?_, (d3.frame k2 (by decide)).frame m2 (by decide), m3⟩
    have := ((((a2.trans f3).trans d2).trans k2).trans m2).mono (S' := List.range 10 ++ [18, 19, 20, 21, 22, 23, 24, 25, 26, 27]) (by decide)
    simpa using this
  | zero l1 l2 l3 =>
    have q1 : gets true d = some d := by simp [gets, l1, l2]
    have q2 : gets false d = some d := by simp [gets, l2]
    obtain ⟨s2, b1, b2, b3⟩ := halt (f := f + 13) (x := 25) rfl (stops_filter (fo := .lessThan) (m := ⟨t', d⟩) l1) p25 a4
    have p26' := p26.frame b2 (by decide)
    obtain ⟨s3, c1, c2, c3⟩ := ex_makes (f := f + 13) (by decide) (makes_filter (fo := .equalTo) (m := ⟨t', d⟩) l2) p26' (cs := [⟨22, i1⟩, ⟨24, i1⟩]) rfl
    have hr3 : Rest θ s3 (27 :: p) := b3.back c1 rfl c2 (by simp; tauto)
    obtain ⟨s4, d1, d2, d3, d4⟩ := dls (f := f + 12) (src := (26, o1)) (m := ⟨t', d⟩) [22, 24] (by decide) (by intro x hx; fin_cases hx <;> rfl)
      (by intro x hx; exact g27.not (by fin_cases hx <;> decide)) hr3
    have f4 := (b2.trans c1).trans d2
    have p22 := d3 22 (by decide) _ rfl
    obtain ⟨s5, k1, k2, k3, k4⟩ := sum (f := f + 3) (e := true) (x := d) (h1.frame f4 (by decide)) (ht true) (hk true) rfl p22 d4 ((g27.le (by decide)).cons (by decide))
    have p24 := (d3 24 (by decide) _ rfl).frame k2 (by decide)
    obtain ⟨s6, m1, m2, m3, m4⟩ := sum (θ := θ.add true d) (f := f + 3) (e := false) (x := d) k3 (ht false) (hk false) rfl p24 k4 (g27.le (by decide))
    have p27' := ((p27.frame f4 (by decide)).frame k2 (by decide)).frame m2 (by decide)
    obtain ⟨s7, n1, n2, n3⟩ := halt (f := f + 13) (x := 27) rfl (stops_filter (fo := .greaterThan) (m := ⟨t', d⟩) l3) p27' m4
    have e1 : θ.adds d = (θ.add true d).add false d := by
      unfold Keep.adds Keep.add
      congr 1
      funext e
      cases e
      · rw [q2]; rfl
      · rw [q1]; rfl
    have e2 : takes θ t t' d S = upd (upd S true ((S true).take t t' ((θ.u true +. d) *. θ.b))) false ((S false).take t t' ((θ.u false +. d) *. θ.b)) := by
      unfold takes upd
      funext e
      cases e
      · rw [q2]; rfl
      · rw [q1]; rfl
    rw [e1, e2]
    refine ⟨s1, s7, a1, p25.tr b1 (p26'.tr (c3 _ _ d1 (p22.tr k1 (p24.tr m1 (Tr.nil _)))) (p27'.tr n1 (Tr.nil _))), ?_, m3.frame n2 (by decide), n3⟩
    have := (((a2.trans f4).trans (k2.trans m2)).trans n2).mono (S' := List.range 10 ++ [18, 19, 20, 21, 22, 23, 24, 25, 26, 27]) (by decide)
    rw [fresh_trans upd_grow upd_grow] at this
    simp only [List.nil_append, List.append_nil] at this
    exact this
  | pos l1 l2 l3 =>
    have q1 : gets true d = none := by simp [gets, l1, l2]
    have q2 : gets false d = some d := by simp [gets, l3]
    have e1 : θ.adds d = θ.add false d := by
      unfold Keep.adds Keep.add
      congr 1
      funext e
      cases e
      · rw [q2]; rfl
      · rw [q1]; rfl
    have e2 : takes θ t t' d S = upd S false ((S false).take t t' ((θ.u false +. d) *. θ.b)) := by
      unfold takes upd
      funext e
      cases e
      · rw [q2]; rfl
      · rw [q1]; rfl
    rw [e1, e2]
    obtain ⟨s2, b1, b2, b3⟩ := halt (f := f + 13) (x := 25) rfl (stops_filter (fo := .lessThan) (m := ⟨t', d⟩) l1) p25 a4
    have p26' := p26.frame b2 (by decide)
    obtain ⟨s3, c1, c2, c3⟩ := halt (f := f + 13) (x := 26) rfl (stops_filter (fo := .equalTo) (m := ⟨t', d⟩) l2) p26' b3
    have p27' := (p27.frame b2 (by decide)).frame c2 (by decide)
    obtain ⟨s4, d1, d2, d3, d4⟩ := link (f := f + 12) (by decide) rfl rfl (base_cumSum _) (makes_filter (fo := .greaterThan) (m := ⟨t', d⟩) l3) p27' c3 (by decide) (hp.not (by decide))
    have f4 := (b2.trans c2).trans d1
    obtain ⟨s5, k1, k2, k3, k4⟩ := sum (f := f + 3) (e := false) (x := d) (h1.frame f4 (by decide)) (ht false) (hk false) rfl d2 d3 (hp.le (by decide))
    refine ⟨s1, s5, a1, p25.tr b1 (p26'.tr c1 (p27'.tr (d4 _ k1) (Tr.nil _))), ?_, k3, k4⟩
    have := ((a2.trans f4).trans k2).mono (S' := List.range 10 ++ [18, 19, 20, 21, 22, 23, 24, 25, 26, 27]) (by decide)
    simpa using this

abbrev Early (s : St V) (o : Option (Msg V)) : Prop := Df s 28 b!"34" [(o1, [⟨25, i1⟩, ⟨26, i1⟩, ⟨27, i1⟩])] o

/-- A message goes to the Difference of the sums. -/
theorem early {a b : V} {θ : Keep V} {s : St V} {f : Nat} {t : UInt64} {m m0 : Msg V} {S : Bool → VS V} {p : List Nat} {src : Nat × Str} (h28 : Early s (some m0)) (hT : Num.toTime (ofTime m.time : V) = some m.time)
    (hd : Sgn (m.value -. m0.value)) (h : J a b s t S) (ht : ∀ e, (S e).due t m.time) (hk : ∀ e, (S e).k < 1000) (hr : Rest θ s p) (hp : From 28 p) :
    ∃ s1 s2, Dl (f + 15) src m [⟨28, i1⟩] s s1 ∧ Tr (f + 15) [⟨28, i1⟩] s1 s2 ∧
      Fr (List.range 10 ++ [18, 19, 20, 21, 22, 23, 24, 25, 26, 27, 28]) (fresh t (avgs S) (avgs (takes θ t m.time (m.value -. m0.value) S))) s s2 ∧ J a b s2 t (takes θ t m.time (m.value -. m0.value) S) ∧
      Rest (θ.adds (m.value -. m0.value)) s2 p ∧ Early s2 (some m) := by
  obtain ⟨s1, s2, k1, k2, k3, k4⟩ := df_next (f := f + 14) (src := src) (by decide) h28 hT (cs := [⟨25, i1⟩, ⟨26, i1⟩, ⟨27, i1⟩]) rfl
  obtain ⟨s3, s4, j1, j2, j3, j4, j5⟩ := sums (f := f) (src := (28, o1)) hd (h.frame k2 (by decide)) ht hk (hr.other k2 rfl) hp
  exact ⟨s1, s4, k1, k4 _ _ j1 j2, (k2.trans j3).mono (by decide), j4, j5, k3.frame j3 (by decide)⟩

end Rtbot.RsiProgram
