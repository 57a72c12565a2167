import Verif.Lemmas.RsiEarly

/-! # One message in the program of C94 -/

namespace Rtbot.RsiProgram
open Spec Wave Selector Ripple
variable {V : Type} [Num V]

def dw : Map (List Conn) := [(o1, [⟨28, i1⟩]), (o2, [⟨17, i1⟩])]

/-- The buffers of the Demultiplexer. -/
def Dm (s : St V) (D C1 C2 : List (Msg V)) : Prop := ∃ x y z, s.heap 29 = some (demux b!"144" dw x y z D C1 C2)

theorem Dm.frame {s s' : St V} {D C1 C2 L : List (Msg V)} {S : List Nat} (h : Dm s D C1 C2) (hf : Fr S L s s') (hS : 29 ∉ S) : Dm s' D C1 C2 := by
  obtain ⟨x, y, z, hh⟩ := h
  exact ⟨x, y, z, (hf.same _ hS).trans hh⟩

theorem demux_own {id : Str} {w : Map (List Conn)} {x y z : V} {D C1 C2 : List (Msg V)} : Own (demux id w x y z D C1 C2) := ⟨fun _ _ h => (by cases h), fun _ _ _ h => (by cases h)⟩

/-- The numbers 0 and 1. -/
structure Bits (V : Type) [Num V] : Prop where
  h00 : Num.eq (Num.ofNat 0 : V) (Num.ofNat 0) = true
  h01 : Num.eq (Num.ofNat 0 : V) (Num.ofNat 1) = false
  h11 : Num.eq (Num.ofNat 1 : V) (Num.ofNat 1) = true

theorem Bits.bit0 (h : Bits V) : Bit (Num.ofNat 0 : V) := by simp [Bit, h.h00]
theorem Bits.bit1 (h : Bits V) : Bit (Num.ofNat 1 : V) := by simp [Bit, h.h11]

theorem wait0 {id : Str} {w : Map (List Conn)} {x y z : V} {m : Msg V} : (demux id w x y z [m] [] []).execData = .ok [] (demux id w x y z [m] [] []) := rfl

theorem wait1 {id : Str} {w : Map (List Conn)} {x y z : V} {m : Msg V} {v : V} (hv : Bit v) : (demux id w x y z [m] [⟨m.time, v⟩] []).execCtrl = .ok [] (demux id w x y z [m] [⟨m.time, v⟩] []) := by
  unfold Bit at hv
  simp [Op.execCtrl, Op.execDemux, demux, demuxScan, Inp.dropOlder, Inp.dropOlder.go, hv, Except.map]

theorem wait2 {id : Str} {w : Map (List Conn)} {x y z : V} {m : Msg V} {v : V} (hv : Bit v) : (demux id w x y z [m] [] [⟨m.time, v⟩]).execCtrl = .ok [] (demux id w x y z [m] [] [⟨m.time, v⟩]) := by
  unfold Bit at hv
  simp [Op.execCtrl, Op.execDemux, demux, demuxScan, Inp.dropOlder, Inp.dropOlder.go, hv, Except.map]

theorem fire1 (hb : Bits V) {id : Str} {w : Map (List Conn)} {x y z : V} {m : Msg V} :
    ∃ x' y' z', (demux id w x y z [m] [⟨m.time, Num.ofNat 1⟩] [⟨m.time, Num.ofNat 0⟩]).execCtrl = .ok [(o1, [m])] (demux id w x' y' z' [] [] []) := by
  refine ⟨x -. m.value, y -. Num.ofNat 1, z -. Num.ofNat 0, ?_⟩
  simp [Op.execCtrl, Op.execDemux, demux, demuxScan, Inp.dropOlder, Inp.dropOlder.go, hb.h11, hb.h00, hb.h01, Except.map, demuxMessages, Map.find?, Map.emplace, popAll, Inp.popSum, bind, Except.bind]
  rfl

theorem fire2 (hb : Bits V) {id : Str} {w : Map (List Conn)} {x y z : V} {m : Msg V} :
    ∃ x' y' z', (demux id w x y z [m] [⟨m.time, Num.ofNat 0⟩] [⟨m.time, Num.ofNat 1⟩]).execCtrl = .ok [(o2, [m])] (demux id w x' y' z' [] [] []) := by
  refine ⟨x -. m.value, y -. Num.ofNat 0, z -. Num.ofNat 1, ?_⟩
  simp [Op.execCtrl, Op.execDemux, demux, demuxScan, Inp.dropOlder, Inp.dropOlder.go, hb.h11, hb.h00, hb.h01, Except.map, demuxMessages, Map.find?, Map.emplace, popAll, Inp.popSum, bind, Except.bind, c1, c2]
  rfl

theorem fire12 (hb : Bits V) {id : Str} {w : Map (List Conn)} {x y z : V} {m : Msg V} :
    ∃ x' y' z', (demux id w x y z [m] [⟨m.time, Num.ofNat 1⟩] [⟨m.time, Num.ofNat 1⟩]).execCtrl = .ok [(o1, [m]), (o2, [m])] (demux id w x' y' z' [] [] []) := by
  refine ⟨x -. m.value, y -. Num.ofNat 1, z -. Num.ofNat 1, ?_⟩
  simp [Op.execCtrl, Op.execDemux, demux, demuxScan, Inp.dropOlder, Inp.dropOlder.go, hb.h11, hb.h00, hb.h01, Except.map, demuxMessages, Map.find?, Map.emplace, popAll, Inp.popSum, bind, Except.bind, c1, c2, o1, o2]
  rfl

/-- A control message comes to the Demultiplexer from a Constant. -/
theorem ctl {θ : Keep V} {s : St V} {x : Nat} {id : Str} {cp : Str} {v : V} {m' : Msg V} {p : List Nat} {f : Nat} {D C1 C2 C1' C2' : List (Msg V)} (hx : tb θ x = some (id, [(o1, [⟨29, cp⟩])], .constant v))
    (hx30 : 30 ≤ x) (hm : Pend s x id [(o1, [⟨29, cp⟩])] (.constant v) m') (hr : Rest θ s (x :: p)) (hd : Dm s D C1 C2)
    (hc : (cp = c1 ∧ C1' = C1 ++ [⟨m'.time, v⟩] ∧ C2' = C2) ∨ (cp = c2 ∧ C1' = C1 ∧ C2' = C2 ++ [⟨m'.time, v⟩])) :
    ∃ s1, Fr [x, 29] [] s s1 ∧ Dm s1 D C1' C2' ∧ Rest θ s1 p ∧ ∀ s2, Ex (f + 1) true 29 s1 s2 → Ex (f + 2) false x s s2 := by
  obtain ⟨s1, k1, k2, k3⟩ := ex_makes (f := f + 1) (by omega) (makes_constant _ _) hm (cs := [⟨29, cp⟩]) rfl
  obtain ⟨y1, y2, y3, hh⟩ := hd.frame k1 (by simp; omega)
  have hr1 : Rest θ s1 p := hr.back k1 hx k2 (by simp; tauto)
  have key : ∃ s2, Dl (f + 1) (x, o1) ⟨m'.time, v⟩ [⟨29, cp⟩] s1 s2 ∧ Fr [29] [] s1 s2 ∧ Dm s2 D C1' C2' ∧ ∀ s3, Ex (f + 1) true 29 s2 s3 → Tr (f + 1) [⟨29, cp⟩] s2 s3 := by
    rcases hc with ⟨rfl, rfl, rfl⟩ | ⟨rfl, rfl, rfl⟩
    · obtain ⟨s2, j1, j2, j3⟩ := dl_ctrl (f := f) (src := (x, o1)) (m := ⟨m'.time, v⟩) (q := c1) (o' := demux b!"144" dw y1 (y2 +. v) y3 D (C1 ++ [⟨m'.time, v⟩]) C2') hh demux_own (by rfl) (by rfl) rfl
      exact ⟨s2, j1, j2, ⟨_, _, _, j3⟩, fun s3 he => Tr.ctrl j3 (by rfl) (by rfl) he (Tr.nil _)⟩
    · obtain ⟨s2, j1, j2, j3⟩ := dl_ctrl (f := f) (src := (x, o1)) (m := ⟨m'.time, v⟩) (q := c2) (o' := demux b!"144" dw y1 y2 (y3 +. v) D C1' (C2 ++ [⟨m'.time, v⟩])) hh demux_own (by rfl) (by rfl) rfl
      exact ⟨s2, j1, j2, ⟨_, _, _, j3⟩, fun s3 he => Tr.ctrl j3 (by rfl) (by rfl) he (Tr.nil _)⟩
  obtain ⟨s2, j1, j2, j3, j4⟩ := key
  exact ⟨s2, k1.trans j2, j3, hr1.other j2 rfl, fun s3 he => k3 _ _ j1 (j4 _ he)⟩

/-- The Demultiplexer waits for the other control message. -/
theorem ctl_wait {θ : Keep V} {s : St V} {x : Nat} {id : Str} {cp : Str} {v : V} {m m' : Msg V} {p : List Nat} {f : Nat} {C1' C2' : List (Msg V)} (hx : tb θ x = some (id, [(o1, [⟨29, cp⟩])], .constant v))
    (hx30 : 30 ≤ x) (hm : Pend s x id [(o1, [⟨29, cp⟩])] (.constant v) m') (hr : Rest θ s (x :: p)) (hd : Dm s [m] [] []) (hmt : m'.time = m.time) (hv : Bit v)
    (hc : (cp = c1 ∧ C1' = [⟨m.time, v⟩] ∧ C2' = []) ∨ (cp = c2 ∧ C1' = [] ∧ C2' = [⟨m.time, v⟩])) :
    ∃ s', Ex (f + 2) false x s s' ∧ Fr [x, 29] [] s s' ∧ Dm s' [m] C1' C2' ∧ Rest θ s' p := by
  obtain ⟨s1, k1, k2, k3, k4⟩ := ctl (f := f) (C1' := C1') (C2' := C2') hx hx30 hm hr hd (by rw [hmt]; exact hc)
  obtain ⟨y1, y2, y3, hh⟩ := k2
  have he : (demux b!"144" dw y1 y2 y3 [m] C1' C2').execCtrl = .ok [] (demux b!"144" dw y1 y2 y3 [m] C1' C2') := by
    rcases hc with ⟨rfl, rfl, rfl⟩ | ⟨rfl, rfl, rfl⟩
    · exact wait1 hv
    · exact wait2 hv
  obtain ⟨s2, j1, j2, j3⟩ := ex_quiet (f := f) (ctrl := true) hh demux_own he
  exact ⟨s2, k4 _ j1, (k1.trans j2).mono (by simp), ⟨_, _, _, j3⟩, k3.other j2 rfl⟩

/-- The Demultiplexer passes its message on. -/
theorem ctl_fire {θ : Keep V} {s : St V} {x : Nat} {id : Str} {cp po : Str} {v : V} {m m' : Msg V} {p : List Nat} {f : Nat} {C1 C2 C1' C2' : List (Msg V)} {cs : List Conn}
    (hx : tb θ x = some (id, [(o1, [⟨29, cp⟩])], .constant v)) (hx30 : 30 ≤ x) (hm : Pend s x id [(o1, [⟨29, cp⟩])] (.constant v) m') (hr : Rest θ s (x :: p)) (hd : Dm s [m] C1 C2)
    (hc : (cp = c1 ∧ C1' = C1 ++ [⟨m'.time, v⟩] ∧ C2' = C2) ∨ (cp = c2 ∧ C1' = C1 ∧ C2' = C2 ++ [⟨m'.time, v⟩]))
    (hf : ∀ y1 y2 y3, ∃ x' y' z', (demux b!"144" dw y1 y2 y3 [m] C1' C2').execCtrl = .ok [(po, [m])] (demux b!"144" dw x' y' z' [] [] [])) (hpo : ([o1, o2] : List Str).contains po = true) (hcs : dw.find? po = some cs) :
    ∃ s1, Fr [x, 29] [] s s1 ∧ Dm s1 [] [] [] ∧ Rest θ s1 p ∧ ∀ s2 s3, Dl f (29, po) m cs s1 s2 → Tr f cs s2 s3 → Ex (f + 2) false x s s3 := by
  obtain ⟨s1, k1, k2, k3, k4⟩ := ctl (f := f) hx hx30 hm hr hd hc
  obtain ⟨y1, y2, y3, hh⟩ := k2
  obtain ⟨z1, z2, z3, he⟩ := hf y1 y2 y3
  obtain ⟨s2, j1, j2, j3⟩ := ex_one (f := f) (ctrl := true) (p := po) (m := m) (cs := cs) (by decide) hh demux_own he hpo hcs
  exact ⟨s2, (k1.trans j1).mono (by simp), ⟨_, _, _, j2⟩, k3.other j1 rfl, fun s3 s4 a1 a2 => k4 _ (j3 _ _ a1 a2)⟩

/-- The Demultiplexer passes its message on to both. -/
theorem ctl_both (hb : Bits V) {θ : Keep V} {s : St V} {x : Nat} {id : Str} {m m' : Msg V} {p : List Nat} {f : Nat}
    (hx : tb θ x = some (id, [(o1, [⟨29, c1⟩])], .constant (Num.ofNat 1))) (hx30 : 30 ≤ x) (hm : Pend s x id [(o1, [⟨29, c1⟩])] (.constant (Num.ofNat 1)) m') (hr : Rest θ s (x :: p))
    (hd : Dm s [m] [] [⟨m.time, Num.ofNat 1⟩]) (hmt : m'.time = m.time) :
    ∃ s1, Fr [x, 29] [] s s1 ∧ Dm s1 [] [] [] ∧ Rest θ s1 p ∧ ∀ s2 s3 S L, Dl f (29, o1) m [⟨28, i1⟩] s1 s2 → Tr f [⟨28, i1⟩] s2 s3 → Fr S L s1 s3 → 29 ∉ S →
      ∃ s4, Fr [] [] s3 s4 ∧ ∀ s5 s6, Dl f (29, o2) m [⟨17, i1⟩] s4 s5 → Tr f [⟨17, i1⟩] s5 s6 → Ex (f + 2) false x s s6 := by
  obtain ⟨s1, k1, k2, k3, k4⟩ := ctl (f := f) hx hx30 hm hr hd (.inl ⟨rfl, rfl, rfl⟩)
  obtain ⟨y1, y2, y3, hh⟩ := k2
  obtain ⟨z1, z2, z3, he⟩ := fire12 hb (id := b!"144") (w := dw) (x := y1) (y := y2) (z := y3) (m := m)
  rw [hmt] at hh
  obtain ⟨s2, j1, j2, j3⟩ := ex_two (f := f) (ctrl := true) (p := o1) (q := o2) (m := m) (cs := [⟨28, i1⟩]) (ds := [⟨17, i1⟩]) (by decide) hh demux_own he (by rfl) (by rfl) (by rfl) (by rfl)
  refine ⟨s2, (k1.trans j1).mono (by simp), ⟨_, _, _, j2⟩, k3.other j1 rfl, fun s3 s4 S L a1 a2 a3 a4 => ?_⟩
  obtain ⟨s5, l1, l2⟩ := j3 _ _ a1 a2 ((a3.same _ a4).trans j2)
  exact ⟨s5, l1, fun s6 s7 b1 b2 => k4 _ (l2 _ _ b1 b2)⟩

/-- Less than 15 messages. -/
theorem less (hb : Bits V) {θ : Keep V} {s : St V} {m m' : Msg V} {p : List Nat} {f : Nat} {ty : Str × Map (List Conn) × Kind V} (hty : tb θ 38 = some ty) (hm : Pend s 38 ty.1 ty.2.1 ty.2.2 m')
    (hc : Num.lt m'.value (Num.ofNat 15) = true) (hr : Rest θ s (38 :: p)) (hp : From 38 p) (hd : Dm s [m] [] []) (hmt : m'.time = m.time) :
    ∃ s1, Fr [38, 31, 32, 29] [] s s1 ∧ Dm s1 [] [] [] ∧ Rest θ s1 p ∧ ∀ s2 s3, Dl f (29, o1) m [⟨28, i1⟩] s1 s2 → Tr f [⟨28, i1⟩] s2 s3 → Ex (f + 3) false 38 s s3 := by
  cases hty
  obtain ⟨s1, k1, k2, k3⟩ := ex_makes (f := f + 2) (by decide) (makes_filter (fo := .lessThan) hc) hm (cs := [⟨31, i1⟩, ⟨32, i1⟩]) rfl
  have hr1 : Rest θ s1 p := hr.back k1 rfl k2 (by simp; tauto)
  obtain ⟨s2, a1, a2, a3, a4⟩ := dls (f := f + 1) (src := (38, o1)) (m := m') [31, 32] (by decide) (by intro x hx; fin_cases hx <;> rfl)
    (by intro x hx; exact hp.not (by fin_cases hx <;> decide)) hr1
  have p31 := a3 31 (by decide) _ rfl
  have hd2 := (hd.frame k1 (by decide)).frame a2 (by decide)
  obtain ⟨s3, b1, b2, b3, b4⟩ := ctl_wait (f := f) rfl (by decide) p31 a4 hd2 hmt hb.bit0 (.inr ⟨rfl, rfl, rfl⟩)
  have p32 := (a3 32 (by decide) _ rfl).frame b2 (by decide)
  obtain ⟨s4, c1, c2, c3, c4⟩ := ctl_fire (f := f) (po := o1) (cs := [⟨28, i1⟩]) rfl (by decide) p32 b4 b3 (.inl ⟨rfl, rfl, rfl⟩) (by intro y1 y2 y3; rw [hmt]; exact fire1 hb) (by rfl) (by rfl)
  exact ⟨s4, (((k1.trans a2).trans b2).trans c1).mono (by decide), c2, c3, fun s5 s6 l1 l2 => k3 _ _ a1 (p31.tr b1 (p32.tr (c4 _ _ l1 l2) (Tr.nil _)))⟩

/-- More than 15 messages. -/
theorem more (hb : Bits V) {θ : Keep V} {s : St V} {m m' : Msg V} {p : List Nat} {f : Nat} {ty : Str × Map (List Conn) × Kind V} (hty : tb θ 37 = some ty) (hm : Pend s 37 ty.1 ty.2.1 ty.2.2 m')
    (hc : Num.lt (Num.ofNat 15) m'.value = true) (hr : Rest θ s (37 :: p)) (hp : From 37 p) (hd : Dm s [m] [] []) (hmt : m'.time = m.time) :
    ∃ s1, Fr [37, 33, 34, 30, 29] [] s s1 ∧ Dm s1 [] [] [] ∧ Rest θ s1 p ∧ ∀ s2 s3, Dl f (29, o2) m [⟨17, i1⟩] s1 s2 → Tr f [⟨17, i1⟩] s2 s3 → Ex (f + 4) false 37 s s3 := by
  cases hty
  obtain ⟨s1, k1, k2, k3⟩ := ex_makes (f := f + 3) (by decide) (makes_filter (fo := .greaterThan) hc) hm (cs := [⟨33, i1⟩, ⟨34, i1⟩]) rfl
  have hr1 : Rest θ s1 p := hr.back k1 rfl k2 (by simp; tauto)
  obtain ⟨s2, a1, a2, a3, a4⟩ := dls (f := f + 2) (src := (37, o1)) (m := m') [33, 34] (by decide) (by intro x hx; fin_cases hx <;> rfl)
    (by intro x hx; exact hp.not (by fin_cases hx <;> decide)) hr1
  have p33 := a3 33 (by decide) _ rfl
  have hd2 := (hd.frame k1 (by decide)).frame a2 (by decide)
  obtain ⟨s3, b1, b2, b3, b4⟩ := ctl_wait (f := f + 1) rfl (by decide) p33 a4 hd2 hmt hb.bit0 (.inl ⟨rfl, rfl, rfl⟩)
  have p34 := (a3 34 (by decide) _ rfl).frame b2 (by decide)
  obtain ⟨s4, d1, d2, d3, d4⟩ := link (f := f + 1) (by decide) rfl rfl (base_constant _) (makes_constant _ _) p34 b4 (by decide) (hp.not (by decide))
  obtain ⟨s5, c1, c2, c3, c4⟩ := ctl_fire (f := f) (po := o2) (cs := [⟨17, i1⟩]) rfl (by decide) d2 d3 (b3.frame d1 (by decide)) (.inr ⟨rfl, rfl, rfl⟩)
    (by intro y1 y2 y3; dsimp only; rw [hmt]; exact fire2 hb) (by rfl) (by rfl)
  exact ⟨s5, ((((k1.trans a2).trans b2).trans d1).trans c1).mono (by decide), c2, c3, fun s6 s7 l1 l2 => k3 _ _ a1 (p33.tr b1 (p34.tr (d4 _ (c4 _ _ l1 l2)) (Tr.nil _)))⟩

/-- The 15th message. -/
theorem same (hb : Bits V) {a b : V} {θ : Keep V} {s : St V} {m m' : Msg V} {p : List Nat} {f : Nat} {t0 τ : UInt64} {w : Bool → Option V} {k : Nat} {ty : Str × Map (List Conn) × Kind V} (hty : tb θ 36 = some ty)
    (hm : Pend s 36 ty.1 ty.2.1 ty.2.2 m') (hc : Num.eq m'.value (Num.ofNat 15) = true) (hr : Rest θ s (36 :: p)) (hp : From 36 p) (hd : Dm s [m] [] []) (hmt : m'.time = m.time)
    (h : J a b s t0 (fun e => .opened τ (w e) k)) (hτ : τ < m.time) :
    ∃ s1, Fr [36, 18, 19, 30, 32, 29] [] s s1 ∧ Dm s1 [] [] [] ∧ Rest θ s1 p ∧ J a b s1 m.time (fun e => .ask (w e)) ∧
      ∀ s2 s3 S L, Dl f (29, o1) m [⟨28, i1⟩] s1 s2 → Tr f [⟨28, i1⟩] s2 s3 → Fr S L s1 s3 → 29 ∉ S →
      ∃ s4, Fr [] [] s3 s4 ∧ ∀ s5 s6, Dl f (29, o2) m [⟨17, i1⟩] s4 s5 → Tr f [⟨17, i1⟩] s5 s6 → Ex (f + 3) false 36 s s6 := by
  cases hty
  obtain ⟨mt, mv⟩ := m'
  cases hmt
  obtain ⟨s1, k1, k2, k3⟩ := ex_makes (f := f + 2) (by decide) (makes_filter (fo := .equalTo) hc) hm (cs := [⟨18, c1⟩, ⟨19, c1⟩, ⟨30, i1⟩, ⟨32, i1⟩]) rfl
  have hr1 : Rest θ s1 p := hr.back k1 rfl k2 (by simp; tauto)
  have h1 := h.frame k1 (by decide)
  obtain ⟨s2, u1, u2, u3⟩ := v_ask (f := f + 1) (f' := f + 1) (c := mv) (src := (36, o1)) (h1.vp true) hτ
  obtain ⟨s3, v1, v2, v3⟩ := v_ask (f := f + 1) (f' := f + 1) (c := mv) (src := (36, o1)) ((h1.vp false).frame u2 (by decide)) hτ
  have hr3 : Rest θ s3 p := (hr1.other u2 rfl).other v2 rfl
  obtain ⟨s4, a1, a2, a3, a4⟩ := dls (f := f + 1) (src := (36, o1)) (m := ⟨m.time, mv⟩) [30, 32] (by decide) (by intro x hx; fin_cases hx <;> rfl)
    (by intro x hx; exact hp.not (by fin_cases hx <;> decide)) hr3
  obtain ⟨s5, x1, x2, x3⟩ := u3 (v2.trans a2) (by decide)
  obtain ⟨s6, y1, y2, y3⟩ := v3 (a2.trans x2) (by decide)
  have f1 := u2.trans v2
  have f2 := x2.trans y2
  have hr6 : Rest θ s6 ([30, 32] ++ p) := (a4.other x2 rfl).other y2 rfl
  have p30 := (a3 30 (by decide) _ rfl).frame f2 (by decide)
  have hd6 := (((hd.frame k1 (by decide)).frame f1 (by decide)).frame a2 (by decide)).frame f2 (by decide)
  obtain ⟨s7, b1, b2, b3, b4⟩ := ctl_wait (f := f) rfl (by decide) p30 hr6 hd6 rfl hb.bit1 (.inr ⟨rfl, rfl, rfl⟩)
  have p32 := ((a3 32 (by decide) _ rfl).frame f2 (by decide)).frame b2 (by decide)
  obtain ⟨s8, c1, c2, c3, c4⟩ := ctl_both (f := f) hb rfl (by decide) p32 b4 b3 rfl
  have f3 := (f1.trans a2).trans f2
  have f4 := b2.trans c1
  refine ⟨s8, ((k1.trans f3).trans f4).mono (by decide), c2, c3, ⟨fun e => ?_, fun e => ?_, ?_⟩, fun s9 s10 S L l1 l2 l3 l4 => ?_⟩
  · cases e
    · exact y3.frame f4 (by decide)
    · exact (x3.frame y2 (by decide)).frame f4 (by decide)
  · exact ((h1.ln e).frame f3 (by cases e <;> decide)).frame f4 (by cases e <;> decide)
  · exact (h1.dv.frame f3 (by decide)).frame f4 (by decide)
  · obtain ⟨s11, n1, n2⟩ := c4 s9 s10 S L l1 l2 l3 l4
    refine ⟨s11, n1, fun s12 s13 q1 q2 => k3 _ _ (u1.cons (v1.cons a1)) (x1 _ _ (y1 _ _ ?_))⟩
    exact p30.tr b1 (p32.tr (n2 _ _ q1 q2) (Tr.nil _))

/-- The 16th message. -/
theorem last {a b : V} {θ : Keep V} {s : St V} {m' : Msg V} {p : List Nat} {f : Nat} {t : UInt64} {S : Bool → VS V} {ty : Str × Map (List Conn) × Kind V} (hty : tb θ 35 = some ty)
    (hm : Pend s 35 ty.1 ty.2.1 ty.2.2 m') (hc : Num.eq m'.value (Num.ofNat 16) = true) (hr : Rest θ s (35 :: p)) (hp : From 35 p)
    (h : J a b s t S) (ht : ∀ e, (S e).due t m'.time) (hk : ∀ e, (S e).k < 1000) :
    ∃ s1, Ex (f + 9) false 35 s s1 ∧ Fr (35 :: 18 :: 19 :: List.range 10) (fresh t (avgs S) (avgs fun e => (S e).take t m'.time m'.value)) s s1 ∧ J a b s1 t (fun e => (S e).take t m'.time m'.value) ∧ Rest θ s1 p := by
  cases hty
  obtain ⟨mt, mv⟩ := m'
  obtain ⟨s1, k1, k2, k3⟩ := ex_makes (f := f + 8) (by decide) (makes_filter (fo := .equalTo) hc) hm (cs := [⟨18, i1⟩, ⟨19, i1⟩]) rfl
  have hr1 : Rest θ s1 p := hr.back k1 rfl k2 (by simp; tauto)
  have h1 := h.frame k1 (by decide)
  obtain ⟨s2, u1, u2, u3⟩ := v_data (f := f + 7) (src := (35, o1)) (t' := mt) (x := mv) (h1.vp true) (hk true)
  obtain ⟨s3, v1, v2, v3⟩ := v_data (f := f + 7) (src := (35, o1)) (t' := mt) (x := mv) ((h1.vp false).frame u2 (by decide)) (hk false)
  have hr3 : Rest θ s3 p := (hr1.other u2 rfl).other v2 rfl
  have f1 := u2.trans v2
  have u4 := u3.frame v2 (by decide)
  have d1 : Dq s3 true (half t (S true).avg (S false).avg) (half t (S false).avg (S true).avg) := (h1.dv.frame f1 (by decide))
  obtain ⟨s4, x1, x2, x3, x4, x5, x6⟩ := v_exec (f := f) u4 (ht true) ((h1.ln true).frame f1 (by decide)) d1 hr3 (hp.le (by decide))
  have v4 := v3.frame x2 (by decide)
  obtain ⟨s5, y1, y2, y3, y4, y5, y6⟩ := v_exec (f := f) (e := false) (other := ((S true).take t mt mv).avg) v4 (ht false) (((h1.ln false).frame f1 (by decide)).frame x2 (by decide)) x5 x6 (hp.le (by decide))
  refine ⟨s5, k3 _ _ (u1.cons v1) (u4.tr x1 (v4.tr y1 (Tr.nil _))), ?_, ⟨fun e => ?_, fun e => ?_, y5⟩, y6⟩
  · have := (((k1.trans f1).trans x2).trans y2).mono (S' := 35 :: 18 :: 19 :: List.range 10) (by decide)
    have g1 := fresh_one (t := t) (e := true) (A := avgs S) (upd_grow (S := S) (e := true) (t := t) (t' := mt) (x := mv)) rfl
    have g2 := fresh_one (t := t) (e := false) (A := avgs (upd S true ((S true).take t mt mv))) (upd_grow (S := upd S true ((S true).take t mt mv)) (e := false) (t := t) (t' := mt) (x := mv)) rfl
    have g3 : (upd (upd S true ((S true).take t mt mv)) false ((upd S true ((S true).take t mt mv) false).take t mt mv)) = fun e => (S e).take t mt mv := by
      funext e
      cases e <;> rfl
    rw [g3] at g2
    have g4 := fresh_trans (t := t) (upd_grow (S := S) (e := true) (t := t) (t' := mt) (x := mv)) (upd_grow (S := upd S true ((S true).take t mt mv)) (e := false) (t := t) (t' := mt) (x := mv))
    rw [g3, ← g1, ← g2] at g4
    dsimp only
    rw [← g4]
    exact this
  · cases e
    · exact y3
    · exact x3.frame y2 (by decide)
  · cases e
    · exact y4
    · exact x4.frame y2 (by decide)

end Rtbot.RsiProgram
