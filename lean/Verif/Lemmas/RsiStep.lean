import Verif.Lemmas.RsiWave

/-! # Every message in the program of C94 -/

namespace Rtbot.RsiProgram
open Spec Wave Selector Ripple
variable {V : Type} [Num V]

def Keep.count (θ : Keep V) : Keep V := { θ with n := θ.n + 1 }
def Keep.sent (θ : Keep V) (m : Msg V) : Keep V := { θ with last := some m }

theorem tb_count {θ : Keep V} {y : Nat} (h : y ≠ 39) : tb θ.count y = tb θ y := by
  by_cases hy : y < 41
  · interval_cases y <;> first | rfl | exact absurd rfl h
  · rw [tb_out (by omega), tb_out (by omega)]

theorem tb_sent {θ : Keep V} {m : Msg V} {y : Nat} (h : y ≠ 40) : tb (θ.sent m) y = tb θ y := by
  by_cases hy : y < 41
  · interval_cases y <;> first | rfl | exact absurd rfl h
  · rw [tb_out (by omega), tb_out (by omega)]

theorem makes_input {l : Option (Msg V)} {m : Msg V} (h : newer (l.map (·.time)) m.time = true) : Makes (.input [(i1, o1)] (sentMap l)) m m (.input [(i1, o1)] (sentMap (some m))) :=
  ⟨base_input _ _, fun id w i hi => by rw [exec_input hi, if_pos h]⟩

theorem stops_input {l : Option (Msg V)} {m : Msg V} (h : newer (l.map (·.time)) m.time = false) : Stops (.input [(i1, o1)] (sentMap l)) m :=
  ⟨base_input _ _, fun id w i hi => by rw [exec_input hi, if_neg (by simp [h])]⟩

/-- The program gets a message. -/
theorem entry {θ : Keep V} {s : St V} {m : Msg V} {f : Nat} (hr : Rest θ s []) :
    ∃ s1, Fr [40] [] s s1 ∧ Pend s1 40 b!"754" [(o1, [⟨29, i1⟩, ⟨39, i1⟩])] (.input [(i1, o1)] (sentMap θ.last)) m ∧ Rest θ s1 [40] ∧ ∀ s2, Ex (f + 1) false 40 s1 s2 → ∃ r, feed (f + 1) 40 i1 m s = .ok r s2 := by
  obtain ⟨i, hi, hh⟩ := hr 40 _ rfl (by simp)
  obtain ⟨i', h1, h2⟩ := q_recv (id := b!"754") (w := [(o1, [⟨29, i1⟩, ⟨39, i1⟩])]) (base_input [(i1, o1)] (sentMap θ.last)) hi m
  have h3 := recv_data (f := f) (frm := none) hh ((base_input _ _).2.2 _) h1
  have hf : Fr [40] [] s (put s 40 (qop b!"754" [(o1, [⟨29, i1⟩, ⟨39, i1⟩])] (.input [(i1, o1)] (sentMap θ.last)) [i1] i') [.recv none 40 i1 false m]) := putFr rfl
  refine ⟨_, hf, ⟨i', h2, putAt⟩, hr.out hf, ?_⟩
  rintro s2 ⟨r, he⟩
  refine ⟨r, ?_⟩
  unfold feed
  rw [M.bind_def, h3]
  exact he

/-- A message that is not newer is left alone. -/
theorem ignored {θ : Keep V} {s : St V} {m : Msg V} {f : Nat} (hr : Rest θ s []) (hn : newer (θ.last.map (·.time)) m.time = false) :
    ∃ r s1, feed (f + 1) 40 i1 m s = .ok r s1 ∧ Fr [40] [] s s1 ∧ Rest θ s1 [] := by
  obtain ⟨s1, k1, k2, k3, k4⟩ := entry (f := f) (m := m) hr
  obtain ⟨s2, j1, j2, j3⟩ := halt (f := f) (x := 40) rfl (stops_input hn) k2 k3
  obtain ⟨r, hr⟩ := k4 _ j1
  exact ⟨r, s2, hr, (k1.trans j2).mono (by decide), j3⟩

/-- Where a message is when it has been counted. -/
def Counted (θ : Keep V) (s : St V) (m : Msg V) (n : UInt64) : Prop := ∀ x ∈ [35, 36, 37, 38], ∀ t, tb θ x = some t → Pend s x t.1 t.2.1 t.2.2 ⟨m.time, ofTime n⟩

/-- A newer message is counted. -/
theorem front {θ : Keep V} {s : St V} {m : Msg V} {f : Nat} (hr : Rest θ s []) (hd : Dm s [] [] []) (hn : newer (θ.last.map (·.time)) m.time = true) :
    ∃ s1, Fr [40, 29, 39, 35, 36, 37, 38] [] s s1 ∧ Dm s1 [m] [] [] ∧ Rest (θ.sent m).count s1 [35, 36, 37, 38] ∧ Counted (θ.sent m).count s1 m (θ.n + 1) ∧
      ∀ s2, Tr (f + 1) [⟨35, i1⟩, ⟨36, i1⟩, ⟨37, i1⟩, ⟨38, i1⟩] s1 s2 → ∃ r, feed (f + 3) 40 i1 m s = .ok r s2 := by
  obtain ⟨s1, k1, k2, k3, k4⟩ := entry (f := f + 2) (m := m) hr
  obtain ⟨s2, j1, j2, j3⟩ := ex_makes (f := f + 2) (by decide) (makes_input hn) k2 (cs := [⟨29, i1⟩, ⟨39, i1⟩]) rfl
  have hr2 : Rest (θ.sent m) s2 [] := k3.turn j1 rfl j2 (fun y hy => tb_sent hy)
  obtain ⟨y1, y2, y3, hh⟩ := (hd.frame k1 (by decide)).frame j1 (by decide)
  obtain ⟨s3, l1, l2, l3⟩ := dl_data (f := f + 1) (src := (40, o1)) (m := m) (q := i1) (o' := demux b!"144" dw (y1 +. m.value) y2 y3 [m] [] []) hh demux_own (by rfl) rfl
  have hr3 := hr2.other l2 rfl
  obtain ⟨s4, n1, n2, n3⟩ := dl_idle (f := f + 1) (src := (40, o1)) (base_count _) (hr3 39 _ rfl (by simp)) m
  have hr4 := hr3.out n2
  have l4 : s4.heap 29 = some (demux b!"144" dw (y1 +. m.value) y2 y3 [m] [] []) := (n2.same _ (by decide)).trans l3
  obtain ⟨s5, o1', o2', o3⟩ := ex_still (f := f + 1) l4 demux_own wait0
  have hr5 := hr4.other o2' rfl
  have n4 := n3.frame o2' (by decide)
  obtain ⟨s6, p1, p2, p3⟩ := ex_makes (f := f + 1) (by decide) (makes_count _ _) n4 (cs := [⟨35, i1⟩, ⟨36, i1⟩, ⟨37, i1⟩, ⟨38, i1⟩]) rfl
  have hr6 : Rest (θ.sent m).count s6 [] := hr5.turn p1 rfl p2 (fun y hy => tb_count hy)
  obtain ⟨s7, q1, q2, q3, q4⟩ := dls (f := f) (src := (39, o1)) (m := ⟨m.time, ofTime (θ.n + 1)⟩) [35, 36, 37, 38] (by decide) (by intro x hx; fin_cases hx <;> rfl) (by simp) hr6
  have F := ((((((k1.trans j1).trans l2).trans n2).trans o2').trans p1).trans q2).mono (S' := [40, 29, 39, 35, 36, 37, 38]) (by decide)
  refine ⟨s7, F, ⟨_, _, _, ((q2.same _ (by decide)).trans (p1.same _ (by decide))).trans o3⟩, q4, q3, fun s8 ht => k4 _ (j3 _ _ (l1.cons n1) ?_)⟩
  exact Tr.data l4 (by rfl) o1' (n4.tr (p3 _ _ q1 ht) (Tr.nil _))

theorem counted_value {k : Nat} (h : k + 1 < 2 ^ 64) : (ofTime (UInt64.ofNat k + 1) : V) = Num.ofNat (k + 1) := by
  have hcnt : UInt64.ofNat k + 1 = UInt64.ofNat (k + 1) := by
    rw [show (1 : UInt64) = UInt64.ofNat 1 from rfl, ← UInt64.ofNat_add]
  unfold ofTime
  rw [hcnt, UInt64.toNat_ofNat', Nat.mod_eq_of_lt h]

/-! ## What is kept between two messages -/

/-- The parts of the changes that are added to the sum `e`. -/
def parts (e : Bool) : List (Msg V) → List V
  | [] => []
  | m :: l => (go m l)
where go : Msg V → List (Msg V) → List V
  | _, [] => []
  | m, m' :: l => (match gets e (m'.value -. m.value) with | none => [] | some x => [x]) ++ go m' l

def tot (l : List V) : V := l.foldl (· +. ·) (Num.ofNat 0)

def avgO (b : V) (l : List V) : Option V := if l.isEmpty then none else some (tot l *. b)

theorem parts_append {e : Bool} {h : List (Msg V)} {m0 m : Msg V} (hl : h.getLast? = some m0) : parts e (h ++ [m]) = parts e h ++ (match gets e (m.value -. m0.value) with | none => [] | some x => [x]) := by
  have aux : ∀ (l : List (Msg V)) (x : Msg V), (x :: l).getLast? = some m0 → parts.go e x (l ++ [m]) = parts.go e x l ++ (match gets e (m.value -. m0.value) with | none => [] | some x => [x]) := by
    intro l
    induction l with
    | nil =>
      intro x hx
      cases hx
      simp [parts.go]
    | cons y l ih =>
      intro x hx
      rw [List.cons_append, parts.go, parts.go, ih y (by simpa using hx), List.append_assoc]
  match h, hl with
  | x :: l, hl => exact aux l x hl

theorem tot_append {l : List V} {x : V} : tot (l ++ [x]) = tot l +. x := by simp [tot]

/-- The time of the last message. -/
def lastTime (h : List (Msg V)) : UInt64 := match h.getLast? with | none => 0 | some m => m.time

/-- What the program keeps while it waits for the 15th message. -/
structure Open (a b : V) (s : St V) (h : List (Msg V)) (θ : Keep V) : Prop where
  early : Early s h.getLast?
  late : Late s none
  j : J a b s 0 (fun e => .opened (lastTime h) (avgO b (parts e h)) h.length)
  kb : θ.b = b
  ku : ∀ e, θ.u e = tot (parts e h)

/-- What is common to all. -/
structure Common (s : St V) (θ : Keep V) (k : Nat) (last : Option (Msg V)) : Prop where
  rest : Rest θ s []
  dm : Dm s [] [] []
  n : θ.n = UInt64.ofNat k
  last : θ.last = last

theorem J.weak {a b : V} {s : St V} {t t' τ : UInt64} {S : Bool → VS V} {k : Nat} {w : Bool → Option V} (h : J a b s t S) (hS : ∀ e, ∃ τ' k', S e = .opened τ' (w e) k' ∧ τ' ≤ τ ∧ k' ≤ k) :
    J a b s t' (fun e => .opened τ (w e) k) := by
  refine ⟨fun e => ?_, fun e => ?_, ?_⟩
  · obtain ⟨τ', k', h1, h2, h3⟩ := hS e
    have := h.vp e
    rw [h1] at this
    obtain ⟨D, d1, d2, d3, d4⟩ := this
    exact ⟨D, d1, by omega, fun m hm => t_le (d3 m hm) h2, d4⟩
  · obtain ⟨τ', k', h1, h2, h3⟩ := hS e
    have := h.ln e
    rw [h1] at this
    exact this
  · obtain ⟨_, _, h1, _⟩ := hS true
    obtain ⟨_, _, h2, _⟩ := hS false
    have := h.dv
    rw [h1, h2] at this
    exact this

theorem ofNat_succ {k : Nat} : UInt64.ofNat k + 1 = UInt64.ofNat (k + 1) := by
  rw [show (1 : UInt64) = UInt64.ofNat 1 from rfl, ← UInt64.ofNat_add]

variable {B : Nat}

theorem Tells.bits (hT : Tells V B) (hB : 16 ≤ B) : Bits V := ⟨(hT 0 0 (by omega) (by omega)).2, (hT 0 1 (by omega) (by omega)).2, (hT 1 1 (by omega) (by omega)).2⟩

/-- One of the first 14 messages. -/
theorem step_open (hT : Tells V B) (hB : 16 ≤ B) {a b : V} {s : St V} {θ : Keep V} {h : List (Msg V)} {m : Msg V} {f : Nat} (hc : Common s θ h.length h.getLast?) (ho : Open a b s h θ) (hl : h.length + 1 < 15)
    (hn : newer (h.getLast?.map (·.time)) m.time = true) (ht : Num.toTime (ofTime m.time : V) = some m.time) (hd : ∀ m0, h.getLast? = some m0 → Sgn (m.value -. m0.value)) :
    ∃ r s' θ', feed (f + 20) 40 i1 m s = .ok r s' ∧ Fr (List.range 41) [] s s' ∧ Common s' θ' (h ++ [m]).length (h ++ [m]).getLast? ∧ Open a b s' (h ++ [m]) θ' := by
  have hb := Tells.bits hT hB
  obtain ⟨s1, k1, k2, k3, k4, k5⟩ := front (f := f + 17) (m := m) hc.rest hc.dm (by rw [hc.last]; exact hn)
  have hv : (ofTime (θ.n + 1) : V) = Num.ofNat (h.length + 1) := by rw [hc.n]; exact counted_value (by omega)
  unfold Counted at k4
  rw [hv] at k4
  have c35 : Num.eq (Num.ofNat (h.length + 1) : V) (Num.ofNat 16) = false := by rw [(hT _ _ (by omega) (by omega)).2]; simp; omega
  have c36 : Num.eq (Num.ofNat (h.length + 1) : V) (Num.ofNat 15) = false := by rw [(hT _ _ (by omega) (by omega)).2]; simp; omega
  have c37 : Num.lt (Num.ofNat 15) (Num.ofNat (h.length + 1) : V) = false := by rw [(hT _ _ (by omega) (by omega)).1]; simp; omega
  have c38 : Num.lt (Num.ofNat (h.length + 1) : V) (Num.ofNat 15) = true := by rw [(hT _ _ (by omega) (by omega)).1]; simp; omega
  have p35 := k4 35 (by decide) _ rfl
  obtain ⟨s2, a1, a2, a3⟩ := halt (f := f + 17) (x := 35) rfl (stops_filter (fo := .equalTo) (m := ⟨m.time, Num.ofNat (h.length + 1)⟩) c35) p35 k3
  have p36 := (k4 36 (by decide) _ rfl).frame a2 (by decide)
  obtain ⟨s3, b1, b2, b3⟩ := halt (f := f + 17) (x := 36) rfl (stops_filter (fo := .equalTo) (m := ⟨m.time, Num.ofNat (h.length + 1)⟩) c36) p36 a3
  have p37 := ((k4 37 (by decide) _ rfl).frame a2 (by decide)).frame b2 (by decide)
  obtain ⟨s4, d1, d2, d3⟩ := halt (f := f + 17) (x := 37) rfl (stops_filter (fo := .greaterThan) (m := ⟨m.time, Num.ofNat (h.length + 1)⟩) c37) p37 b3
  have F1 := (a2.trans b2).trans d2
  have p38 := (k4 38 (by decide) _ rfl).frame F1 (by decide)
  obtain ⟨s5, e1, e2, e3, e4⟩ := less (f := f + 15) hb rfl p38 c38 d3 (by intro x hx; simp at hx) (k2.frame F1 (by decide)) rfl
  have F2 := ((k1.trans F1).trans e1).mono (S' := [40, 29, 39, 35, 36, 37, 38, 31, 32]) (by decide)
  have tr : ∀ s6 s7, Dl (f + 15) (29, o1) m [⟨28, i1⟩] s5 s6 → Tr (f + 15) [⟨28, i1⟩] s6 s7 → ∃ r, feed (f + 20) 40 i1 m s = .ok r s7 := fun s6 s7 l1 l2 =>
    k5 _ (p35.tr a1 (p36.tr b1 (p37.tr d1 (p38.tr (e4 _ _ l1 l2) (Tr.nil _)))))
  have j5 := ho.j.frame F2 (by decide)
  have len : (h ++ [m]).length = h.length + 1 := by simp
  have last : (h ++ [m]).getLast? = some m := by simp
  have lt : lastTime (h ++ [m]) = m.time := by unfold lastTime; rw [last]
  rw [len, last]
  cases hg : h.getLast? with
  | none =>
    have he := ho.early
    rw [hg] at he
    obtain ⟨s6, s7, l1, l2, l3, l4⟩ := df_first (f := f + 14) (src := (29, o1)) (m := m) (he.frame F2 (by decide))
    obtain ⟨r, hr⟩ := tr _ _ l1 l2
    have h0 : h = [] := List.getLast?_eq_none_iff.1 hg
    refine ⟨r, s7, (θ.sent m).count, hr, (F2.trans l3).mono (by decide), ⟨e3.other l3 rfl, e2.frame l3 (by decide), ?_, rfl⟩, ?_, (ho.late.frame F2 (by decide)).frame l3 (by decide), ?_, ho.kb, fun e => ?_⟩
    · show θ.n + 1 = _
      rw [hc.n, ofNat_succ]
    · rw [last]
      exact l4
    · refine (j5.frame l3 (by decide)).weak fun e => ⟨lastTime h, h.length, ?_, ?_, by omega⟩
      · rw [h0]
        rfl
      · rw [h0, UInt64.le_iff_toNat_le]
        exact Nat.zero_le _
    · rw [show (θ.sent m).count.u e = θ.u e from rfl, ho.ku, h0]
      rfl
  | some m0 =>
    have he := ho.early
    rw [hg] at he hn
    have hlt : m0.time < m.time := by simpa [newer] using hn
    have lt0 : lastTime h = m0.time := by unfold lastTime; rw [hg]
    have hle : lastTime h ≤ m.time := by
      rw [lt0, UInt64.le_iff_toNat_le]
      rw [UInt64.lt_iff_toNat_lt] at hlt
      omega
    obtain ⟨s6, s7, l1, l2, l3, l4, l5, l6⟩ := early (f := f) (src := (29, o1)) (m := m) (he.frame F2 (by decide)) ht (hd m0 hg) j5 (fun e => hle) (fun e => (by show h.length < 1000; omega)) e3 (by intro x hx; simp at hx)
    obtain ⟨r, hr⟩ := tr _ _ l1 l2
    have hA : fresh (0 : UInt64) (avgs fun e => .opened (lastTime h) (avgO b (parts e h)) h.length)
        (avgs (takes (θ.sent m).count 0 m.time (m.value -. m0.value) fun e => .opened (lastTime h) (avgO b (parts e h)) h.length)) = [] := by
      have : ∀ e, avgs (takes (θ.sent m).count 0 m.time (m.value -. m0.value) fun e => .opened (lastTime h) (avgO b (parts e h)) h.length) e = none := by
        intro e
        unfold avgs takes
        cases gets e (m.value -. m0.value) <;> rfl
      unfold fresh
      rw [this, this]
      rfl
    rw [hA] at l3
    have hp := fun e => parts_append (e := e) (m := m) hg
    refine ⟨r, s7, ((θ.sent m).count).adds (m.value -. m0.value), hr, (F2.trans l3).mono (by decide), ⟨l5, e2.frame l3 (by decide), ?_, rfl⟩, ?_, (ho.late.frame F2 (by decide)).frame l3 (by decide), ?_, ho.kb, fun e => ?_⟩
    · show θ.n + 1 = _
      rw [hc.n, ofNat_succ]
    · rw [last]
      exact l6
    · refine l4.weak fun e => ?_
      unfold takes
      rw [hp, lt, len]
      cases gets e (m.value -. m0.value) with
      | none => exact ⟨lastTime h, h.length, by rw [List.append_nil], hle, by omega⟩
      | some x =>
        refine ⟨m.time, h.length + 1, ?_, t_refl, Nat.le_refl _⟩
        show VS.opened m.time (some (((θ.sent m).count.u e +. x) *. (θ.sent m).count.b)) (h.length + 1) = _
        rw [show (θ.sent m).count.u e = θ.u e from rfl, show (θ.sent m).count.b = θ.b from rfl, ho.ku, ho.kb]
        unfold avgO
        dsimp only
        rw [tot_append, if_neg (by simp)]
    · rw [hp]
      unfold Keep.adds
      dsimp only
      rw [show (θ.sent m).count.u e = θ.u e from rfl, ho.ku]
      cases gets e (m.value -. m0.value) with
      | none => rw [List.append_nil]
      | some x => rw [tot_append]

/-- The Variables after the 15th message, `m` after `h` with the last message `m0`. -/
def asked (b : V) (h : List (Msg V)) (m0 m : Msg V) (e : Bool) : VS V :=
  match gets e (m.value -. m0.value) with
  | none => .ask (avgO b (parts e h))
  | some _ => .done (tot (parts e (h ++ [m])) *. b) 2

/-- The 15th message. -/
theorem step_ask (hT : Tells V B) (hB : 16 ≤ B) {a b : V} {s : St V} {θ : Keep V} {h : List (Msg V)} {m m0 : Msg V} {f : Nat} (hc : Common s θ h.length h.getLast?) (ho : Open a b s h θ) (hl : h.length = 14)
    (hg : h.getLast? = some m0) (hn : m0.time < m.time) (ht : Num.toTime (ofTime m.time : V) = some m.time) (hd : Sgn (m.value -. m0.value)) :
    ∃ r s' θ', feed (f + 20) 40 i1 m s = .ok r s' ∧ Fr (List.range 41) (told m.time (asked b h m0 m false).avg (asked b h m0 m true).avg) s s' ∧ Common s' θ' 15 (some m) ∧ Late s' (some m) ∧
      J a b s' m.time (asked b h m0 m) := by
  have hb := Tells.bits hT hB
  obtain ⟨s1, k1, k2, k3, k4, k5⟩ := front (f := f + 17) (m := m) hc.rest hc.dm (by rw [hc.last, hg]; simpa [newer] using hn)
  have hv : (ofTime (θ.n + 1) : V) = Num.ofNat 15 := by rw [hc.n, hl]; exact counted_value (by omega)
  unfold Counted at k4
  rw [hv] at k4
  have c35 : Num.eq (Num.ofNat 15 : V) (Num.ofNat 16) = false := (hT _ _ (by omega) (by omega)).2
  have c36 : Num.eq (Num.ofNat 15 : V) (Num.ofNat 15) = true := (hT _ _ (by omega) (by omega)).2
  have c37 : Num.lt (Num.ofNat 15 : V) (Num.ofNat 15) = false := (hT _ _ (by omega) (by omega)).1
  have p35 := k4 35 (by decide) _ rfl
  obtain ⟨s2, a1, a2, a3⟩ := halt (f := f + 17) (x := 35) rfl (stops_filter (fo := .equalTo) (m := ⟨m.time, Num.ofNat 15⟩) c35) p35 k3
  have p36 := (k4 36 (by decide) _ rfl).frame a2 (by decide)
  have F1 := (k1.trans a2).mono (S' := [40, 29, 39, 35, 36, 37, 38]) (by decide)
  have lt0 : lastTime h = m0.time := by unfold lastTime; rw [hg]
  obtain ⟨s3, b1, b2, b3, b4, b5⟩ := same (f := f + 15) hb rfl p36 c36 a3 (by intro x hx; simp at hx; omega) (k2.frame a2 (by decide)) rfl (ho.j.frame F1 (by decide)) (by rw [lt0]; exact hn)
  have F2 := (F1.trans b1).mono (S' := [40, 29, 39, 35, 36, 37, 38, 18, 19, 30, 32]) (by decide)
  have he := ho.early
  rw [hg] at he
  obtain ⟨s4, s5, l1, l2, l3, l4, l5, l6⟩ := early (f := f) (src := (29, o1)) (m := m) (he.frame F2 (by decide)) ht hd b4 (fun e => t_refl) (fun e => (by show 1 < 1000; omega)) b3 (by intro x hx; simp at hx; omega)
  obtain ⟨s6, n1, n2⟩ := b5 _ _ _ _ l1 l2 l3 (by decide)
  obtain ⟨s7, s8, o1', o2', o3, o4⟩ := df_first (f := f + 14) (src := (29, o2)) (m := m) (((ho.late.frame F2 (by decide)).frame l3 (by decide)).frame n1 (by decide))
  have F3 := l3.trans (n1.trans o3)
  have p37 := (((k4 37 (by decide) _ rfl).frame a2 (by decide)).frame b1 (by decide)).frame F3 (by decide)
  have hr8 := (l5.keep n1).other o3 rfl
  obtain ⟨s9, d1, d2, d3⟩ := halt (f := f + 17) (x := 37) rfl (stops_filter (fo := .greaterThan) (m := ⟨m.time, Num.ofNat 15⟩) c37) p37 hr8
  have p38 := ((((k4 38 (by decide) _ rfl).frame a2 (by decide)).frame b1 (by decide)).frame F3 (by decide)).frame d2 (by decide)
  obtain ⟨s10, e1, e2, e3⟩ := halt (f := f + 17) (x := 38) rfl (stops_filter (fo := .lessThan) (m := ⟨m.time, Num.ofNat 15⟩) c37) p38 d3
  obtain ⟨r, hr⟩ := k5 _ (p35.tr a1 (p36.tr (n2 _ _ o1' o2') (p37.tr d1 (p38.tr e1 (Tr.nil _)))))
  have F4 := n1.trans (o3.trans (d2.trans e2))
  have hA : takes (θ.sent m).count m.time m.time (m.value -. m0.value) (fun e => .ask (avgO b (parts e h))) = asked b h m0 m := by
    funext e
    unfold takes asked
    rw [parts_append hg]
    cases gets e (m.value -. m0.value) with
    | none => rfl
    | some x =>
      show VS.done (if m.time = m.time then _ else _) 2 = _
      rw [if_pos rfl, show (θ.sent m).count.u e = θ.u e from rfl, show (θ.sent m).count.b = θ.b from rfl, ho.ku, ho.kb]
      dsimp only
      rw [tot_append]
  rw [hA] at l3 l4
  refine ⟨r, s10, _, hr, ?_, ⟨e3, ?_, ?_, rfl⟩, (o4.frame d2 (by decide)).frame e2 (by decide), l4.frame F4 (by decide)⟩
  · have := ((F2.trans l3).trans F4).mono (S' := List.range 41) (by decide)
    simp only [List.nil_append, List.append_nil] at this
    exact this
  · exact (b2.frame l3 (by decide)).frame F4 (by decide)
  · show θ.n + 1 = _
    rw [hc.n, hl, ofNat_succ]

/-- The averages that the Linears have for the time `t'` after those for the time `t`. -/
def kept (t t' : UInt64) (o : Bool → Option V) (e : Bool) : Option V := if t' = t + 1 then o e else none

theorem next_time {t t' : UInt64} (h : t < t') (hn : ¬ t' = t + 1) : t + 1 < t' := by
  have h1 : t'.toNat ≠ (t + 1).toNat := fun h => hn (UInt64.toNat_inj.1 h)
  have h2 := t'.toNat_lt
  rw [UInt64.lt_iff_toNat_lt] at *
  rw [UInt64.toNat_add, show (1 : UInt64).toNat = 1 from rfl] at *
  rw [Nat.mod_eq_of_lt (by omega)] at *
  omega

omit [Num V] in
theorem Made.sides {a b : V} {s : St V} {t t' : UInt64} {o : Bool → Option V} (h : Made a b s t o) (hlt : t < t') : Sides a b s t' (kept t t' o) := by
  refine ⟨fun e => ?_, h.div⟩
  have ha := h.aft e
  unfold kept
  by_cases ht : t' = t + 1
  · rw [if_pos ht, ht]
    cases ho : o e with
    | none =>
      rw [ho] at ha
      obtain ⟨Q, hQ⟩ := ha
      exact ⟨_, Q, hQ, .inl rfl⟩
    | some v =>
      rw [ho] at ha
      exact ha
  · rw [if_neg ht]
    cases ho : o e with
    | none =>
      rw [ho] at ha
      obtain ⟨Q, hQ⟩ := ha
      exact ⟨_, Q, hQ, .inl rfl⟩
    | some v =>
      rw [ho] at ha
      exact ⟨_, _, ha, .inr ⟨_, _, rfl, next_time hlt ht, rfl⟩⟩

theorem Sides.frame {a b : V} {s s' : St V} {t : UInt64} {o : Bool → Option V} {S : List Nat} {L : List (Msg V)} (h : Sides a b s t o) (hf : Fr S L s s') (hS : ∀ x ∈ [5, 6, 7], x ∉ S) : Sides a b s' t o :=
  ⟨fun e => (h.pre e).frame hf (by cases e <;> exact hS _ (by decide)), h.div.frame hf (hS _ (by decide))⟩

/-- The averages after the change `d`. -/
def moved (a b : V) (o : Bool → Option V) (d : V) (e : Bool) : Option V := smooth a b (o e) (if e then lossOf d else gainOf d)

/-- A later message, after the filter for the 16th. -/
theorem late_wave (hT : Tells V B) (hB : 16 ≤ B) {a b : V} {s : St V} {θ : Keep V} {k : Nat} {m m0 : Msg V} {f : Nat} {o : Bool → Option V} (hk : 16 ≤ k) (hkB : k ≤ B)
    (hp : ∀ x ∈ [36, 37, 38], ∀ t, tb θ x = some t → Pend s x t.1 t.2.1 t.2.2 ⟨m.time, Num.ofNat k⟩) (hr : Rest θ s [36, 37, 38]) (hdm : Dm s [m] [] []) (h17 : Late s (some m0))
    (ht : Num.toTime (ofTime m.time : V) = some m.time) (hd : Sgn (m.value -. m0.value)) (h : Sides a b s m.time o) (ho : (o true).isSome = (o false).isSome) :
    ∃ s', Tr (f + 18) [⟨36, i1⟩, ⟨37, i1⟩, ⟨38, i1⟩] s s' ∧ Fr (List.range 39) (told m.time (moved a b o (m.value -. m0.value) false) (moved a b o (m.value -. m0.value) true)) s s' ∧
      Made a b s' m.time (moved a b o (m.value -. m0.value)) ∧ Rest θ s' [] ∧ Dm s' [] [] [] ∧ Late s' (some m) := by
  have hb := Tells.bits hT hB
  have c36 : Num.eq (Num.ofNat k : V) (Num.ofNat 15) = false := by rw [(hT _ _ (by omega) (by omega)).2]; simp; omega
  have c37 : Num.lt (Num.ofNat 15) (Num.ofNat k : V) = true := by rw [(hT _ _ (by omega) (by omega)).1]; simp; omega
  have c38 : Num.lt (Num.ofNat k : V) (Num.ofNat 15) = false := by rw [(hT _ _ (by omega) (by omega)).1]; simp; omega
  have p36 := hp 36 (by decide) _ rfl
  obtain ⟨s3, b1, b2, b3⟩ := halt (f := f + 17) (x := 36) rfl (stops_filter (fo := .equalTo) (m := ⟨m.time, Num.ofNat k⟩) c36) p36 hr
  have p37 := (hp 37 (by decide) _ rfl).frame b2 (by decide)
  obtain ⟨s4, d1, d2, d3, d4⟩ := more (f := f + 14) hb rfl p37 c37 b3 (by intro x hx; simp at hx; omega) (hdm.frame b2 (by decide)) rfl
  have F1 := b2.trans d1
  obtain ⟨s5, s6, l1, l2, l3, l4, l5, l6⟩ := late (f := f + 1) (src := (29, o2)) (m := m) (h17.frame F1 (by decide)) ht hd (h.frame F1 (by decide)) ho d3 (by intro x hx; simp at hx; omega)
  have p38 := ((hp 38 (by decide) _ rfl).frame F1 (by decide)).frame l3 (by decide)
  obtain ⟨s7, e1, e2, e3⟩ := halt (f := f + 17) (x := 38) rfl (stops_filter (fo := .lessThan) (m := ⟨m.time, Num.ofNat k⟩) c38) p38 l5
  refine ⟨s7, p36.tr b1 (p37.tr (d4 _ _ l1 l2) (p38.tr e1 (Tr.nil _))), ?_, ⟨fun e => (l4.aft e).frame e2 (by cases e <;> decide), l4.div.frame e2 (by decide)⟩, e3, (d2.frame l3 (by decide)).frame e2 (by decide), l6.frame e2 (by decide)⟩
  have := ((F1.trans l3).trans e2).mono (S' := List.range 39) (by decide)
  simpa [moved] using this

/-- A message after the 16th. -/
theorem step_live (hT : Tells V B) (hB : 16 ≤ B) (hB64 : B < 2 ^ 64) {a b : V} {s : St V} {θ : Keep V} {k : Nat} {m m0 : Msg V} {f : Nat} {o : Bool → Option V} (hc : Common s θ k (some m0)) (hk : 16 ≤ k) (hkB : k + 1 ≤ B)
    (hl : Late s (some m0)) (h : Made a b s m0.time o) (ho : (o true).isSome = (o false).isSome)
    (hn : m0.time < m.time) (ht : Num.toTime (ofTime m.time : V) = some m.time) (hd : Sgn (m.value -. m0.value)) :
    ∃ r s' θ', feed (f + 20) 40 i1 m s = .ok r s' ∧
      Fr (List.range 41) (told m.time (moved a b (kept m0.time m.time o) (m.value -. m0.value) false) (moved a b (kept m0.time m.time o) (m.value -. m0.value) true)) s s' ∧
      Common s' θ' (k + 1) (some m) ∧ Late s' (some m) ∧ Made a b s' m.time (moved a b (kept m0.time m.time o) (m.value -. m0.value)) := by
  obtain ⟨s1, k1, k2, k3, k4, k5⟩ := front (f := f + 17) (m := m) hc.rest hc.dm (by rw [hc.last]; simpa [newer] using hn)
  have hv : (ofTime (θ.n + 1) : V) = Num.ofNat (k + 1) := by rw [hc.n]; exact counted_value (by omega)
  unfold Counted at k4
  rw [hv] at k4
  have c35 : Num.eq (Num.ofNat (k + 1) : V) (Num.ofNat 16) = false := by rw [(hT _ _ (by omega) (by omega)).2]; simp; omega
  have p35 := k4 35 (by decide) _ rfl
  obtain ⟨s2, a1, a2, a3⟩ := halt (f := f + 17) (x := 35) rfl (stops_filter (fo := .equalTo) (m := ⟨m.time, Num.ofNat (k + 1)⟩) c35) p35 k3
  have F1 := (k1.trans a2).mono (S' := [40, 29, 39, 35, 36, 37, 38]) (by decide)
  obtain ⟨s3, b1, b2, b3, b4, b5, b6⟩ := late_wave (f := f) hT hB (by omega) hkB (fun x hx t htb => (k4 x (by simp at hx ⊢; omega) t htb).frame a2 (by simp at hx ⊢; omega)) a3 (k2.frame a2 (by decide))
    (hl.frame F1 (by decide)) ht hd ((h.sides hn).frame F1 (by decide)) (by unfold kept; split; exact ho; rfl)
  obtain ⟨r, hr⟩ := k5 _ (p35.tr a1 b1)
  refine ⟨r, s3, _, hr, ?_, ⟨b4, b5, ?_, rfl⟩, b6, b3⟩
  · have := (F1.trans b2).mono (S' := List.range 41) (by decide)
    simpa using this
  · show θ.n + 1 = _
    rw [hc.n, ofNat_succ]

def avgV (b : V) (l : List V) : V := if l.isEmpty then Num.ofNat 0 else tot l *. b

/-- The 16th message. -/
theorem step_last (hT : Tells V B) (hB : 16 ≤ B) {a b : V} {s : St V} {θ : Keep V} {h : List (Msg V)} {m m0 m1 : Msg V} {f : Nat} (hc : Common s θ 15 (some m)) (hg : h.getLast? = some m0)
    (hl : Late s (some m)) (hj : J a b s m.time (asked b h m0 m))
    (hn : m.time < m1.time) (ht : Num.toTime (ofTime m1.time : V) = some m1.time) (hd : Sgn (m1.value -. m.value)) :
    ∃ r s' θ', feed (f + 20) 40 i1 m1 s = .ok r s' ∧
      Fr (List.range 41) (fresh m.time (fun e => (asked b h m0 m e).avg) (fun e => some (avgV b (parts e (h ++ [m])))) ++
        told m1.time (moved a b (kept m.time m1.time fun e => some (avgV b (parts e (h ++ [m])))) (m1.value -. m.value) false)
          (moved a b (kept m.time m1.time fun e => some (avgV b (parts e (h ++ [m])))) (m1.value -. m.value) true)) s s' ∧
      Common s' θ' 16 (some m1) ∧ Late s' (some m1) ∧ Made a b s' m1.time (moved a b (kept m.time m1.time fun e => some (avgV b (parts e (h ++ [m])))) (m1.value -. m.value)) := by
  obtain ⟨s1, k1, k2, k3, k4, k5⟩ := front (f := f + 17) (m := m1) hc.rest hc.dm (by rw [hc.last]; simpa [newer] using hn)
  have hv : (ofTime (θ.n + 1) : V) = Num.ofNat 16 := by rw [hc.n]; exact counted_value (by omega)
  unfold Counted at k4
  rw [hv] at k4
  have c35 : Num.eq (Num.ofNat 16 : V) (Num.ofNat 16) = true := by rw [(hT _ _ (by omega) (by omega)).2]; simp
  have p35 := k4 35 (by decide) _ rfl
  have hdue : ∀ e, (asked b h m0 m e).due m.time m1.time := by
    intro e
    unfold asked
    cases gets e (m.value -. m0.value) with
    | none =>
      show m.time ≤ m1.time
      rw [UInt64.le_iff_toNat_le]
      rw [UInt64.lt_iff_toNat_lt] at hn
      omega
    | some x => trivial
  have hk : ∀ e, (asked b h m0 m e).k < 1000 := by
    intro e
    unfold asked
    cases gets e (m.value -. m0.value) with
    | none => exact (by decide : 1 < 1000)
    | some x => exact (by decide : 2 < 1000)
  obtain ⟨s2, a1, a2, a3, a4⟩ := RsiProgram.last (f := f + 9) (m' := ⟨m1.time, Num.ofNat 16⟩) rfl p35 c35 k3 (by intro x hx; simp at hx; omega) (hj.frame k1 (by decide)) hdue hk
  have hA : ∀ e, ((asked b h m0 m e).take m.time m1.time (Num.ofNat 16)).avg = some (avgV b (parts e (h ++ [m]))) := by
    intro e
    unfold asked
    rw [parts_append hg]
    have hne : ¬ m1.time = m.time := t_ne hn
    cases gets e (m.value -. m0.value) with
    | none =>
      dsimp only
      rw [List.append_nil]
      show some (if m1.time = m.time then _ else _) = _
      rw [if_neg hne]
      unfold avgO avgV
      cases (parts e h).isEmpty <;> rfl
    | some x =>
      show some _ = some _
      unfold avgV
      rw [if_neg (by simp)]
  have hA' : (avgs fun e => (asked b h m0 m e).take m.time m1.time (Num.ofNat 16)) = fun e => some (avgV b (parts e (h ++ [m]))) := funext hA
  dsimp only at a2
  rw [hA'] at a2
  have made : Made a b s2 m.time (fun e => some (avgV b (parts e (h ++ [m])))) := by
    refine ⟨fun e => ?_, ?_⟩
    · have := a3.ln e
      unfold VS.q at this
      dsimp only at this
      rw [hA] at this
      exact this
    · have := a3.dv
      dsimp only at this
      rw [hA, hA] at this
      exact this
  obtain ⟨s3, b1, b2, b3, b4, b5, b6⟩ := late_wave (f := f) hT hB (by omega) hB (fun x hx t htb => (k4 x (by simp at hx ⊢; omega) t htb).frame a2 (by simp at hx ⊢; omega)) a4 (k2.frame a2 (by decide))
    ((hl.frame k1 (by decide)).frame a2 (by decide)) ht hd (made.sides hn) (by unfold kept; split <;> rfl)
  obtain ⟨r, hr⟩ := k5 _ (p35.tr a1 b1)
  refine ⟨r, s3, _, hr, ?_, ⟨b4, b5, ?_, rfl⟩, b6, b3⟩
  · have := ((k1.trans a2).trans b2).mono (S' := List.range 41) (by decide)
    rw [List.nil_append] at this
    exact this
  · show θ.n + 1 = _
    rw [hc.n]
    rfl

end Rtbot.RsiProgram
