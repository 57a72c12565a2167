import Verif.Lemmas.RsiSides

/-! # The first averages of the program of C94 -/

namespace Rtbot.RsiProgram
open Spec Wave Selector Ripple
variable {V : Type} [Num V]

theorem t_not {x y : UInt64} (h : x < y) : ¬ y < x := by
  rw [UInt64.lt_iff_toNat_lt] at *
  omega
theorem t_ne {x y : UInt64} (h : x < y) : ¬ y = x := by
  rintro rfl
  rw [UInt64.lt_iff_toNat_lt] at h
  omega
theorem t_lt {x y : UInt64} (h : x ≤ y) (hn : ¬ y = x) : x < y := by
  rw [UInt64.le_iff_toNat_le] at h
  rw [UInt64.lt_iff_toNat_lt]
  have : y.toNat ≠ x.toNat := fun h => hn (UInt64.toNat_inj.1 h)
  omega
theorem t_trans {x y z : UInt64} (h : x ≤ y) (h' : y < z) : x < z := by
  rw [UInt64.le_iff_toNat_le] at h
  rw [UInt64.lt_iff_toNat_lt] at *
  omega
theorem t_le {x y z : UInt64} (h : x ≤ y) (h' : y ≤ z) : x ≤ z := by
  rw [UInt64.le_iff_toNat_le] at *
  omega
theorem t_refl {x : UInt64} : x ≤ x := by
  rw [UInt64.le_iff_toNat_le]

def vr (e : Bool) : Nat := if e then 18 else 19
def vrId (e : Bool) : Str := if e then b!"876" else b!"946"

/-- The buffers of a Variable. -/
def Vr (s : St V) (e ini : Bool) (D C : List (Msg V)) : Prop := ∃ tp x y, (tp = [] ∨ tp = [i1]) ∧ s.heap (vr e) = some (vari (vrId e) [(o1, side e)] ini tp x y D C)

theorem Vr.frame {s s' : St V} {e ini : Bool} {D C L : List (Msg V)} {S : List Nat} (h : Vr s e ini D C) (hf : Fr S L s s') (hS : vr e ∉ S) : Vr s' e ini D C := by
  obtain ⟨tp, x, y, h1, h2⟩ := h
  exact ⟨tp, x, y, h1, (hf.same _ hS).trans h2⟩

theorem vari_own {id : Str} {w : Map (List Conn)} {ini : Bool} {tp : List Str} {x y : V} {D C : List (Msg V)} : Own (vari id w ini tp x y D C) := ⟨fun _ _ h => (by cases h), fun _ _ _ h => (by cases h)⟩

theorem Vr.data {s : St V} {e ini : Bool} {D C : List (Msg V)} {m : Msg V} {f : Nat} {src : Nat × Str} (h : Vr s e ini D C) (hD : D.length < sizeMax) :
    ∃ s1, Dl (f + 1) src m [⟨vr e, i1⟩] s s1 ∧ Fr [vr e] [] s s1 ∧ Vr s1 e ini (D ++ [m]) C := by
  obtain ⟨tp, x, y, h1, h2⟩ := h
  have hi : (⟨i1, sizeMax, x, D⟩ : Inp V).receive m = .ok ⟨i1, sizeMax, x +. m.value, D ++ [m]⟩ := by
    unfold Inp.receive
    dsimp only
    rw [if_neg (by omega), if_neg (by omega)]
    rfl
  have hr : (vari (vrId e) [(o1, side e)] ini tp x y D C).recvData m i1 = .ok (vari (vrId e) [(o1, side e)] ini [i1] (x +. m.value) y (D ++ [m]) C) := by
    have hk : (vari (vrId e) [(o1, side e)] ini tp x y D C).recvData m i1 =
        ((⟨i1, sizeMax, x, D⟩ : Inp V).receive m >>= fun i' => Except.ok ({ (vari (vrId e) [(o1, side e)] ini tp x y D C).core with dataIn := [(i1, i')], toProcess := setInsert tp i1 } : Core V)) >>=
          fun c => Except.ok (⟨c, .variable (Num.ofNat 0) ini⟩ : Op V) := rfl
    rw [hk, hi]
    rcases h1 with rfl | rfl <;> rfl
  obtain ⟨s1, k1, k2, k3⟩ := dl_data (f := f) (src := src) h2 vari_own (by rfl) hr
  exact ⟨s1, k1, k2, _, _, _, .inr rfl, k3⟩

theorem Vr.ctrl {s : St V} {e ini : Bool} {D : List (Msg V)} {m : Msg V} {f : Nat} {src : Nat × Str} (h : Vr s e ini D []) :
    ∃ s1, Dl (f + 1) src m [⟨vr e, c1⟩] s s1 ∧ Fr [vr e] [] s s1 ∧ Vr s1 e ini D [m] := by
  obtain ⟨tp, x, y, h1, h2⟩ := h
  have hr : (vari (vrId e) [(o1, side e)] ini tp x y D []).recvCtrl m c1 = .ok (vari (vrId e) [(o1, side e)] ini tp x (y +. m.value) D [m]) := rfl
  obtain ⟨s1, k1, k2, k3⟩ := dl_ctrl (f := f) (src := src) h2 vari_own (by rfl) (by rfl) hr
  exact ⟨s1, k1, k2, _, _, _, h1, k3⟩

theorem Vr.trData {s s1 s2 : St V} {e ini : Bool} {D C : List (Msg V)} {f : Nat} {cs : List Conn} (h : Vr s e ini D C) (he : Ex f false (vr e) s s1) (ht : Tr f cs s1 s2) : Tr f (⟨vr e, i1⟩ :: cs) s s2 := by
  obtain ⟨tp, x, y, h1, h2⟩ := h
  exact Tr.data h2 (by rfl) he ht

theorem Vr.trCtrl {s s1 s2 : St V} {e ini : Bool} {D C : List (Msg V)} {f : Nat} {cs : List Conn} (h : Vr s e ini D C) (he : Ex f true (vr e) s s1) (ht : Tr f cs s1 s2) : Tr f (⟨vr e, c1⟩ :: cs) s s2 := by
  obtain ⟨tp, x, y, h1, h2⟩ := h
  exact Tr.ctrl h2 (by rfl) (by rfl) he ht

/-- A Variable that answers nothing. -/
theorem Vr.still {s : St V} {e ini ini' ctrl : Bool} {D D' C : List (Msg V)} {f : Nat} (h : Vr s e ini D C)
    (hx : ∀ tp x y, (vari (vrId e) [(o1, side e)] ini tp x y D C).execVariable (Num.ofNat 0) ini = .ok [] (vari (vrId e) [(o1, side e)] ini' tp x y D' C)) :
    ∃ s1, Ex (f + 1) ctrl (vr e) s s1 ∧ Fr [vr e] [] s s1 ∧ Vr s1 e ini' D' C := by
  obtain ⟨tp, x, y, h1, h2⟩ := h
  obtain ⟨s1, k1, k2, k3⟩ := ex_quiet (f := f) (ctrl := ctrl) h2 vari_own (by cases ctrl <;> exact hx tp x y)
  exact ⟨s1, k1, k2, _, _, _, h1, k3⟩

/-- A Variable that answers. -/
theorem Vr.answer {s : St V} {e ini ini' : Bool} {D D' C C' : List (Msg V)} {f : Nat} {m : Msg V} (h : Vr s e ini D C)
    (hx : ∀ tp x y, (vari (vrId e) [(o1, side e)] ini tp x y D C).execVariable (Num.ofNat 0) ini = .ok (single m) (vari (vrId e) [(o1, side e)] ini' tp x y D' C')) :
    ∃ s1, Fr [vr e] [] s s1 ∧ Vr s1 e ini' D' C' ∧ ∀ s2 s3, Dl f (vr e, o1) m (side e) s1 s2 → Tr f (side e) s2 s3 → Ex (f + 1) false (vr e) s s3 := by
  obtain ⟨tp, x, y, h1, h2⟩ := h
  obtain ⟨s1, k1, k2, k3⟩ := ex_one (f := f) (ctrl := false) (p := o1) (m := m) (cs := side e) (by cases e <;> decide) h2 vari_own (hx tp x y) (by rfl) (by rfl)
  exact ⟨s1, k1, ⟨_, _, _, h1, k2⟩, k3⟩

/-- The states of a Variable: before it is asked (time and value of the last data), asked (value of the last data), after its answer. -/
inductive VS (V : Type)
  | opened (τ : UInt64) (w : Option V) (k : Nat)
  | ask (w : Option V)
  | done (v : V) (k : Nat)

def VS.avg : VS V → Option V
  | .done v _ => some v
  | _ => none

def VS.k : VS V → Nat
  | .opened _ _ k => k
  | .ask _ => 1
  | .done _ k => k

/-- The state before the Variable `e`, asked for the time `t`, gets data. -/
def Vp (s : St V) (e : Bool) (t : UInt64) : VS V → Prop
  | .opened τ w k => ∃ D, Vr s e false D [] ∧ D.length ≤ k ∧ (∀ m ∈ D, m.time ≤ τ) ∧ D.getLast?.map Msg.value = w
  | .ask none => ∃ c, Vr s e false [] [⟨t, c⟩]
  | .ask (some v) => ∃ c u, u < t ∧ Vr s e true [⟨u, v⟩] [⟨t, c⟩]
  | .done _ k => ∃ ini D, Vr s e ini D [] ∧ D.length ≤ k

/-- The same when it has received `⟨t', x⟩`. -/
def Vg (s : St V) (e : Bool) (t t' : UInt64) (x : V) : VS V → Prop
  | .opened τ _ k => ∃ D, Vr s e false (D ++ [⟨t', x⟩]) [] ∧ D.length ≤ k ∧ (∀ m ∈ D, m.time ≤ τ)
  | .ask none => ∃ c, Vr s e false [⟨t', x⟩] [⟨t, c⟩]
  | .ask (some v) => ∃ c u, u < t ∧ Vr s e true [⟨u, v⟩, ⟨t', x⟩] [⟨t, c⟩]
  | .done _ k => ∃ ini D, Vr s e ini (D ++ [⟨t', x⟩]) [] ∧ D.length ≤ k

def VS.take (t t' : UInt64) (x : V) : VS V → VS V
  | .opened _ _ k => .opened t' (some x) (k + 1)
  | .ask w => .done (if t' = t then x else match w with | none => Num.ofNat 0 | some v => v) 2
  | .done v k => .done v (k + 1)

theorem Vp.frame {s s' : St V} {e : Bool} {t : UInt64} {S : VS V} {L : List (Msg V)} {R : List Nat} (h : Vp s e t S) (hf : Fr R L s s') (hS : vr e ∉ R) : Vp s' e t S := by
  match S, h with
  | .opened τ w k, ⟨D, h1, h2⟩ => exact ⟨D, h1.frame hf hS, h2⟩
  | .ask none, ⟨c, h1⟩ => exact ⟨c, h1.frame hf hS⟩
  | .ask (some v), ⟨c, u, h1, h2⟩ => exact ⟨c, u, h1, h2.frame hf hS⟩
  | .done v k, ⟨ini, D, h1, h2⟩ => exact ⟨ini, D, h1.frame hf hS, h2⟩

theorem Vg.frame {s s' : St V} {e : Bool} {t t' : UInt64} {x : V} {S : VS V} {L : List (Msg V)} {R : List Nat} (h : Vg s e t t' x S) (hf : Fr R L s s') (hS : vr e ∉ R) : Vg s' e t t' x S := by
  match S, h with
  | .opened τ w k, ⟨D, h1, h2⟩ => exact ⟨D, h1.frame hf hS, h2⟩
  | .ask none, ⟨c, h1⟩ => exact ⟨c, h1.frame hf hS⟩
  | .ask (some v), ⟨c, u, h1, h2⟩ => exact ⟨c, u, h1, h2.frame hf hS⟩
  | .done v k, ⟨ini, D, h1, h2⟩ => exact ⟨ini, D, h1.frame hf hS, h2⟩

theorem Vg.tr {s s1 s2 : St V} {e : Bool} {t t' : UInt64} {x : V} {S : VS V} {f : Nat} {cs : List Conn} (h : Vg s e t t' x S) (he : Ex f false (vr e) s s1) (ht : Tr f cs s1 s2) : Tr f (⟨vr e, i1⟩ :: cs) s s2 := by
  match S, h with
  | .opened τ w k, ⟨D, h1, h2⟩ => exact h1.trData he ht
  | .ask none, ⟨c, h1⟩ => exact h1.trData he ht
  | .ask (some v), ⟨c, u, h1, h2⟩ => exact h2.trData he ht
  | .done v k, ⟨ini, D, h1, h2⟩ => exact h1.trData he ht

/-- Data come in. -/
theorem v_data {s : St V} {e : Bool} {t t' : UInt64} {x : V} {S : VS V} {f : Nat} {src : Nat × Str} (h : Vp s e t S) (hk : S.k < 1000) :
    ∃ s1, Dl (f + 1) src ⟨t', x⟩ [⟨vr e, i1⟩] s s1 ∧ Fr [vr e] [] s s1 ∧ Vg s1 e t t' x S := by
  have big : 1000 < sizeMax := by decide
  match S, h with
  | .opened τ w k, ⟨D, h1, h2, h3, _⟩ =>
    have hk' : k < 1000 := hk
    obtain ⟨s1, k1, k2, k3⟩ := h1.data (f := f) (src := src) (m := ⟨t', x⟩) (by omega)
    exact ⟨s1, k1, k2, D, k3, h2, h3⟩
  | .ask none, ⟨c, h1⟩ =>
    obtain ⟨s1, k1, k2, k3⟩ := h1.data (f := f) (src := src) (m := ⟨t', x⟩) (by simp; omega)
    exact ⟨s1, k1, k2, c, k3⟩
  | .ask (some v), ⟨c, u, h1, h2⟩ =>
    obtain ⟨s1, k1, k2, k3⟩ := h2.data (f := f) (src := src) (m := ⟨t', x⟩) (by simp; omega)
    exact ⟨s1, k1, k2, c, u, h1, k3⟩
  | .done v k, ⟨ini, D, h1, h2⟩ =>
    have hk' : k < 1000 := hk
    obtain ⟨s1, k1, k2, k3⟩ := h1.data (f := f) (src := src) (m := ⟨t', x⟩) (by omega)
    exact ⟨s1, k1, k2, ini, D, k3, h2⟩

theorem noC {id : Str} {w : Map (List Conn)} {ini : Bool} {tp : List Str} {x y : V} {D : List (Msg V)} : (vari id w ini tp x y D []).execVariable (Num.ofNat 0) ini = .ok [] (vari id w ini tp x y D []) := by
  cases D <;> rfl

theorem noD {id : Str} {w : Map (List Conn)} {ini : Bool} {tp : List Str} {x y : V} {C : List (Msg V)} : (vari id w ini tp x y [] C).execVariable (Num.ofNat 0) ini = .ok [] (vari id w ini tp x y [] C) := by
  cases C <;> rfl

/-- The answer with no earlier data. -/
theorem ans_none {id : Str} {w : Map (List Conn)} {tp : List Str} {x y c z : V} {t t' : UInt64} (h : t ≤ t') :
    ∃ ini', (vari id w false tp x y [⟨t', z⟩] [⟨t, c⟩]).execVariable (Num.ofNat 0) false = .ok (single ⟨t, if t' = t then z else Num.ofNat 0⟩) (vari id w ini' tp x y [⟨t', z⟩] []) := by
  by_cases he : t' = t
  · subst he
    refine ⟨true, ?_⟩
    simp [Op.execVariable, vari]
  · have hlt : t < t' := t_lt h he
    refine ⟨false, ?_⟩
    simp [Op.execVariable, vari, hlt, he]

theorem ans_some {id : Str} {w : Map (List Conn)} {tp : List Str} {x y c z v : V} {t t' u : UInt64} (h : t ≤ t') (hu : u < t) :
    ∃ D', D'.length ≤ 2 ∧ (vari id w true tp x y [⟨u, v⟩, ⟨t', z⟩] [⟨t, c⟩]).execVariable (Num.ofNat 0) true = .ok (single ⟨t, if t' = t then z else v⟩) (vari id w true tp x y D' []) := by
  have h1 : ¬ t < u := t_not hu
  have h2 : ¬ t = u := t_ne hu
  by_cases he : t' = t
  · subst he
    refine ⟨[⟨t', z⟩], by simp, ?_⟩
    simp [Op.execVariable, vari, h1, h2, varSearch]
  · have hlt : t < t' := t_lt h he
    refine ⟨[⟨u, v⟩, ⟨t', z⟩], by simp, ?_⟩
    simp [Op.execVariable, vari, h1, h2, varSearch, hlt, he, hu]

theorem search_old {q : UInt64} : ∀ D : List (Msg V), (∀ m ∈ D, m.time < q) → varSearch q D = (match D.getLast? with | none => [] | some m => [m], none)
  | [], _ => rfl
  | [m], _ => rfl
  | m :: m' :: D, h => by
    have h1 : m.time < q := h m (by simp)
    have h2 : m'.time < q := h m' (by simp)
    unfold varSearch
    rw [if_neg (by simp [t_not h2]), if_neg (t_ne h2), search_old (m' :: D) fun x hx => h x (List.mem_cons_of_mem _ hx)]
    rfl

/-- The query. -/
theorem v_ask {s : St V} {e : Bool} {τ t : UInt64} {w : Option V} {k : Nat} {c : V} {f f' : Nat} {src : Nat × Str} {t0 : UInt64} (h : Vp s e t0 (.opened τ w k)) (ht : τ < t) :
    ∃ s1, Dl (f + 1) src ⟨t, c⟩ [⟨vr e, c1⟩] s s1 ∧ Fr [vr e] [] s s1 ∧ ∀ {S : List Nat} {L : List (Msg V)} {s2 : St V}, Fr S L s1 s2 → vr e ∉ S →
      ∃ s3, (∀ cs s4, Tr (f' + 1) cs s3 s4 → Tr (f' + 1) (⟨vr e, c1⟩ :: cs) s2 s4) ∧ Fr [vr e] [] s2 s3 ∧ Vp s3 e t (.ask w) := by
  obtain ⟨D, h1, h2, h3, h4⟩ := h
  obtain ⟨s1, k1, k2, k3⟩ := h1.ctrl (f := f) (src := src) (m := ⟨t, c⟩)
  refine ⟨s1, k1, k2, fun hf hS => ?_⟩
  have k3' := k3.frame hf hS
  have hold : ∀ m ∈ D, m.time < t := fun m hm => t_trans (h3 m hm) ht
  cases D with
  | nil =>
    cases h4
    obtain ⟨s3, j1, j2, j3⟩ := k3'.still (f := f') (ctrl := true) (ini' := false) (D' := []) (fun tp x y => noD)
    exact ⟨s3, fun cs s4 h => k3'.trCtrl j1 h, j2, c, j3⟩
  | cons m D =>
    have hm : m.time < t := hold m (by simp)
    obtain ⟨l, hl⟩ : ∃ l, (m :: D).getLast? = some l := ⟨_, List.getLast?_eq_some_getLast (by simp)⟩
    obtain ⟨s3, j1, j2, j3⟩ := k3'.still (f := f') (ctrl := true) (ini' := true) (D' := [l]) (fun tp x y => by
      have hs := search_old (m :: D) hold
      rw [hl] at hs
      have g1 : ¬ t < m.time := t_not hm
      have g2 : ¬ t = m.time := t_ne hm
      simp [Op.execVariable, vari, g1, g2, hs])
    rw [hl] at h4
    cases h4
    have hlt : l.time < t := hold l (List.mem_of_getLast? hl)
    exact ⟨s3, fun cs s4 h => k3'.trCtrl j1 h, j2, c, l.time, hlt, j3⟩

def VS.q (t : UInt64) (S : VS V) : List (Msg V) :=
  match S.avg with
  | some v => [⟨t + 1, v⟩]
  | none => []

/-- What waits in the Division: the average of the side that answered alone. -/
def half (t : UInt64) (own other : Option V) : List (Msg V) :=
  match own, other with
  | some v, none => [⟨t, v⟩]
  | _, _ => []

def news (e : Bool) (t : UInt64) (old new other : Option V) : List (Msg V) :=
  match old with
  | some _ => []
  | none => rep2 e t new other

/-- Data with the time `t'` are in order. -/
def VS.due (t t' : UInt64) : VS V → Prop
  | .opened τ _ _ => τ ≤ t'
  | .ask _ => t ≤ t'
  | .done _ _ => True

/-- A Variable executes. -/
theorem v_exec {a b : V} {θ : Keep V} {s : St V} {e : Bool} {t t' : UInt64} {x : V} {S : VS V} {other : Option V} {f : Nat} {p : List Nat} (h : Vg s e t t' x S)
    (ht : S.due t t') (hl : Ln a b s e (S.q t) []) (hd : Dq s e (half t S.avg other) (half t other S.avg)) (hr : Rest θ s p) (hp : From 10 p) :
    ∃ s', Ex (f + 8) false (vr e) s s' ∧ Fr [vr e, 5, 4, 3, 2, 1, 0, sh e, lin e] (news e t S.avg (S.take t t' x).avg other) s s' ∧ Vp s' e t (S.take t t' x) ∧ Ln a b s' e ((S.take t t' x).q t) [] ∧
      Dq s' e (half t (S.take t t' x).avg other) (half t other (S.take t t' x).avg) ∧ Rest θ s' p := by
  have hn : tb θ (vr e) = none := by cases e <;> rfl
  have hl5 : lin e ∉ [vr e] := by cases e <;> decide
  have h5 : 5 ∉ [vr e] := by cases e <;> decide
  match S, h with
  | .opened τ w k, ⟨D, h1, h2, h3⟩ =>
    obtain ⟨s1, k1, k2, k3⟩ := h1.still (f := f + 7) (ctrl := false) (ini' := false) (D' := D ++ [⟨t', x⟩]) (fun tp x y => noC)
    refine ⟨s1, k1, k2.mono (by simp), ⟨_, k3, ?_, ?_, ?_⟩, hl.frame k2 hl5, hd.frame k2 h5, hr.other k2 hn⟩
    · simp; omega
    · intro m hm
      rcases List.mem_append.1 hm with hm | hm
      · exact t_le (h3 m hm) ht
      · simp at hm; subst hm; exact t_refl
    · simp
  | .done v k, ⟨ini, D, h1, h2⟩ =>
    obtain ⟨s1, k1, k2, k3⟩ := h1.still (f := f + 7) (ctrl := false) (ini' := ini) (D' := D ++ [⟨t', x⟩]) (fun tp x y => noC)
    refine ⟨s1, k1, k2.mono (by simp), ⟨_, _, k3, ?_⟩, hl.frame k2 hl5, hd.frame k2 h5, hr.other k2 hn⟩
    simp; omega
  | .ask w, h =>
    have key : ∃ ini' D', D'.length ≤ 2 ∧ ∃ s1, Fr [vr e] [] s s1 ∧ Vr s1 e ini' D' [] ∧
        ∀ s2 s3, Dl (f + 7) (vr e, o1) ⟨t, if t' = t then x else match w with | none => Num.ofNat 0 | some v => v⟩ (side e) s1 s2 → Tr (f + 7) (side e) s2 s3 → Ex (f + 8) false (vr e) s s3 := by
      cases w with
      | none =>
        obtain ⟨c, h1⟩ := h
        obtain ⟨tp, y1, y2, q1, q2⟩ := h1
        obtain ⟨ini', hx⟩ := ans_none (id := vrId e) (w := [(o1, side e)]) (tp := tp) (x := y1) (y := y2) (c := c) (z := x) ht
        obtain ⟨s1, k1, k2, k3⟩ := ex_one (f := f + 7) (ctrl := false) (p := o1) (cs := side e) (by cases e <;> decide) q2 vari_own hx (by rfl) (by rfl)
        exact ⟨ini', _, by simp, s1, k1, ⟨_, _, _, q1, k2⟩, k3⟩
      | some v =>
        obtain ⟨c, u, hu, h1⟩ := h
        obtain ⟨tp, y1, y2, q1, q2⟩ := h1
        obtain ⟨D', hD, hx⟩ := ans_some (id := vrId e) (w := [(o1, side e)]) (tp := tp) (x := y1) (y := y2) (c := c) (z := x) (v := v) ht hu
        obtain ⟨s1, k1, k2, k3⟩ := ex_one (f := f + 7) (ctrl := false) (p := o1) (cs := side e) (by cases e <;> decide) q2 vari_own hx (by rfl) (by rfl)
        exact ⟨true, _, hD, s1, k1, ⟨_, _, _, q1, k2⟩, k3⟩
    obtain ⟨ini', D', hD, s1, k1, k2, k3⟩ := key
    have hd1 : Dq s1 e [] (at1 t other) := by
      have := hd.frame k1 h5
      cases other <;> exact this
    obtain ⟨s2, s3, j1, j2, j3, j4, j5, j6⟩ := side_emit (a := a) (b := b) (f := f) (src := (vr e, o1)) (t := t) hd1 (hl.frame k1 hl5) (hr.other k1 hn) hp
    refine ⟨s3, k3 _ _ j1 j2, (k1.trans j3).mono (by intro z hz; simp at hz ⊢; omega), ⟨ini', D', k2.frame j3 (by cases e <;> decide), hD⟩, j5, ?_, j6⟩
    cases other <;> exact j4

end Rtbot.RsiProgram
