import Verif.Lemmas.RsiProgram
import Mathlib.Tactic.IntervalCases

/-! # The two smoothed averages of the program of C94 -/

namespace Rtbot.RsiProgram
open Spec Wave Selector Ripple
variable {V : Type} [Num V]

/-- The older average that a Linear holds for the change at time `t`: `none` if there is none for that time. -/
def Pre (a b : V) (s : St V) (e : Bool) (t : UInt64) : Option V → Prop
  | some y => Ln a b s e [⟨t, y⟩] []
  | none => ∃ Q1 Q2, Ln a b s e Q1 Q2 ∧ (Q1 = [] ∨ ∃ u y, Q1 = [⟨u, y⟩] ∧ u < t ∧ Q2 = [])

/-- The same after the change `x` was received. -/
def Fed (a b : V) (s : St V) (e : Bool) (t : UInt64) (x : V) : Option V → Prop
  | some y => Ln a b s e [⟨t, y⟩] [⟨t, x⟩]
  | none => ∃ Q1 Q2, Ln a b s e Q1 Q2 ∧ (Q1 = [] ∨ ∃ u y, Q1 = [⟨u, y⟩] ∧ u < t ∧ Q2 = [⟨t, x⟩])

/-- The new average. -/
def Aft (a b : V) (s : St V) (e : Bool) (t : UInt64) : Option V → Prop
  | some v => Ln a b s e [⟨t + 1, v⟩] []
  | none => ∃ Q, Ln a b s e [] Q

def smooth (a b : V) (o : Option V) (x : V) : Option V := o.map fun y => Num.ofNat 0 +. y *. a +. x *. b

theorem Pre.frame {a b : V} {s s' : St V} {e : Bool} {t : UInt64} {o : Option V} {L : List (Msg V)} {S : List Nat} (h : Pre a b s e t o) (hf : Fr S L s s') (hS : lin e ∉ S) : Pre a b s' e t o := by
  cases o with
  | some y => exact Ln.frame h hf hS
  | none =>
    obtain ⟨Q1, Q2, h1, h2⟩ := h
    exact ⟨Q1, Q2, h1.frame hf hS, h2⟩

theorem Fed.frame {a b : V} {s s' : St V} {e : Bool} {t : UInt64} {x : V} {o : Option V} {L : List (Msg V)} {S : List Nat} (h : Fed a b s e t x o) (hf : Fr S L s s') (hS : lin e ∉ S) : Fed a b s' e t x o := by
  cases o with
  | some y => exact Ln.frame h hf hS
  | none =>
    obtain ⟨Q1, Q2, h1, h2⟩ := h
    exact ⟨Q1, Q2, h1.frame hf hS, h2⟩

theorem Aft.frame {a b : V} {s s' : St V} {e : Bool} {t : UInt64} {o : Option V} {L : List (Msg V)} {S : List Nat} (h : Aft a b s e t o) (hf : Fr S L s s') (hS : lin e ∉ S) : Aft a b s' e t o := by
  cases o with
  | some y => exact Ln.frame h hf hS
  | none =>
    obtain ⟨Q, h1⟩ := h
    exact ⟨Q, h1.frame hf hS⟩

theorem Ln.recv {a b : V} {s : St V} {e : Bool} {Q1 Q2 : List (Msg V)} {m : Msg V} {f : Nat} {src : Nat × Str} (h : Ln a b s e Q1 Q2) :
    ∃ s1, Dl (f + 1) src m [⟨lin e, i2⟩] s s1 ∧ Fr [lin e] [] s s1 ∧ Ln a b s1 e Q1 (Q2 ++ [m]) := by
  obtain ⟨u1, u2, hh⟩ := h
  obtain ⟨s1, k1, k2, k3⟩ := dl_data (f := f) (src := src) hh (two_own (.linear a b)) (by rfl) (two_recv2 (.linear a b) m)
  exact ⟨s1, k1, k2, _, _, k3⟩

theorem feed_dl {a b : V} {s : St V} {e : Bool} {t : UInt64} {x : V} {o : Option V} {f : Nat} {src : Nat × Str} (h : Pre a b s e t o) :
    ∃ s1, Dl (f + 1) src ⟨t, x⟩ [⟨lin e, i2⟩] s s1 ∧ Fr [lin e] [] s s1 ∧ Fed a b s1 e t x o := by
  cases o with
  | some y => exact Ln.recv h
  | none =>
    obtain ⟨Q1, Q2, h1, h2⟩ := h
    obtain ⟨s1, k1, k2, k3⟩ := h1.recv (f := f) (src := src) (m := ⟨t, x⟩)
    refine ⟨s1, k1, k2, Q1, _, k3, ?_⟩
    rcases h2 with h2 | ⟨u, y, q1, q2, q3⟩
    · exact .inl h2
    · exact .inr ⟨u, y, q1, q2, by rw [q3]; rfl⟩

theorem Fed.tr {a b : V} {s s1 s2 : St V} {e : Bool} {t : UInt64} {x : V} {o : Option V} {f : Nat} {cs : List Conn} (h : Fed a b s e t x o) (he : Ex f false (lin e) s s1) (ht : Tr f cs s1 s2) :
    Tr f (⟨lin e, i2⟩ :: cs) s s2 := by
  have : ∃ Q1 Q2, Ln a b s e Q1 Q2 := by
    cases o with
    | some y => exact ⟨_, _, h⟩
    | none =>
      obtain ⟨Q1, Q2, h1, _⟩ := h
      exact ⟨_, _, h1⟩
  obtain ⟨Q1, Q2, u1, u2, hh⟩ := this
  exact Tr.data hh (by rfl) he ht

/-- What is reported of the new average `v` of the side and that of the other. -/
def rep2 (e : Bool) (t : UInt64) (v other : Option V) : List (Msg V) :=
  match v with
  | none => []
  | some v => rep e t v other

def left2 (t : UInt64) (v other : Option V) : List (Msg V) :=
  match v with
  | none => []
  | some v => left t v other

theorem feed_ex {a b : V} {θ : Keep V} {s : St V} {f : Nat} {e : Bool} {t : UInt64} {x : V} {o other : Option V} {p : List Nat} (h : Fed a b s e t x o) (hd : Dq s e [] (at1 t other)) (hr : Rest θ s p)
    (hp : From 10 p) (ho : o = none → other = none) :
    ∃ s', Ex (f + 8) false (lin e) s s' ∧ Fr [5, 4, 3, 2, 1, 0, sh e, lin e] (rep2 e t (smooth a b o x) other) s s' ∧ Dq s' e (left2 t (smooth a b o x) other) [] ∧ Aft a b s' e t (smooth a b o x) ∧
      Rest θ s' p := by
  have hn : tb θ (lin e) = none := by cases e <;> rfl
  cases o with
  | some y =>
    obtain ⟨u1, u2, hh⟩ := h
    obtain ⟨w1, w2, he⟩ := lin_same (id := linId e) (w := [(o1, side e)]) (a := a) (b := b) (s1 := u1) (s2 := u2) (t := t) (y := y) (x := x)
    obtain ⟨s1, k1, k2, k3⟩ := ex_one (f := f + 7) (ctrl := false) (cs := side e) (by cases e <;> decide) hh (two_own (.linear a b)) he (by rfl) (by rfl)
    obtain ⟨s2, s3, j1, j2, j3, j4, j5, j6⟩ := side_emit (a := a) (b := b) (f := f) (src := (lin e, o1)) (t := t) (v := Num.ofNat 0 +. y *. a +. x *. b)
      (hd.frame k1 (by cases e <;> decide)) ⟨_, _, k2⟩ (hr.other k1 hn) hp
    exact ⟨s3, k3 _ _ j1 j2, (k1.trans j3).mono (by intro z hz; simp at hz ⊢; omega), j4, j5, j6⟩
  | none =>
    have hother := ho rfl
    subst hother
    have key : ∃ Q1 Q2 Q, Ln a b s e Q1 Q2 ∧ ∀ u1 u2 : V, ∃ u1', (two (linId e) [(o1, side e)] (.linear [a, b]) u1 u2 Q1 Q2).execData = .ok [] (two (linId e) [(o1, side e)] (.linear [a, b]) u1' u2 [] Q) := by
      obtain ⟨Q1, Q2, h1, h2⟩ := h
      refine ⟨Q1, Q2, Q2, h1, fun u1 u2 => ?_⟩
      rcases h2 with rfl | ⟨u, y, rfl, q2, rfl⟩
      · exact ⟨u1, two_wait1 (.linear a b)⟩
      · exact two_gap (.linear a b) q2
    obtain ⟨Q1, Q2, Q, ⟨u1, u2, hh⟩, hx⟩ := key
    obtain ⟨u1', hx⟩ := hx u1 u2
    obtain ⟨s1, k1, k2, k3⟩ := ex_still (f := f + 7) hh (two_own (.linear a b)) hx
    refine ⟨s1, k1, k2.mono (by intro z hz; simp at hz ⊢; omega), ?_, ⟨Q, _, _, k3⟩, hr.other k2 hn⟩
    exact hd.frame k2 (by cases e <;> decide)

theorem all_base (θ : Keep V) {x : Nat} {t : Str × Map (List Conn) × Kind V} (h : tb θ x = some t) : Base t.2.2 := by
  have hx : x < 41 := by
    by_contra hx
    have : (tbl θ)[x]? = none := List.getElem?_eq_none (by simpa [tbl] using hx)
    unfold tb at h
    rw [this] at h
    cases h
  interval_cases x <;> cases h <;>
    first
    | exact base_output _
    | exact base_add _
    | exact base_scale _
    | exact base_power _
    | exact base_shift _ _
    | exact base_constant _
    | exact base_filter _ _
    | exact base_cumSum _
    | exact base_count _
    | exact base_input _ _

/-- A message goes to several operators. -/
theorem dls {θ : Keep V} {f : Nat} {src : Nat × Str} {m : Msg V} (l : List Nat) {s : St V} {p : List Nat} (hl : l.Nodup) (ht : ∀ x ∈ l, (tb θ x).isSome) (hp : ∀ x ∈ l, x ∉ p) (hr : Rest θ s p) :
    ∃ s1, Dl (f + 1) src m (l.map fun x => ⟨x, i1⟩) s s1 ∧ Fr l [] s s1 ∧ (∀ x ∈ l, ∀ t, tb θ x = some t → Pend s1 x t.1 t.2.1 t.2.2 m) ∧ Rest θ s1 (l ++ p) := by
  induction l generalizing s p with
  | nil => exact ⟨s, Dl.nil s, Fr.refl s, (by simp), hr⟩
  | cons y l ih =>
    obtain ⟨t, hy⟩ := Option.isSome_iff_exists.1 (ht y List.mem_cons_self)
    have hyl : y ∉ l := (List.nodup_cons.1 hl).1
    obtain ⟨s1, a1, a2, a3⟩ := dl_idle (f := f) (src := src) (all_base θ hy) (hr y t hy (hp y List.mem_cons_self)) m
    obtain ⟨s2, c1, c2, c3, c4⟩ := ih (p := y :: p) (List.nodup_cons.1 hl).2 (fun x hx => ht x (List.mem_cons_of_mem _ hx))
      (fun x hx h => by
        rcases List.mem_cons.1 h with rfl | h
        · exact hyl hx
        · exact hp x (List.mem_cons_of_mem _ hx) h) (hr.out a2)
    refine ⟨s2, a1.cons c1, a2.trans c2, fun x hx t' ht' => ?_, c4.weak (by simp; tauto)⟩
    rcases List.mem_cons.1 hx with rfl | hx
    · rw [hy] at ht'
      cases ht'
      exact a3.frame c2 hyl
    · exact c3 x hx t' ht'

/-- An operator lets nothing through. -/
theorem halt {θ : Keep V} {s : St V} {f x : Nat} {t : Str × Map (List Conn) × Kind V} {m : Msg V} {p : List Nat} (hx : tb θ x = some t) (hK : Stops t.2.2 m) (hm : Pend s x t.1 t.2.1 t.2.2 m)
    (hr : Rest θ s (x :: p)) : ∃ s', Ex (f + 1) false x s s' ∧ Fr [x] [] s s' ∧ Rest θ s' p := by
  obtain ⟨s', k1, k2, k3⟩ := ex_stops (f := f) hK hm
  exact ⟨s', k1, k2, hr.back k2 hx k3 (by simp; tauto)⟩

/-- An operator connected to a Linear. -/
theorem arm {a b : V} {θ : Keep V} {s : St V} {f x : Nat} {e : Bool} {t : UInt64} {v : V} {o other : Option V} {p : List Nat} {id : Str} {K : Kind V} {m : Msg V}
    (hx : tb θ x = some (id, [(o1, [⟨lin e, i2⟩])], K)) (hK : Makes K m ⟨t, v⟩ K) (hx10 : 10 ≤ x) (hm : Pend s x id [(o1, [⟨lin e, i2⟩])] K m) (h : Pre a b s e t o) (hd : Dq s e [] (at1 t other))
    (hr : Rest θ s (x :: p)) (hp : From 10 p) (ho : o = none → other = none) :
    ∃ s', Ex (f + 9) false x s s' ∧ Fr [x, 5, 4, 3, 2, 1, 0, sh e, lin e] (rep2 e t (smooth a b o v) other) s s' ∧ Dq s' e (left2 t (smooth a b o v) other) [] ∧ Aft a b s' e t (smooth a b o v) ∧ Rest θ s' p := by
  have hn : tb θ (lin e) = none := by cases e <;> rfl
  obtain ⟨s1, k1, k2, k3⟩ := ex_makes (f := f + 8) (by omega) hK hm (cs := [⟨lin e, i2⟩]) rfl
  have hr1 : Rest θ s1 p := hr.back k1 hx k2 (by simp; tauto)
  obtain ⟨s2, j1, j2, j3⟩ := feed_dl (f := f + 7) (src := (x, o1)) (x := v) (h.frame k1 (by cases e <;> simp [lin] <;> omega))
  obtain ⟨s3, n1, n2, n3, n4, n5⟩ := feed_ex (f := f) j3 ((hd.frame k1 (by simp; omega)).frame j2 (by cases e <;> decide)) (hr1.other j2 hn) hp ho
  exact ⟨s3, k3 _ _ j1 (j3.tr n1 (Tr.nil _)), ((k1.trans j2).trans n2).mono (by intro z hz; simp at hz ⊢; omega), n3, n4, n5⟩

/-- What is reported of the averages of gains and losses. -/
def told (t : UInt64) (g l : Option V) : List (Msg V) :=
  match g, l with
  | some g, some l => report t g l
  | _, _ => []

inductive Sgn (d : V) : Prop
  | neg (h1 : Num.lt d (Num.ofNat 0) = true) (h2 : Num.eq d (Num.ofNat 0) = false) (h3 : Num.lt (Num.ofNat 0) d = false) : Sgn d
  | zero (h1 : Num.lt d (Num.ofNat 0) = false) (h2 : Num.eq d (Num.ofNat 0) = true) (h3 : Num.lt (Num.ofNat 0) d = false) : Sgn d
  | pos (h1 : Num.lt d (Num.ofNat 0) = false) (h2 : Num.eq d (Num.ofNat 0) = false) (h3 : Num.lt (Num.ofNat 0) d = true) : Sgn d

def lossOf (d : V) : V := if Num.lt d (Num.ofNat 0) then d *. Num.neg (Num.ofNat 1) else Num.ofNat 0
def gainOf (d : V) : V := if Num.lt (Num.ofNat 0) d then d else Num.ofNat 0

/-- What holds of the averages between two messages. -/
structure Sides (a b : V) (s : St V) (t : UInt64) (o : Bool → Option V) : Prop where
  pre : ∀ e, Pre a b s e t (o e)
  div : Dv s [] []

structure Made (a b : V) (s : St V) (t : UInt64) (o : Bool → Option V) : Prop where
  aft : ∀ e, Aft a b s e t (o e)
  div : Dv s [] []

/-- Both averages, that of side `e` first. -/
theorem settle {a b : V} {t : UInt64} {s : St V} {e : Bool} {v w : Option V} (hw : v.isSome = w.isSome) (h1 : Dq s (!e) (left2 t w v) []) (h2 : Aft a b s e t v) (h3 : Aft a b s (!e) t w) :
    Made a b s t (fun x => if x = e then v else w) := by
  refine ⟨fun x => ?_, ?_⟩
  · cases e <;> cases x <;> assumption
  · cases v <;> cases w <;> cases e <;> simp at hw <;> exact h1

theorem rep2_none {e : Bool} {t : UInt64} {v : Option V} : rep2 e t v none = [] := by cases v <;> rfl
theorem rep2_false {t : UInt64} {v w : Option V} : rep2 false t w v = told t w v := by cases v <;> cases w <;> rfl
theorem rep2_true {t : UInt64} {v w : Option V} : rep2 true t w v = told t v w := by cases v <;> cases w <;> rfl
theorem left2_first {s : St V} {e : Bool} {t : UInt64} {v : Option V} (h : Dq s e (left2 t v none) []) : Dq s (!e) [] (at1 t v) := by cases e <;> cases v <;> exact h
theorem smooth_some {a b x x' : V} {o o' : Option V} (h : o.isSome = o'.isSome) : (smooth a b o x).isSome = (smooth a b o' x').isSome := by
  unfold smooth
  rw [Option.isSome_map, Option.isSome_map, h]
theorem smooth_none {a b x : V} {o o' : Option V} (h : o.isSome = o'.isSome) (hn : o' = none) : smooth a b o x = none := by
  subst hn
  cases o with
  | none => rfl
  | some y => cases h

/-- The operators that tell whether the change is a loss or a gain. -/
theorem split {a b : V} {θ : Keep V} {s : St V} {f : Nat} {t : UInt64} {d : V} {o : Bool → Option V} {p : List Nat} {src : Nat × Str} (hd : Sgn d) (h : Sides a b s t o) (ho : (o true).isSome = (o false).isSome)
    (hr : Rest θ s p) (hp : From 17 p) :
    ∃ s1 s2, Dl (f + 12) src ⟨t, d⟩ [⟨14, i1⟩, ⟨15, i1⟩, ⟨16, i1⟩] s s1 ∧ Tr (f + 12) [⟨14, i1⟩, ⟨15, i1⟩, ⟨16, i1⟩] s1 s2 ∧
      Fr (List.range 17) (told t (smooth a b (o false) (gainOf d)) (smooth a b (o true) (lossOf d))) s s2 ∧ Made a b s2 t (fun e => smooth a b (o e) (if e then lossOf d else gainOf d)) ∧ Rest θ s2 p := by
  obtain ⟨s1, a1, a2, a3, a4⟩ := dls (f := f + 11) (src := src) (m := ⟨t, d⟩) [14, 15, 16] (by decide) (by intro x hx; fin_cases hx <;> rfl)
    (by intro x hx; exact hp.not (by fin_cases hx <;> decide)) hr
  have p14 := a3 14 (by decide) _ rfl
  have p15 := a3 15 (by decide) _ rfl
  have p16 := a3 16 (by decide) _ rfl
  have hpre := fun e => (h.pre e).frame a2 (by cases e <;> decide)
  have hdiv : Dv s1 [] [] := h.div.frame a2 (by decide)
  have g16 : From 10 (16 :: p) := (hp.le (by decide)).cons (by decide)
  have g15 : From 10 (15 :: 16 :: p) := g16.cons (by decide)
  have hsub : ∀ {S : List Nat}, (∀ x ∈ S, x < 17) → S ⊆ List.range 17 := fun h x hx => List.mem_range.2 (h x hx)
  cases hd with
  | neg h1 h2 h3 =>
    have q1 : lossOf d = d *. Num.neg (Num.ofNat 1) := if_pos h1
    have q2 : gainOf d = Num.ofNat 0 := if_neg (by simp [h3])
    obtain ⟨s2, b1, b2, b3⟩ := ex_makes (f := f + 11) (by decide) (makes_filter (fo := .lessThan) (m := ⟨t, d⟩) h1) p14 (cs := [⟨10, i1⟩, ⟨12, i1⟩]) rfl
    have hr2 : Rest θ s2 (15 :: 16 :: p) := a4.back b1 rfl b2 (by simp; tauto)
    obtain ⟨s3, c1, c2, c3, c4⟩ := dls (f := f + 10) (src := (14, o1)) (m := ⟨t, d⟩) [10, 12] (by decide) (by intro x hx; fin_cases hx <;> rfl)
      (by intro x hx; have := (hp.le (k := 13) (by decide)).cons (x := 16) (by decide) |>.cons (x := 15) (by decide); exact this.not (by fin_cases hx <;> decide)) hr2
    obtain ⟨s4, d1, d2, d3, d4, d5⟩ := arm (a := a) (b := b) (f := f + 2) (e := true) (o := o true) (other := none) rfl (makes_scale _ _) (by decide) (c3 10 (by decide) _ rfl)
      (((hpre true).frame b1 (by decide)).frame c2 (by decide)) ((hdiv.frame b1 (by decide)).frame c2 (by decide)) c4 (g15.cons (by decide)) (fun _ => rfl)
    obtain ⟨s5, e1, e2, e3, e4, e5⟩ := arm (a := a) (b := b) (f := f + 2) (e := false) (o := o false) (other := smooth a b (o true) (lossOf d)) rfl (makes_constant _ _) (by decide)
      ((c3 12 (by decide) _ rfl).frame d2 (by decide))
      ((((hpre false).frame b1 (by decide)).frame c2 (by decide)).frame d2 (by decide)) (by
        rw [q1]
        exact left2_first d3) d5 g15 (smooth_none ho)
    obtain ⟨s6, k1, k2, k3⟩ := halt (f := f + 11) (x := 15) rfl (stops_filter (fo := .equalTo) (m := ⟨t, d⟩) h2) ((((p15.frame b1 (by decide)).frame c2 (by decide)).frame d2 (by decide)).frame e2 (by decide)) e5
    obtain ⟨s7, l1, l2, l3⟩ := halt (f := f + 11) (x := 16) rfl (stops_filter (fo := .greaterThan) (m := ⟨t, d⟩) h3)
      (((((p16.frame b1 (by decide)).frame c2 (by decide)).frame d2 (by decide)).frame e2 (by decide)).frame k2 (by decide)) k3
    refine ⟨s1, s7, a1, p14.tr (b3 _ _ c1 ((c3 10 (by decide) _ rfl).tr d1 (((c3 12 (by decide) _ rfl).frame d2 (by decide)).tr e1 (Tr.nil _))))
      (Pend.tr ((((p15.frame b1 (by decide)).frame c2 (by decide)).frame d2 (by decide)).frame e2 (by decide)) k1
      (Pend.tr (((((p16.frame b1 (by decide)).frame c2 (by decide)).frame d2 (by decide)).frame e2 (by decide)).frame k2 (by decide)) l1 (Tr.nil _))), ?_, ?_, l3⟩
    · have := ((((((a2.trans b1).trans c2).trans d2).trans e2).trans k2).trans l2).mono (hsub (by decide))
      rw [rep2_none, rep2_false, ← q2] at this
      simpa using this
    · rw [← q1] at d4
      rw [← q2] at e3 e4
      have := settle (e := true) (smooth_some ho) ((e3.frame k2 (by decide)).frame l2 (by decide)) (((d4.frame e2 (by decide)).frame k2 (by decide)).frame l2 (by decide)) ((e4.frame k2 (by decide)).frame l2 (by decide))
      refine cast ?_ this
      congr 1
      funext e
      cases e <;> rfl
  | zero h1 h2 h3 =>
    have q1 : lossOf d = Num.ofNat 0 := if_neg (by simp [h1])
    have q2 : gainOf d = Num.ofNat 0 := if_neg (by simp [h3])
    obtain ⟨s2, b1, b2, b3⟩ := halt (f := f + 11) (x := 14) rfl (stops_filter (fo := .lessThan) (m := ⟨t, d⟩) h1) p14 a4
    have p15' := p15.frame b2 (by decide)
    obtain ⟨s3, c1, c2, c3, c4⟩ := link (f := f + 10) (by decide) rfl rfl (base_constant _) (makes_filter (fo := .equalTo) (m := ⟨t, d⟩) h2) p15' b3 (by decide) (((hp.le (k := 12) (by decide)).cons (x := 16) (by decide)).not (by decide))
    obtain ⟨s4, d1, d2, d3⟩ := ex_makes (f := f + 10) (by decide) (makes_constant _ _) c2 (cs := [⟨6, i2⟩, ⟨7, i2⟩]) rfl
    have hr4 : Rest θ s4 (16 :: p) := c3.back d1 rfl d2 (by simp; tauto)
    have f4 := ((b2.trans c1).trans d1)
    obtain ⟨s5, e1, e2, e3⟩ := feed_dl (f := f + 9) (src := (11, o1)) (x := Num.ofNat 0) ((hpre true).frame f4 (by decide))
    obtain ⟨s6, k1, k2, k3⟩ := feed_dl (f := f + 9) (src := (11, o1)) (x := Num.ofNat 0) (((hpre false).frame f4 (by decide)).frame e2 (by decide))
    have hr6 := (hr4.other e2 rfl).other k2 rfl
    have e3' := e3.frame k2 (by decide)
    obtain ⟨s7, l1, l2, l3, l4, l5⟩ := feed_ex (f := f + 2) (e := true) (other := none) e3' (((hdiv.frame f4 (by decide)).frame e2 (by decide)).frame k2 (by decide)) hr6 g16 (fun _ => rfl)
    have k3' := k3.frame l2 (by decide)
    obtain ⟨s8, m1, m2, m3, m4, m5⟩ := feed_ex (f := f + 2) (e := false) k3' (left2_first l3) l5 g16 (smooth_none ho)
    have p16' := (((((p16.frame f4 (by decide)).frame e2 (by decide)).frame k2 (by decide)).frame l2 (by decide)).frame m2 (by decide))
    obtain ⟨s9, n1, n2, n3⟩ := halt (f := f + 11) (x := 16) rfl (stops_filter (fo := .greaterThan) (m := ⟨t, d⟩) h3) p16' m5
    refine ⟨s1, s9, a1, p14.tr b1 (p15'.tr (c4 _ (d3 _ _ (e1.cons k1) (e3'.tr l1 (k3'.tr m1 (Tr.nil _))))) (p16'.tr n1 (Tr.nil _))), ?_, ?_, n3⟩
    · have := ((((((a2.trans f4).trans e2).trans k2).trans l2).trans m2).trans n2).mono (hsub (by decide))
      rw [rep2_none, rep2_false] at this
      rw [q1, q2]
      simpa using this
    · have := settle (e := true) (smooth_some ho) (m3.frame n2 (by decide)) ((l4.frame m2 (by decide)).frame n2 (by decide)) (m4.frame n2 (by decide))
      rw [q1, q2]
      refine cast ?_ this
      congr 1
      funext e
      cases e <;> rfl
  | pos h1 h2 h3 =>
    have q1 : lossOf d = Num.ofNat 0 := if_neg (by simp [h1])
    have q2 : gainOf d = d := if_pos h3
    obtain ⟨s2, b1, b2, b3⟩ := halt (f := f + 11) (x := 14) rfl (stops_filter (fo := .lessThan) (m := ⟨t, d⟩) h1) p14 a4
    have p15' := p15.frame b2 (by decide)
    obtain ⟨s3, c1, c2, c3⟩ := halt (f := f + 11) (x := 15) rfl (stops_filter (fo := .equalTo) (m := ⟨t, d⟩) h2) p15' b3
    have p16' := (p16.frame b2 (by decide)).frame c2 (by decide)
    obtain ⟨s4, d1, d2, d3⟩ := ex_makes (f := f + 11) (by decide) (makes_filter (fo := .greaterThan) (m := ⟨t, d⟩) h3) p16' (cs := [⟨7, i2⟩, ⟨13, i1⟩]) rfl
    have hr4 : Rest θ s4 p := c3.back d1 rfl d2 (by simp; tauto)
    have f4 := ((b2.trans c2).trans d1)
    obtain ⟨s5, e1, e2, e3⟩ := feed_dl (f := f + 10) (src := (16, o1)) (x := d) ((hpre false).frame f4 (by decide))
    obtain ⟨s6, k1, k2, k3, k4⟩ := dls (f := f + 10) (src := (16, o1)) (m := ⟨t, d⟩) [13] (by decide) (by intro x hx; fin_cases hx; rfl)
      (by intro x hx; exact hp.not (by fin_cases hx; decide)) (hr4.other e2 rfl)
    have e3' := e3.frame k2 (by decide)
    obtain ⟨s7, l1, l2, l3, l4, l5⟩ := feed_ex (f := f + 3) (e := false) (other := none) e3' (((hdiv.frame f4 (by decide)).frame e2 (by decide)).frame k2 (by decide)) k4
      ((hp.le (by decide)).cons (by decide)) (fun _ => rfl)
    have p13 := (k3 13 (by decide) _ rfl).frame l2 (by decide)
    obtain ⟨s8, m1, m2, m3, m4, m5⟩ := arm (a := a) (b := b) (f := f + 2) (e := true) (o := o true) rfl (makes_constant _ _) (by decide) p13
      (((((hpre true).frame f4 (by decide)).frame e2 (by decide)).frame k2 (by decide)).frame l2 (by decide)) (left2_first l3) l5 (hp.le (by decide)) (smooth_none ho.symm)
    refine ⟨s1, s8, a1, p14.tr b1 (p15'.tr c1 (p16'.tr (d3 _ _ (e1.cons k1) (e3'.tr l1 (p13.tr m1 (Tr.nil _)))) (Tr.nil _))), ?_, ?_, m5⟩
    · have := ((((((a2.trans f4).trans e2).trans k2).trans l2).trans m2)).mono (hsub (by decide))
      rw [rep2_none, rep2_true] at this
      rw [q1, q2]
      simpa using this
    · have := settle (e := false) (smooth_some ho.symm) m3 (l4.frame m2 (by decide)) m4
      rw [q1, q2]
      refine cast ?_ this
      congr 1
      funext e
      cases e <;> rfl

/-- A Difference and the last message it received. -/
def Df (s : St V) (x : Nat) (id : Str) (w : Map (List Conn)) (o : Option (Msg V)) : Prop := ∃ i : Inp V, i.max = 2 ∧ i.data.length ≤ 2 ∧ i.data.getLast? = o ∧ s.heap x = some (qop id w (.difference true) [] i)

omit [Num V] in
theorem Df.frame {s s' : St V} {x : Nat} {id : Str} {w : Map (List Conn)} {o : Option (Msg V)} {S : List Nat} {L : List (Msg V)} (h : Df s x id w o) (hf : Fr S L s s') (hS : x ∉ S) : Df s' x id w o := by
  obtain ⟨i, h1, h2, h3, h4⟩ := h
  exact ⟨i, h1, h2, h3, (hf.same _ hS).trans h4⟩

theorem qop_recv {id : Str} {w : Map (List Conn)} {i i' : Inp V} {m : Msg V} (h : i.receive m = .ok i') : (qop id w (.difference true) [] i).recvData m i1 = .ok (qop id w (.difference true) [i1] i') := by
  unfold qop
  rw [(base_diff true).1]
  have : Core.receiveDataBase (⟨id, [(i1, i)], [], [o1], w, []⟩ : Core V) m i1 = (i.receive m >>= fun i' => .ok ⟨id, [(i1, i')], [], [o1], w, [i1]⟩) := rfl
  rw [this, h]
  rfl

theorem df_first {s : St V} {x f : Nat} {id : Str} {w : Map (List Conn)} {m : Msg V} {src : Nat × Str} (h : Df s x id w none) :
    ∃ s1 s2, Dl (f + 1) src m [⟨x, i1⟩] s s1 ∧ Tr (f + 1) [⟨x, i1⟩] s1 s2 ∧ Fr [x] [] s s2 ∧ Df s2 x id w (some m) := by
  obtain ⟨i, h1, h2, h3, h4⟩ := h
  have hd : i.data = [] := List.getLast?_eq_none_iff.1 h3
  have hrec : i.receive m = .ok (i.push m) := by
    unfold Inp.receive
    rw [hd, h1]
    rfl
  have hp : (i.push m).data = [m] := by
    unfold Inp.push
    rw [hd]
    rfl
  obtain ⟨s1, k1, k2, k3⟩ := dl_data (f := f) (src := src) h4 ((base_diff true).2.2 _) (by rfl) (qop_recv hrec)
  have hex : (qop id w (.difference true) [i1] (i.push m)).execData = .ok [] (qop id w (.difference true) [] (i.push m)) := by
    rw [show (qop id w (.difference true) [i1] (i.push m)).execData = (qop id w (.difference true) [i1] (i.push m)).execBase from rfl]
    unfold Op.execBase
    have : (qop id w (.difference true : Kind V) [i1] (i.push m)).core.readyPorts = .ok [] := by
      show Except.ok (List.filter (fun p => match Map.find? [(i1, i.push m)] p with | some i => decide (i.max ≤ i.data.length) | none => false) [i1]) = _
      have hm : (i.push m).max = 2 := h1
      simp [List.filter, Map.find?, hm, hp]
    rw [this]
    rfl
  obtain ⟨s2, j1, j2, j3⟩ := ex_still (f := f) k3 ((base_diff true).2.2 _) hex
  exact ⟨s1, s2, k1, Tr.data k3 (by rfl) j1 (Tr.nil _), (k2.trans j2).mono (by simp), i.push m, h1, by rw [hp]; simp, by rw [hp]; rfl, j3⟩

theorem df_next {s : St V} {x f : Nat} {id : Str} {w : Map (List Conn)} {m m0 : Msg V} {src : Nat × Str} {cs : List Conn} (hx : x ≠ 0) (h : Df s x id w (some m0)) (hT : Num.toTime (ofTime m.time : V) = some m.time)
    (hw : w.find? o1 = some cs) :
    ∃ s1 s2, Dl (f + 1) src m [⟨x, i1⟩] s s1 ∧ Fr [x] [] s s2 ∧ Df s2 x id w (some m) ∧
      ∀ s3 s4, Dl f (x, o1) ⟨m.time, m.value -. m0.value⟩ cs s2 s3 → Tr f cs s3 s4 → Tr (f + 1) [⟨x, i1⟩] s1 s4 := by
  obtain ⟨i, h1, h2, h3, h4⟩ := h
  have hrec : ∃ i', i.receive m = .ok i' ∧ i'.max = 2 ∧ i'.data = [m0, m] := by
    unfold Inp.receive
    match hd : i.data with
    | [] => rw [hd] at h3; cases h3
    | [y] =>
      rw [hd] at h3
      obtain rfl : y = m0 := by simpa using h3
      refine ⟨i.push m, ?_, h1, ?_⟩
      · rw [h1]; rfl
      · unfold Inp.push; rw [hd]; rfl
    | [y, z] =>
      rw [hd] at h3
      obtain rfl : z = m0 := by simpa using h3
      refine ⟨(({ i with data := [z], sum := i.sum -. y.value } : Inp V)).push m, ?_, h1, rfl⟩
      unfold Inp.popSum
      rw [h1, hd]
      rfl
    | _ :: _ :: _ :: _ => rw [hd] at h2; simp at h2
  obtain ⟨i', hr, hmax, hdat⟩ := hrec
  obtain ⟨s1, k1, k2, k3⟩ := dl_data (f := f) (src := src) h4 ((base_diff true).2.2 _) (by rfl) (qop_recv hr)
  have hex : (qop id w (.difference true) [i1] i').execData = .ok (single ⟨m.time, m.value -. m0.value⟩) (qop id w (.difference true) [] i') := by
    rw [show (qop id w (.difference true) [i1] i').execData = (qop id w (.difference true) [i1] i').execBase from rfl]
    unfold Op.execBase
    have : (qop id w (.difference true : Kind V) [i1] i').core.readyPorts = .ok [i1] := by
      show Except.ok (List.filter (fun p => match Map.find? [(i1, i')] p with | some i => decide (i.max ≤ i.data.length) | none => false) [i1]) = _
      simp [List.filter, Map.find?, hmax, hdat]
    rw [this]
    dsimp only
    rw [if_neg (by simp)]
    have hp : (⟨(qop id w (.difference true : Kind V) [i1] i').core, .difference true⟩ : Op V).process = .ok (single ⟨m.time, m.value -. m0.value⟩, .difference true) := by
      show procDifference _ true = _
      unfold procDifference toTimeE
      have g1 : (qop id w (.difference true : Kind V) [i1] i').core.dataMsg i1 1 = .ok m := by
        show (if i'.data = [] then Except.ok Msg.zero else match i'.data[1]? with | some m => .ok m | none => throwExc .outOfRange) = _
        rw [hdat]; rfl
      have g0 : (qop id w (.difference true : Kind V) [i1] i').core.dataMsg i1 0 = .ok m0 := by
        show (if i'.data = [] then Except.ok Msg.zero else match i'.data[0]? with | some m => .ok m | none => throwExc .outOfRange) = _
        rw [hdat]; rfl
      simp only [bind, Except.bind, show (qop id w (.difference true : Kind V) [i1] i').core.solePort = .ok i1 from rfl, g1, g0, if_true, hT]
    have hp' := hp
    unfold qop at hp' ⊢
    dsimp only at hp' ⊢
    rw [hp']
  obtain ⟨s2, j1, j2, j3⟩ := ex_one (f := f) (ctrl := false) (p := o1) (cs := cs) hx k3 ((base_diff true).2.2 _) hex (by rfl) hw
  exact ⟨s1, s2, k1, (k2.trans j1).mono (by simp), ⟨i', hmax, by rw [hdat]; simp, by rw [hdat]; rfl, j2⟩, fun s3 s4 q1 q2 => Tr.data k3 (by rfl) (j3 _ _ q1 q2) (Tr.nil _)⟩

/-- The Difference of the smoothed averages. -/
abbrev Late (s : St V) (o : Option (Msg V)) : Prop := Df s 17 b!"887" [(o1, [⟨14, i1⟩, ⟨15, i1⟩, ⟨16, i1⟩])] o

/-- A message goes to the Difference of the smoothed averages. -/
theorem late {a b : V} {θ : Keep V} {s : St V} {f : Nat} {m m0 : Msg V} {o : Bool → Option V} {p : List Nat} {src : Nat × Str} (h17 : Late s (some m0)) (hT : Num.toTime (ofTime m.time : V) = some m.time)
    (hd : Sgn (m.value -. m0.value)) (h : Sides a b s m.time o) (ho : (o true).isSome = (o false).isSome) (hr : Rest θ s p) (hp : From 17 p) :
    ∃ s1 s2, Dl (f + 13) src m [⟨17, i1⟩] s s1 ∧ Tr (f + 13) [⟨17, i1⟩] s1 s2 ∧
      Fr (List.range 18) (told m.time (smooth a b (o false) (gainOf (m.value -. m0.value))) (smooth a b (o true) (lossOf (m.value -. m0.value)))) s s2 ∧
      Made a b s2 m.time (fun e => smooth a b (o e) (if e then lossOf (m.value -. m0.value) else gainOf (m.value -. m0.value))) ∧ Rest θ s2 p ∧ Late s2 (some m) := by
  obtain ⟨s1, s2, k1, k2, k3, k4⟩ := df_next (f := f + 12) (src := src) (by decide) h17 hT (cs := [⟨14, i1⟩, ⟨15, i1⟩, ⟨16, i1⟩]) rfl
  obtain ⟨s3, s4, j1, j2, j3, j4, j5⟩ := split (f := f) (src := (17, o1)) hd ⟨fun e => (h.pre e).frame k2 (by cases e <;> decide), h.div.frame k2 (by decide)⟩ ho (hr.other k2 rfl) hp
  exact ⟨s1, s4, k1, k4 _ _ j1 j2, (k2.trans j3).mono (by decide), j4, j5, k3.frame j3 (by decide)⟩

end Rtbot.RsiProgram
