import Verif.Lemmas.Ripple
import Verif.Spec.RsiProgram

/-! # Steps of the program of C94 -/

namespace Rtbot.RsiProgram
open Spec Wave Selector Ripple
variable {V : Type} [Num V]

/-- An operator that joins two ports. -/
def two (id : Str) (w : Map (List Conn)) (K : Kind V) (s1 s2 : V) (Q1 Q2 : List (Msg V)) : Op V :=
  ⟨{ id := id, dataIn := [(i1, ⟨i1, sizeMax, s1, Q1⟩), (i2, ⟨i2, sizeMax, s2, Q2⟩)], ctrlIn := [], outIds := [o1], outputs := w, toProcess := [] }, K⟩

/-- Demultiplexer with two ports. -/
def demux (id : Str) (w : Map (List Conn)) (s s1 s2 : V) (D C1 C2 : List (Msg V)) : Op V :=
  ⟨{ id := id, dataIn := [(i1, ⟨i1, sizeMax, s, D⟩)], ctrlIn := [(c1, ⟨c1, sizeMax, s1, C1⟩), (c2, ⟨c2, sizeMax, s2, C2⟩)], outIds := [o1, o2], outputs := w, toProcess := [] },
    .demux [(c1, o1), (c2, o2)]⟩

/-- Variable. -/
def vari (id : Str) (w : Map (List Conn)) (ini : Bool) (tp : List Str) (s sc : V) (D C : List (Msg V)) : Op V :=
  ⟨{ id := id, dataIn := [(i1, ⟨i1, sizeMax, s, D⟩)], ctrlIn := [(c1, ⟨c1, 1, sc, C⟩)], outIds := [o1], outputs := w, toProcess := tp }, .variable (Num.ofNat 0) ini⟩

/-- The operators as they are made, by address. -/
def ops (a b : V) : List (Op V) := [
  qop b!"467" [] (.output [(i1, o1)]) [] (Inp.new i1 1),
  qop b!"911" [(o1, [⟨0, i1⟩])] (.add (Num.ofNat 100)) [] (Inp.new i1 1),
  qop b!"216" [(o1, [⟨1, i1⟩])] (.scale (Num.neg (Num.ofNat 100))) [] (Inp.new i1 1),
  qop b!"232" [(o1, [⟨2, i1⟩])] (.power (Num.neg (Num.ofNat 1))) [] (Inp.new i1 1),
  qop b!"420" [(o1, [⟨3, i1⟩])] (.add (Num.ofNat 1)) [] (Inp.new i1 1),
  two b!"287" [(o1, [⟨4, i1⟩])] (.binary .div) (Num.ofNat 0) (Num.ofNat 0) [] [],
  two b!"130" [(o1, [⟨5, i2⟩, ⟨8, i1⟩])] (.linear [a, b]) (Num.ofNat 0) (Num.ofNat 0) [] [],
  two b!"746" [(o1, [⟨5, i1⟩, ⟨9, i1⟩])] (.linear [a, b]) (Num.ofNat 0) (Num.ofNat 0) [] [],
  qop b!"837" [(o1, [⟨6, i1⟩])] (.timeShift 1 1) [] (Inp.new i1 1),
  qop b!"717" [(o1, [⟨7, i1⟩])] (.timeShift 1 1) [] (Inp.new i1 1),
  qop b!"855" [(o1, [⟨6, i2⟩])] (.scale (Num.neg (Num.ofNat 1))) [] (Inp.new i1 1),
  qop b!"177" [(o1, [⟨6, i2⟩, ⟨7, i2⟩])] (.constant (Num.ofNat 0)) [] (Inp.new i1 1),
  qop b!"136" [(o1, [⟨7, i2⟩])] (.constant (Num.ofNat 0)) [] (Inp.new i1 1),
  qop b!"572" [(o1, [⟨6, i2⟩])] (.constant (Num.ofNat 0)) [] (Inp.new i1 1),
  qop b!"342" [(o1, [⟨10, i1⟩, ⟨12, i1⟩])] (.filter .lessThan (Num.ofNat 0)) [] (Inp.new i1 1),
  qop b!"764" [(o1, [⟨11, i1⟩])] (.filter .equalTo (Num.ofNat 0)) [] (Inp.new i1 1),
  qop b!"794" [(o1, [⟨7, i2⟩, ⟨13, i1⟩])] (.filter .greaterThan (Num.ofNat 0)) [] (Inp.new i1 1),
  qop b!"887" [(o1, [⟨14, i1⟩, ⟨15, i1⟩, ⟨16, i1⟩])] (.difference true) [] (Inp.new i1 2),
  vari b!"876" [(o1, [⟨5, i2⟩, ⟨8, i1⟩])] false [] (Num.ofNat 0) (Num.ofNat 0) [] [],
  vari b!"946" [(o1, [⟨5, i1⟩, ⟨9, i1⟩])] false [] (Num.ofNat 0) (Num.ofNat 0) [] [],
  qop b!"649" [(o1, [⟨18, i1⟩])] (.scale b) [] (Inp.new i1 1),
  qop b!"654" [(o1, [⟨19, i1⟩])] (.scale b) [] (Inp.new i1 1),
  qop b!"138" [(o1, [⟨20, i1⟩])] (.cumSum (Num.ofNat 0)) [] (Inp.new i1 1),
  qop b!"416" [(o1, [⟨22, i1⟩])] (.scale (Num.neg (Num.ofNat 1))) [] (Inp.new i1 1),
  qop b!"58" [(o1, [⟨21, i1⟩])] (.cumSum (Num.ofNat 0)) [] (Inp.new i1 1),
  qop b!"180" [(o1, [⟨23, i1⟩])] (.filter .lessThan (Num.ofNat 0)) [] (Inp.new i1 1),
  qop b!"28" [(o1, [⟨22, i1⟩, ⟨24, i1⟩])] (.filter .equalTo (Num.ofNat 0)) [] (Inp.new i1 1),
  qop b!"806" [(o1, [⟨24, i1⟩])] (.filter .greaterThan (Num.ofNat 0)) [] (Inp.new i1 1),
  qop b!"34" [(o1, [⟨25, i1⟩, ⟨26, i1⟩, ⟨27, i1⟩])] (.difference true) [] (Inp.new i1 2),
  demux b!"144" [(o1, [⟨28, i1⟩]), (o2, [⟨17, i1⟩])] (Num.ofNat 0) (Num.ofNat 0) (Num.ofNat 0) [] [] [],
  qop b!"98" [(o1, [⟨29, c2⟩])] (.constant (Num.ofNat 1)) [] (Inp.new i1 1),
  qop b!"434" [(o1, [⟨29, c2⟩])] (.constant (Num.ofNat 0)) [] (Inp.new i1 1),
  qop b!"283" [(o1, [⟨29, c1⟩])] (.constant (Num.ofNat 1)) [] (Inp.new i1 1),
  qop b!"37" [(o1, [⟨29, c1⟩])] (.constant (Num.ofNat 0)) [] (Inp.new i1 1),
  qop b!"495" [(o1, [⟨30, i1⟩])] (.constant (Num.ofNat 1)) [] (Inp.new i1 1),
  qop b!"861" [(o1, [⟨18, i1⟩, ⟨19, i1⟩])] (.filter .equalTo (Num.ofNat 16)) [] (Inp.new i1 1),
  qop b!"996" [(o1, [⟨18, c1⟩, ⟨19, c1⟩, ⟨30, i1⟩, ⟨32, i1⟩])] (.filter .equalTo (Num.ofNat 15)) [] (Inp.new i1 1),
  qop b!"865" [(o1, [⟨33, i1⟩, ⟨34, i1⟩])] (.filter .greaterThan (Num.ofNat 15)) [] (Inp.new i1 1),
  qop b!"510" [(o1, [⟨31, i1⟩, ⟨32, i1⟩])] (.filter .lessThan (Num.ofNat 15)) [] (Inp.new i1 1),
  qop b!"262" [(o1, [⟨35, i1⟩, ⟨36, i1⟩, ⟨37, i1⟩, ⟨38, i1⟩])] (.count 0) [] (Inp.new i1 1),
  qop b!"754" [(o1, [⟨29, i1⟩, ⟨39, i1⟩])] (.input [(i1, o1)] []) [] (Inp.new i1 1)]

/-- What the operators with one port and room for one message keep: factor, sums (losses, gains), number of messages, last message. -/
structure Keep (V : Type) where
  b : V
  u : Bool → V
  n : UInt64
  last : Option (Msg V)

/-- The operators with one port and room for one message. -/
def tbl (θ : Keep V) : List (Option (Str × Map (List Conn) × Kind V)) := [
  some (b!"467", [], (.output [(i1, o1)])),
  some (b!"911", [(o1, [⟨0, i1⟩])], (.add (Num.ofNat 100))),
  some (b!"216", [(o1, [⟨1, i1⟩])], (.scale (Num.neg (Num.ofNat 100)))),
  some (b!"232", [(o1, [⟨2, i1⟩])], (.power (Num.neg (Num.ofNat 1)))),
  some (b!"420", [(o1, [⟨3, i1⟩])], (.add (Num.ofNat 1))),
  none,
  none,
  none,
  some (b!"837", [(o1, [⟨6, i1⟩])], (.timeShift 1 1)),
  some (b!"717", [(o1, [⟨7, i1⟩])], (.timeShift 1 1)),
  some (b!"855", [(o1, [⟨6, i2⟩])], (.scale (Num.neg (Num.ofNat 1)))),
  some (b!"177", [(o1, [⟨6, i2⟩, ⟨7, i2⟩])], (.constant (Num.ofNat 0))),
  some (b!"136", [(o1, [⟨7, i2⟩])], (.constant (Num.ofNat 0))),
  some (b!"572", [(o1, [⟨6, i2⟩])], (.constant (Num.ofNat 0))),
  some (b!"342", [(o1, [⟨10, i1⟩, ⟨12, i1⟩])], (.filter .lessThan (Num.ofNat 0))),
  some (b!"764", [(o1, [⟨11, i1⟩])], (.filter .equalTo (Num.ofNat 0))),
  some (b!"794", [(o1, [⟨7, i2⟩, ⟨13, i1⟩])], (.filter .greaterThan (Num.ofNat 0))),
  none,
  none,
  none,
  some (b!"649", [(o1, [⟨18, i1⟩])], (.scale θ.b)),
  some (b!"654", [(o1, [⟨19, i1⟩])], (.scale θ.b)),
  some (b!"138", [(o1, [⟨20, i1⟩])], (.cumSum (θ.u true))),
  some (b!"416", [(o1, [⟨22, i1⟩])], (.scale (Num.neg (Num.ofNat 1)))),
  some (b!"58", [(o1, [⟨21, i1⟩])], (.cumSum (θ.u false))),
  some (b!"180", [(o1, [⟨23, i1⟩])], (.filter .lessThan (Num.ofNat 0))),
  some (b!"28", [(o1, [⟨22, i1⟩, ⟨24, i1⟩])], (.filter .equalTo (Num.ofNat 0))),
  some (b!"806", [(o1, [⟨24, i1⟩])], (.filter .greaterThan (Num.ofNat 0))),
  none,
  none,
  some (b!"98", [(o1, [⟨29, c2⟩])], (.constant (Num.ofNat 1))),
  some (b!"434", [(o1, [⟨29, c2⟩])], (.constant (Num.ofNat 0))),
  some (b!"283", [(o1, [⟨29, c1⟩])], (.constant (Num.ofNat 1))),
  some (b!"37", [(o1, [⟨29, c1⟩])], (.constant (Num.ofNat 0))),
  some (b!"495", [(o1, [⟨30, i1⟩])], (.constant (Num.ofNat 1))),
  some (b!"861", [(o1, [⟨18, i1⟩, ⟨19, i1⟩])], (.filter .equalTo (Num.ofNat 16))),
  some (b!"996", [(o1, [⟨18, c1⟩, ⟨19, c1⟩, ⟨30, i1⟩, ⟨32, i1⟩])], (.filter .equalTo (Num.ofNat 15))),
  some (b!"865", [(o1, [⟨33, i1⟩, ⟨34, i1⟩])], (.filter .greaterThan (Num.ofNat 15))),
  some (b!"510", [(o1, [⟨31, i1⟩, ⟨32, i1⟩])], (.filter .lessThan (Num.ofNat 15))),
  some (b!"262", [(o1, [⟨35, i1⟩, ⟨36, i1⟩, ⟨37, i1⟩, ⟨38, i1⟩])], (.count θ.n)),
  some (b!"754", [(o1, [⟨29, i1⟩, ⟨39, i1⟩])], (.input [(i1, o1)] (sentMap θ.last)))]

def tb (θ : Keep V) (x : Nat) : Option (Str × Map (List Conn) × Kind V) := (tbl θ)[x]?.join

/-- They have nothing to do but those in `p`. -/
def Rest (θ : Keep V) (s : St V) (p : List Nat) : Prop := ∀ x t, tb θ x = some t → x ∉ p → Idle s x t.1 t.2.1 t.2.2

theorem Rest.out {θ : Keep V} {s s' : St V} {p : List Nat} {x : Nat} {L : List (Msg V)} (h : Rest θ s p) (hf : Fr [x] L s s') : Rest θ s' (x :: p) := fun y t ht hy =>
  (h y t ht fun hp => hy (List.mem_cons_of_mem _ hp)).frame hf fun hx => hy (by simp at hx; rw [hx]; exact List.mem_cons_self)

theorem Rest.other {θ : Keep V} {s s' : St V} {p : List Nat} {x : Nat} {L : List (Msg V)} (h : Rest θ s p) (hf : Fr [x] L s s') (hx : tb θ x = none) : Rest θ s' p := fun y t ht hy =>
  (h y t ht hy).frame hf fun hx' => by
    simp at hx'
    rw [hx', hx] at ht
    cases ht

theorem Rest.keep {θ : Keep V} {s s' : St V} {p : List Nat} {L : List (Msg V)} (h : Rest θ s p) (hf : Fr [] L s s') : Rest θ s' p := fun y t ht hy => (h y t ht hy).frame hf (by simp)

theorem Rest.back {θ : Keep V} {s s' : St V} {p q : List Nat} {x : Nat} {L : List (Msg V)} {t : Str × Map (List Conn) × Kind V} (h : Rest θ s p) (hf : Fr [x] L s s') (hx : tb θ x = some t)
    (hi : Idle s' x t.1 t.2.1 t.2.2) (hq : ∀ y, y ∉ q → y ≠ x → y ∉ p) : Rest θ s' q := fun y t' ht hy => by
  by_cases hyx : y = x
  · subst hyx
    rw [hx] at ht
    cases ht
    exact hi
  · exact (h y t' ht (hq y hy hyx)).frame hf (by simpa using hyx)

theorem Rest.weak {θ : Keep V} {s : St V} {p q : List Nat} (h : Rest θ s p) (hq : ∀ y, y ∉ q → y ∉ p) : Rest θ s q := fun y t ht hy => h y t ht (hq y hy)

/-- From one operator to the sole one connected to it. -/
theorem link {θ : Keep V} {s : St V} {x y f : Nat} {m m' : Msg V} {idx : Str} {K : Kind V} {ty : Str × Map (List Conn) × Kind V} {p : List Nat} (hx0 : x ≠ 0) (hx : tb θ x = some (idx, [(o1, [⟨y, i1⟩])], K))
    (hy : tb θ y = some ty) (hyB : Base ty.2.2) (hK : Makes K m m' K) (hp : Pend s x idx [(o1, [⟨y, i1⟩])] K m) (hr : Rest θ s (x :: p)) (hxy : x ≠ y) (hyp : y ∉ p) :
    ∃ s2, Fr [x, y] [] s s2 ∧ Pend s2 y ty.1 ty.2.1 ty.2.2 m' ∧ Rest θ s2 (y :: p) ∧ ∀ s3, Ex (f + 1) false y s2 s3 → Ex (f + 2) false x s s3 := by
  obtain ⟨s1, k1, k2, k3⟩ := ex_makes (f := f + 1) hx0 hK hp (cs := [⟨y, i1⟩]) rfl
  have hr1 : Rest θ s1 p := hr.back k1 hx k2 (by simp; tauto)
  obtain ⟨s2, j1, j2, j3⟩ := dl_idle (f := f) (src := (x, o1)) hyB (hr1 y ty hy hyp) m'
  exact ⟨s2, k1.trans j2, j3, hr1.out j2, fun s3 h => k3 s2 s3 j1 (j3.tr h (Tr.nil _))⟩

/-- What is made of the quotient of the averages. -/
def index (x : V) : V := Num.pow (x +. Num.ofNat 1) (Num.neg (Num.ofNat 1)) *. Num.neg (Num.ofNat 100) +. Num.ofNat 100

theorem tail {θ : Keep V} {s : St V} {f : Nat} {m : Msg V} {p : List Nat} (hm : Pend s 4 b!"420" [(o1, [⟨3, i1⟩])] (.add (Num.ofNat 1)) m) (hr : Rest θ s (4 :: p))
    (hp : 3 ∉ p ∧ 2 ∉ p ∧ 1 ∉ p ∧ 0 ∉ p) : ∃ s', Ex (f + 5) false 4 s s' ∧ Fr [4, 3, 2, 1, 0] [⟨m.time, index m.value⟩] s s' ∧ Rest θ s' p := by
  obtain ⟨s1, a1, a2, a3, a4⟩ := link (f := f + 3) (by decide) rfl rfl (base_power _) (makes_add _ _) hm hr (by decide) hp.1
  obtain ⟨s2, b1, b2, b3, b4⟩ := link (f := f + 2) (by decide) rfl rfl (base_scale _) (makes_power _ _) a2 a3 (by decide) hp.2.1
  obtain ⟨s3, c1, c2, c3, c4⟩ := link (f := f + 1) (by decide) rfl rfl (base_add _) (makes_scale _ _) b2 b3 (by decide) hp.2.2.1
  obtain ⟨s4, d1, d2, d3, d4⟩ := link (f := f) (by decide) rfl rfl (base_output _) (makes_add _ _) c2 c3 (by decide) hp.2.2.2
  obtain ⟨i, hi, hh⟩ := d2
  obtain ⟨s5, e1, e2, e3⟩ := ex_last (f := f) (ctrl := false) hh ((base_output _).2.2 _) ((makes_output _).2 _ _ i hi) (by rfl) (by rfl)
  refine ⟨s5, a4 _ (b4 _ (c4 _ (d4 _ e1))), ?_, d3.back e2 rfl ⟨i, hi.one, e3⟩ (by simp; tauto)⟩
  refine ((((a1.trans b1).trans c1).trans d1).trans e2).mono ?_
  simp

/-- Kinds that join. -/
inductive Joins : Kind V → Prop
  | div : Joins (.binary .div)
  | linear (a b : V) : Joins (.linear [a, b])

theorem two_own {id : Str} {w : Map (List Conn)} {K : Kind V} {s1 s2 : V} {Q1 Q2 : List (Msg V)} (hK : Joins K) : Own (two id w K s1 s2 Q1 Q2) := by
  cases hK <;> exact ⟨fun _ _ h => (by cases h), fun _ _ _ h => (by cases h)⟩

theorem two_recv1 {id : Str} {w : Map (List Conn)} {K : Kind V} {s1 s2 : V} {Q1 Q2 : List (Msg V)} (hK : Joins K) (m : Msg V) :
    (two id w K s1 s2 Q1 Q2).recvData m i1 = .ok (two id w K (s1 +. m.value) s2 (Q1 ++ [m]) Q2) := by cases hK <;> rfl

theorem two_recv2 {id : Str} {w : Map (List Conn)} {K : Kind V} {s1 s2 : V} {Q1 Q2 : List (Msg V)} (hK : Joins K) (m : Msg V) :
    (two id w K s1 s2 Q1 Q2).recvData m i2 = .ok (two id w K s1 (s2 +. m.value) Q1 (Q2 ++ [m])) := by cases hK <;> rfl

theorem two_exec {id : Str} {w : Map (List Conn)} {K : Kind V} {s1 s2 : V} {Q1 Q2 : List (Msg V)} (hK : Joins K) : (two id w K s1 s2 Q1 Q2).execData = (two id w K s1 s2 Q1 Q2).execJoin := by cases hK <;> rfl

theorem two_wait1 {id : Str} {w : Map (List Conn)} {K : Kind V} {s1 s2 : V} {Q2 : List (Msg V)} (hK : Joins K) : (two id w K s1 s2 [] Q2).execData = .ok [] (two id w K s1 s2 [] Q2) := by cases hK <;> rfl

theorem two_wait2 {id : Str} {w : Map (List Conn)} {K : Kind V} {s1 s2 : V} {Q1 : List (Msg V)} (hK : Joins K) : (two id w K s1 s2 Q1 []).execData = .ok [] (two id w K s1 s2 Q1 []) := by
  cases Q1 <;> cases hK <;> rfl

theorem two_gap {id : Str} {w : Map (List Conn)} {K : Kind V} {s1 s2 : V} {x y : Msg V} (hK : Joins K) (h : x.time < y.time) :
    ∃ s1', (two id w K s1 s2 [x] [y]).execData = .ok [] (two id w K s1' s2 [] [y]) := by
  refine ⟨s1 -. x.value, ?_⟩
  rw [two_exec hK]
  simp [Op.execJoin, two, joinLatest, h, Inp.dropOlder, Inp.dropOlder.go, i1, i2]

theorem div_same {id : Str} {w : Map (List Conn)} {s1 s2 : V} {t : UInt64} {g l : V} :
    ∃ s1' s2', (two id w (.binary .div) s1 s2 [⟨t, g⟩] [⟨t, l⟩]).execData = .ok (if Num.eq l (Num.ofNat 0) then [] else single ⟨t, g /. l⟩) (two id w (.binary .div) s1' s2' [] []) := by
  refine ⟨s1 -. g, s2 -. l, ?_⟩
  rw [two_exec .div]
  have h1 : binaryMessages .div (two id w (.binary .div) s1 s2 [⟨t, g⟩] [⟨t, l⟩]).core = .ok (if Num.eq l (Num.ofNat 0) then [] else single ⟨t, g /. l⟩) := by
    show (match BinOp.eval .div g l with | none => Except.ok [] | some v => .ok (single ⟨t, v⟩)) = _
    unfold BinOp.eval
    cases Num.eq l (Num.ofNat 0) <;> rfl
  simp [Op.execJoin, two, joinLatest, Inp.dropOlder, Inp.dropOlder.go, joinProcess, popAll, Inp.popSum, bind, Except.bind] at h1 ⊢
  rw [h1]

theorem lin_same {id : Str} {w : Map (List Conn)} {a b s1 s2 : V} {t : UInt64} {y x : V} :
    ∃ s1' s2', (two id w (.linear [a, b]) s1 s2 [⟨t, y⟩] [⟨t, x⟩]).execData = .ok (single ⟨t, Num.ofNat 0 +. y *. a +. x *. b⟩) (two id w (.linear [a, b]) s1' s2' [] []) := by
  refine ⟨s1 -. y, s2 -. x, ?_⟩
  rw [two_exec (.linear a b)]
  simp [Op.execJoin, two, joinLatest, Inp.dropOlder, Inp.dropOlder.go, joinProcess, linearLoop, popAll, Inp.popSum, bind, Except.bind]

/-- The pending operators have at least the address `n`. -/
def From (n : Nat) (p : List Nat) : Prop := ∀ x ∈ p, n ≤ x

theorem From.not {n x : Nat} {p : List Nat} (h : From n p) (hx : x < n) : x ∉ p := fun hp => absurd (h x hp) (by omega)
theorem From.cons {n x : Nat} {p : List Nat} (h : From n p) (hx : n ≤ x) : From n (x :: p) := fun y hy => by
  rcases List.mem_cons.1 hy with rfl | hy
  · exact hx
  · exact h y hy
theorem From.le {n k : Nat} {p : List Nat} (h : From n p) (hk : k ≤ n) : From k p := fun y hy => le_trans hk (h y hy)

/-- The buffers of the Division. -/
def Dv (s : St V) (G L : List (Msg V)) : Prop := ∃ s1 s2, s.heap 5 = some (two b!"287" [(o1, [⟨4, i1⟩])] (.binary .div) s1 s2 G L)

theorem Dv.frame {s s' : St V} {G L M : List (Msg V)} {S : List Nat} (h : Dv s G L) (hf : Fr S M s s') (hS : 5 ∉ S) : Dv s' G L := by
  obtain ⟨s1, s2, hh⟩ := h
  exact ⟨s1, s2, (hf.same 5 hS).trans hh⟩

def report (t : UInt64) (g l : V) : List (Msg V) := if Num.eq l (Num.ofNat 0) then [] else [⟨t, index (g /. l)⟩]

theorem ex_div {θ : Keep V} {s : St V} {f : Nat} {t : UInt64} {g l : V} {p : List Nat} (h : Dv s [⟨t, g⟩] [⟨t, l⟩]) (hr : Rest θ s p) (hp : From 5 p) :
    ∃ s', Ex (f + 6) false 5 s s' ∧ Fr [5, 4, 3, 2, 1, 0] (report t g l) s s' ∧ Dv s' [] [] ∧ Rest θ s' p := by
  obtain ⟨s1, s2, hh⟩ := h
  obtain ⟨u1, u2, he⟩ := div_same (id := b!"287") (w := [(o1, [⟨4, i1⟩])]) (s1 := s1) (s2 := s2) (t := t) (g := g) (l := l)
  unfold report
  by_cases h0 : Num.eq l (Num.ofNat 0) = true
  · rw [if_pos h0] at he ⊢
    obtain ⟨s', k1, k2, k3⟩ := ex_quiet (f := f + 5) (ctrl := false) hh (two_own .div) he
    exact ⟨s', k1, k2.mono (by simp), ⟨_, _, k3⟩, hr.other k2 rfl⟩
  · rw [if_neg h0] at he ⊢
    obtain ⟨v1, k1, k2, k3⟩ := ex_one (f := f + 5) (ctrl := false) (cs := [⟨4, i1⟩]) (by decide) hh (two_own .div) he (by rfl) (by rfl)
    have hr1 := hr.other k1 rfl
    obtain ⟨v2, j1, j2, j3⟩ := dl_idle (f := f + 4) (src := (5, o1)) (base_add _) (hr1 4 _ rfl (hp.not (by decide))) ⟨t, g /. l⟩
    obtain ⟨v3, n1, n2, n3⟩ := tail (f := f) j3 (hr1.out j2) ⟨hp.not (by decide), hp.not (by decide), hp.not (by decide), hp.not (by decide)⟩
    have hf : Fr ([4] ++ [4, 3, 2, 1, 0]) ([] ++ [⟨t, index (g /. l)⟩]) v1 v3 := j2.trans n2
    refine ⟨v3, k3 _ _ j1 (j3.tr n1 (Tr.nil _)), (k1.trans hf).mono (by simp), ?_, n3⟩
    exact Dv.frame ⟨_, _, k2⟩ hf (by decide)

/-! The two sides: `true` for the losses, `false` for the gains. -/

def lin (e : Bool) : Nat := if e then 6 else 7
def sh (e : Bool) : Nat := if e then 8 else 9
def side (e : Bool) : List Conn := if e then [⟨5, i2⟩, ⟨8, i1⟩] else [⟨5, i1⟩, ⟨9, i1⟩]
def linId (e : Bool) : Str := if e then b!"130" else b!"746"

/-- The buffers of a Linear. -/
def Ln (a b : V) (s : St V) (e : Bool) (Q1 Q2 : List (Msg V)) : Prop := ∃ s1 s2, s.heap (lin e) = some (two (linId e) [(o1, side e)] (.linear [a, b]) s1 s2 Q1 Q2)

theorem Ln.frame {a b : V} {s s' : St V} {e : Bool} {Q1 Q2 M : List (Msg V)} {S : List Nat} (h : Ln a b s e Q1 Q2) (hf : Fr S M s s') (hS : lin e ∉ S) : Ln a b s' e Q1 Q2 := by
  obtain ⟨s1, s2, hh⟩ := h
  exact ⟨s1, s2, (hf.same _ hS).trans hh⟩

/-- The buffers of the Division, that of the side first. -/
def Dq (s : St V) (e : Bool) (own other : List (Msg V)) : Prop := if e then Dv s other own else Dv s own other

theorem Dq.frame {s s' : St V} {e : Bool} {G L M : List (Msg V)} {S : List Nat} (h : Dq s e G L) (hf : Fr S M s s') (hS : 5 ∉ S) : Dq s' e G L := by
  cases e <;> exact Dv.frame h hf hS

/-- The report when the side is the second one. -/
def rep (e : Bool) (t : UInt64) (v : V) : Option V → List (Msg V)
  | none => []
  | some w => if e then report t w v else report t v w

def at1 (t : UInt64) : Option V → List (Msg V)
  | none => []
  | some w => [⟨t, w⟩]

/-- The message left in the Division. -/
def left (t : UInt64) (v : V) : Option V → List (Msg V)
  | none => [⟨t, v⟩]
  | some _ => []

/-- An average is sent to the Division and, one time unit later, back to the side. -/
theorem side_emit {a b : V} {θ : Keep V} {s : St V} {f : Nat} {t : UInt64} {v : V} {other : Option V} {p : List Nat} {e : Bool} {src : Nat × Str} (hd : Dq s e [] (at1 t other)) (hl : Ln a b s e [] []) (hr : Rest θ s p)
    (hp : From 10 p) : ∃ s1 s2, Dl (f + 7) src ⟨t, v⟩ (side e) s s1 ∧ Tr (f + 7) (side e) s1 s2 ∧ Fr [5, 4, 3, 2, 1, 0, sh e, lin e] (rep e t v other) s s2 ∧ Dq s2 e (left t v other) [] ∧
      Ln a b s2 e [⟨t + 1, v⟩] [] ∧ Rest θ s2 p := by
  -- to the Division
  have d1 : ∃ s1, Dl (f + 7) src ⟨t, v⟩ [⟨5, if e then i2 else i1⟩] s s1 ∧ Fr [5] [] s s1 ∧ Dq s1 e [⟨t, v⟩] (at1 t other) := by
    cases e with
    | true =>
      obtain ⟨u1, u2, hh⟩ := hd
      obtain ⟨s1, k1, k2, k3⟩ := dl_data (f := f + 6) (src := src) hh (two_own .div) (by rfl) (two_recv2 .div ⟨t, v⟩)
      exact ⟨s1, k1, k2, _, _, k3⟩
    | false =>
      obtain ⟨u1, u2, hh⟩ := hd
      obtain ⟨s1, k1, k2, k3⟩ := dl_data (f := f + 6) (src := src) hh (two_own .div) (by rfl) (two_recv1 .div ⟨t, v⟩)
      exact ⟨s1, k1, k2, _, _, k3⟩
  obtain ⟨s1, a1, a2, a3⟩ := d1
  have hr1 := hr.other a2 rfl
  have hl1 : Ln a b s1 e [] [] := hl.frame a2 (by cases e <;> decide)
  -- to the TimeShift
  have ht : ∃ id, tb θ (sh e) = some (id, [(o1, [⟨lin e, i1⟩])], .timeShift 1 1) := by cases e <;> exact ⟨_, rfl⟩
  obtain ⟨id, ht⟩ := ht
  have hsp : sh e ∉ p := hp.not (by cases e <;> decide)
  obtain ⟨s2, b1, b2, b3⟩ := dl_idle (f := f + 6) (src := src) (base_shift _ _) (hr1 _ _ ht hsp) ⟨t, v⟩
  have hr2 : Rest θ s2 (sh e :: p) := hr1.out b2
  have hd2 := a3.frame b2 (by cases e <;> decide)
  have hl2 : Ln a b s2 e [] [] := hl1.frame b2 (by cases e <;> decide)
  -- the Division executes
  have d3 : ∃ s3, Ex (f + 7) false 5 s2 s3 ∧ Fr [5, 4, 3, 2, 1, 0] (rep e t v other) s2 s3 ∧ Dq s3 e (left t v other) [] ∧ Rest θ s3 (sh e :: p) := by
    cases other with
    | some w =>
      have hp' : From 5 (sh e :: p) := (hp.le (by decide)).cons (by cases e <;> decide)
      cases e with
      | true =>
        obtain ⟨s3, k1, k2, k3, k4⟩ := ex_div (f := f + 1) hd2 hr2 hp'
        exact ⟨s3, k1, k2, k3, k4⟩
      | false =>
        obtain ⟨s3, k1, k2, k3, k4⟩ := ex_div (f := f + 1) hd2 hr2 hp'
        exact ⟨s3, k1, k2, k3, k4⟩
    | none =>
      cases e with
      | true =>
        obtain ⟨u1, u2, hh⟩ := hd2
        obtain ⟨s3, k1, k2, k3⟩ := ex_still (f := f + 6) hh (two_own .div) (two_wait1 .div)
        exact ⟨s3, k1, k2.mono (by simp), ⟨_, _, k3⟩, hr2.other k2 rfl⟩
      | false =>
        obtain ⟨u1, u2, hh⟩ := hd2
        obtain ⟨s3, k1, k2, k3⟩ := ex_still (f := f + 6) hh (two_own .div) (two_wait2 .div)
        exact ⟨s3, k1, k2.mono (by simp), ⟨_, _, k3⟩, hr2.other k2 rfl⟩
  obtain ⟨s3, c1, c2, c3, c4⟩ := d3
  have hl3 : Ln a b s3 e [] [] := hl2.frame c2 (by cases e <;> decide)
  have hpd : Pend s3 (sh e) id [(o1, [⟨lin e, i1⟩])] (.timeShift 1 1) ⟨t, v⟩ := b3.frame c2 (by cases e <;> decide)
  -- the TimeShift executes
  obtain ⟨s4, e1, e2, e3⟩ := ex_makes (f := f + 6) (by cases e <;> decide) (makes_shift _) hpd (cs := [⟨lin e, i1⟩]) rfl
  have hr4 : Rest θ s4 p := c4.back e1 ht e2 (by simp; tauto)
  obtain ⟨u1, u2, hh4⟩ := hl3.frame e1 (by cases e <;> decide)
  obtain ⟨s5, g1, g2, g3⟩ := dl_data (f := f + 5) (src := (sh e, o1)) hh4 (two_own (.linear a b)) (by rfl) (two_recv1 (.linear a b) ⟨t + 1, v⟩)
  obtain ⟨s6, h1, h2, h3⟩ := ex_still (f := f + 5) g3 (two_own (.linear a b)) (two_wait2 (.linear a b))
  have hn : tb θ (lin e) = none := by cases e <;> rfl
  have hx : Ex (f + 7) false (sh e) s3 s6 := e3 _ _ g1 (Tr.data g3 (by rfl) h1 (Tr.nil _))
  have hd4 : Dq s6 e (left t v other) [] := ((c3.frame e1 (by cases e <;> decide)).frame g2 (by cases e <;> decide)).frame h2 (by cases e <;> decide)
  obtain ⟨x1, x2, hx5⟩ : ∃ x1 x2, s2.heap 5 = some (two b!"287" [(o1, [⟨4, i1⟩])] (.binary .div) x1 x2 (if e then at1 t other else [⟨t, v⟩]) (if e then [⟨t, v⟩] else at1 t other)) := by
    cases e <;> exact hd2
  obtain ⟨i, _, hps⟩ := hpd
  refine ⟨s2, s6, ?_, ?_, ?_, hd4, ⟨_, _, h3⟩, (hr4.other g2 hn).other h2 hn⟩
  · cases e <;> exact a1.cons b1
  · have q1 : Tr (f + 7) [⟨sh e, i1⟩] s3 s6 := Tr.data hps (by rfl) hx (Tr.nil _)
    cases e
    · exact Tr.data hx5 (by rfl) c1 q1
    · exact Tr.data hx5 (by rfl) c1 q1
  · have := ((((a2.trans b2).trans c2).trans e1).trans g2).trans h2
    simp only [List.nil_append, List.append_nil] at this
    exact this.mono (by intro x hx; simp at hx ⊢; omega)

end Rtbot.RsiProgram
