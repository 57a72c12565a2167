import Verif.Lemmas.CosRes
import Verif.Lemmas.Numeric
import Verif.Spec.Hermite
import Mathlib.Tactic.FieldSimp

/-! # HermiteResampler -/

set_option linter.unusedSectionVars false

namespace Rtbot
open Spec
variable {V : Type} [Num V]

namespace HermRes

theorem toTimeE_nat [Field V] [LinearOrder V] [IsStrictOrderedRing V] [Exact V] {x : V} {n : Nat} (hn : n < 2 ^ 64) (h : x = (n : V)) :
    toTimeE x = .ok (UInt64.ofNat n) := by
  have : Num.toTime x = some (UInt64.ofNat n) := by
    apply Exact.toTime_eq
    · rw [UInt64.toNat_ofNat_of_lt' hn, h]
    · rw [UInt64.toNat_ofNat_of_lt' hn, h]; exact lt_add_one _
  simp [toTimeE, this]

theorem lsSums_ok [Field V] [LinearOrder V] [IsStrictOrderedRing V] [Exact V] (sx sx2 : Nat) (sy sxy : V) (m : Msg V)
    (h2 : sx2 + m.time.toNat * m.time.toNat < 2 ^ 64) :
    lsSums (UInt64.ofNat sx, sy, sxy, UInt64.ofNat sx2) m =
      .ok (UInt64.ofNat (sx + m.time.toNat), sy + m.value, sxy + (m.time.toNat : V) * m.value,
        UInt64.ofNat (sx2 + m.time.toNat * m.time.toNat)) := by
  have e : toTimeE (V := V) (ofTime (UInt64.ofNat sx2) +. Num.pow (ofTime m.time) (Num.ofNat 2)) =
      .ok (UInt64.ofNat (sx2 + m.time.toNat * m.time.toNat)) := by
    apply toTimeE_nat h2
    rw [Exact.pow_two, Exact.add_eq]
    simp only [ofTime, Exact.ofNat_eq]
    rw [UInt64.toNat_ofNat_of_lt' (show sx2 < UInt64.size from by have : UInt64.size = 2 ^ 64 := rfl; omega)]
    push_cast
    rfl
  simp only [lsSums, e, bind_ok]
  simp only [ofTime, Exact.add_eq, Exact.mul_eq, Exact.ofNat_eq]
  congr 2
  rw [← UInt64.toNat_inj, UInt64.toNat_add, UInt64.toNat_ofNat', UInt64.toNat_ofNat']
  omega

theorem normal_equations [Field V] {S X : V} (Y Z : V) (h : 4 * S - X * X ≠ 0) :
    4 * ((S * Y - Z * X) / (4 * S - X * X)) + (4 * Z - X * Y) / (4 * S - X * X) * X = Y ∧
    (S * Y - Z * X) / (4 * S - X * X) * X + (4 * Z - X * Y) / (4 * S - X * X) * S = Z := by
  constructor
  · rw [← mul_div_assoc, div_mul_eq_mul_div, ← add_div, div_eq_iff h]; ring
  · rw [div_mul_eq_mul_div, div_mul_eq_mul_div, ← add_div, div_eq_iff h]; ring

theorem leastSquares_ok [Field V] [LinearOrder V] [IsStrictOrderedRing V] [Exact V] (a b c d : Msg V) (hab : a.time.toNat < b.time.toNat)
    (ha : a.time.toNat < 2 ^ 30) (hb : b.time.toNat < 2 ^ 30) (hc : c.time.toNat < 2 ^ 30) (hd : d.time.toNat < 2 ^ 30) :
    ∃ n m, leastSquares [a, b, c, d] = .ok (n, m) ∧ LeastSquares [a, b, c, d] n m := by
  have sq : ∀ n : Nat, n < 2 ^ 30 → n * n < 2 ^ 60 := by
    intro n hn
    have := Nat.mul_lt_mul'' hn hn
    have e : (2 : Nat) ^ 30 * 2 ^ 30 = 2 ^ 60 := by norm_num
    omega
  have h1 := sq _ ha
  have h2 := sq _ hb
  have h3 := sq _ hc
  have h4 := sq _ hd
  have e1 := lsSums_ok 0 0 (Num.ofNat 0) (Num.ofNat 0) a (by omega)
  have e2 := lsSums_ok (0 + a.time.toNat) _ (Num.ofNat 0 + a.value) (Num.ofNat 0 + (a.time.toNat : V) * a.value) b
    (show 0 + a.time.toNat * a.time.toNat + _ < _ by omega)
  have e3 := lsSums_ok (0 + a.time.toNat + b.time.toNat) _ (Num.ofNat 0 + a.value + b.value)
    (Num.ofNat 0 + (a.time.toNat : V) * a.value + (b.time.toNat : V) * b.value) c
    (show 0 + a.time.toNat * a.time.toNat + b.time.toNat * b.time.toNat + _ < _ by omega)
  have e4 := lsSums_ok (0 + a.time.toNat + b.time.toNat + c.time.toNat) _ (Num.ofNat 0 + a.value + b.value + c.value)
    (Num.ofNat 0 + (a.time.toNat : V) * a.value + (b.time.toNat : V) * b.value + (c.time.toNat : V) * c.value) d
    (show 0 + a.time.toNat * a.time.toNat + b.time.toNat * b.time.toNat + c.time.toNat * c.time.toNat + _ < _ by omega)
  have hfold : [a, b, c, d].foldlM lsSums ((0 : UInt64), (Num.ofNat 0 : V), (Num.ofNat 0 : V), (0 : UInt64)) =
      .ok (UInt64.ofNat (0 + a.time.toNat + b.time.toNat + c.time.toNat + d.time.toNat),
        (Num.ofNat 0 + a.value + b.value + c.value + d.value : V),
        Num.ofNat 0 + (a.time.toNat : V) * a.value + (b.time.toNat : V) * b.value + (c.time.toNat : V) * c.value + (d.time.toNat : V) * d.value,
        UInt64.ofNat (0 + a.time.toNat * a.time.toNat + b.time.toNat * b.time.toNat + c.time.toNat * c.time.toNat + d.time.toNat * d.time.toNat)) := by
    have h0 : (0 : UInt64) = UInt64.ofNat 0 := rfl
    simp only [List.foldlM_cons, List.foldlM_nil]
    rw [h0, e1, bind_ok, e2, bind_ok, e3, bind_ok, e4, bind_ok]
    rfl
  unfold leastSquares
  rw [hfold, bind_ok]
  simp only
  have hcs : (0 + a.time.toNat + b.time.toNat + c.time.toNat + d.time.toNat) * (0 + a.time.toNat + b.time.toNat + c.time.toNat + d.time.toNat) <
      4 * (0 + a.time.toNat * a.time.toNat + b.time.toNat * b.time.toNat + c.time.toNat * c.time.toNat + d.time.toNat * d.time.toNat) := by
    revert hab
    generalize a.time.toNat = p
    generalize b.time.toNat = q
    generalize c.time.toNat = r
    generalize d.time.toNat = s
    intro hpq
    have hpos : (0 : ℤ) < ((p : ℤ) - q) ^ 2 := by
      have : (p : ℤ) - q ≠ 0 := by omega
      positivity
    have : ((0 + p + q + r + s : ℤ) * (0 + p + q + r + s)) < 4 * (0 + p * p + q * q + r * r + s * s) := by
      nlinarith [sq_nonneg ((p : ℤ) - r), sq_nonneg ((p : ℤ) - s), sq_nonneg ((q : ℤ) - r),
        sq_nonneg ((q : ℤ) - s), sq_nonneg ((r : ℤ) - s)]
    exact_mod_cast this
  have hS : 0 + a.time.toNat * a.time.toNat + b.time.toNat * b.time.toNat + c.time.toNat * c.time.toNat + d.time.toNat * d.time.toNat < 2 ^ 62 := by omega
  have hX : 0 + a.time.toNat + b.time.toNat + c.time.toNat + d.time.toNat < 2 ^ 64 := by omega
  obtain ⟨S, eS⟩ : ∃ S, S = 0 + a.time.toNat * a.time.toNat + b.time.toNat * b.time.toNat + c.time.toNat * c.time.toNat + d.time.toNat * d.time.toNat :=
    ⟨_, rfl⟩
  obtain ⟨X, eX⟩ : ∃ X, X = 0 + a.time.toNat + b.time.toNat + c.time.toNat + d.time.toNat := ⟨_, rfl⟩
  rw [← eS] at hcs hS ⊢
  rw [← eX] at hcs hX ⊢
  have hden : toTimeE (V := V) (ofTime (UInt64.ofNat [a, b, c, d].length * UInt64.ofNat S) -. Num.pow (ofTime (UInt64.ofNat X)) (Num.ofNat 2)) =
      .ok (UInt64.ofNat (4 * S - X * X)) := by
    apply toTimeE_nat (by omega)
    rw [Exact.pow_two, Exact.sub_eq]
    simp only [ofTime, Exact.ofNat_eq]
    have e5 : (UInt64.ofNat [a, b, c, d].length * UInt64.ofNat S).toNat = 4 * S := by
      rw [UInt64.toNat_mul, UInt64.toNat_ofNat', UInt64.toNat_ofNat']
      simp only [List.length_cons, List.length_nil]
      omega
    rw [e5, UInt64.toNat_ofNat_of_lt' hX, Nat.cast_sub (Nat.le_of_lt hcs)]
    push_cast
    rfl
  rw [hden, bind_ok]
  have hdn : (UInt64.ofNat (4 * S - X * X)).toNat = 4 * S - X * X := UInt64.toNat_ofNat_of_lt' (show _ < 2 ^ 64 by omega)
  rw [if_neg (by
    intro h0
    have := congrArg UInt64.toNat h0
    rw [hdn] at this
    simp at this
    omega)]
  refine ⟨_, _, rfl, ?_⟩
  have hne : (4 * (S : V) - X * X) ≠ 0 := by
    have : ((X * X : ℕ) : V) < ((4 * S : ℕ) : V) := Nat.cast_lt.2 hcs
    push_cast at this
    exact ne_of_gt (sub_pos.2 this)
  simp only [ofTime, Exact.ofNat_eq, Exact.mul_eq, Exact.sub_eq, Exact.div_eq, hdn, UInt64.toNat_ofNat_of_lt' (show S < 2 ^ 64 by omega),
    UInt64.toNat_ofNat_of_lt' hX, Nat.cast_sub (Nat.le_of_lt hcs), List.length_cons, List.length_nil]
  push_cast
  have q1 : (X : V) = a.time.toNat + b.time.toNat + c.time.toNat + d.time.toNat := by rw [eX]; push_cast; ring
  have q2 : (S : V) = a.time.toNat ^ 2 + b.time.toNat ^ 2 + c.time.toNat ^ 2 + d.time.toNat ^ 2 := by rw [eS]; push_cast; ring
  have key : ∀ n m : V, 4 * n + m * X = 0 + a.value + b.value + c.value + d.value →
      n * X + m * S = 0 + (a.time.toNat : V) * a.value + (b.time.toNat : V) * b.value + (c.time.toNat : V) * c.value + (d.time.toNat : V) * d.value →
      LeastSquares [a, b, c, d] n m := by
    intro n m k1 k2
    rw [q1] at k1
    rw [q1, q2] at k2
    constructor
    · simp only [List.map_cons, List.map_nil, List.sum_cons, List.sum_nil]
      linear_combination k1
    · simp only [List.map_cons, List.map_nil, List.sum_cons, List.sum_nil]
      linear_combination k2
  have k := normal_equations (S := (S : V)) (X := X) (0 + a.value + b.value + c.value + d.value)
    (0 + (a.time.toNat : V) * a.value + (b.time.toNat : V) * b.value + (c.time.toNat : V) * c.value + (d.time.toNat : V) * d.value) hne
  exact key _ _ k.1 k.2

theorem makeBefore_ok [Field V] [LinearOrder V] [IsStrictOrderedRing V] [Exact V] (a b c d : Msg V)
    (ha : a.time.toNat < b.time.toNat) (hb : b.time.toNat < c.time.toNat) (hc : c.time.toNat < d.time.toNat)
    (hd : d.time.toNat < 2 ^ 30) : ∃ (n m : V) (t : UInt64), LeastSquares [a, b, c, d] n m ∧
      t = a.time - UInt64.ofNat ((d.time.toNat - a.time.toNat) / 3) ∧
      ∀ (co : Core V) (s : V), makeBefore (runCore co 4 s [a, b, c, d]) i1 = .ok ⟨t, n + m * (t.toNat : V)⟩ := by
  obtain ⟨n, m, hr, hls⟩ := leastSquares_ok a b c d ha (by omega) (by omega) (by omega) hd
  have sub : ∀ x y : UInt64, x.toNat < y.toNat → (y - x).toNat = y.toNat - x.toNat := by
    intro x y h
    rw [UInt64.toNat_sub]; have := x.toNat_lt; have := y.toNat_lt; omega
  have ht : toTimeE (gapSum (Num.ofNat 0) [a, b, c, d] /. Num.ofNat (subSize [a, b, c, d].length 1) : V) =
      .ok (UInt64.ofNat ((d.time.toNat - a.time.toNat) / 3)) := by
    have hs : subSize [a, b, c, d].length 1 = 3 := by
      have : subSize 4 1 = 3 := by decide
      exact this
    have hg : (gapSum (Num.ofNat 0) [a, b, c, d] : V) = ((d.time.toNat - a.time.toNat : ℕ) : V) := by
      simp only [gapSum, ofTime, Exact.add_eq, Exact.ofNat_eq, sub _ _ ha, sub _ _ hb, sub _ _ hc]
      have : d.time.toNat - a.time.toNat = 0 + (b.time.toNat - a.time.toNat) + (c.time.toNat - b.time.toNat) + (d.time.toNat - c.time.toNat) := by omega
      rw [this]; push_cast; ring
    rw [hs, hg]
    generalize hn : d.time.toNat - a.time.toNat = n
    have hn3 : n / 3 < 2 ^ 64 := by omega
    have : Num.toTime ((n : V) /. Num.ofNat 3) = some (UInt64.ofNat (n / 3)) := by
      rw [Exact.div_eq, Exact.ofNat_eq]
      have h3 : (0 : V) < ((3 : ℕ) : V) := by norm_num
      apply Exact.toTime_eq
      · rw [UInt64.toNat_ofNat_of_lt' hn3, le_div_iff₀ h3]
        exact_mod_cast Nat.div_mul_le_self n 3
      · rw [UInt64.toNat_ofNat_of_lt' hn3, div_lt_iff₀ h3]
        have := Nat.lt_div_mul_add (a := n) (b := 3) (by decide)
        have h6 : n < (n / 3 + 1) * 3 := by omega
        exact_mod_cast h6
    simp [toTimeE, this]
  refine ⟨n, m, _, hls, rfl, ?_⟩
  intro co s
  unfold makeBefore
  rw [dataPort_run, bind_ok, hr, bind_ok, dataMsg_run _ _ _ _ 0 a rfl]
  simp only [ht, bind_ok]
  have e : a.time + (0 - UInt64.ofNat ((d.time.toNat - a.time.toNat) / 3)) = a.time - UInt64.ofNat ((d.time.toNat - a.time.toNat) / 3) := by
    rw [UInt64.zero_sub, UInt64.sub_eq_add_neg]
  rw [e]
  simp only [ofTime, Exact.add_eq, Exact.mul_eq, Exact.ofNat_eq]
  rw [add_comm]

theorem hermiteInterpolate_eq [Field V] [LinearOrder V] [IsStrictOrderedRing V] [Exact V] (y0 y1 y2 y3 u : V) :
    hermiteInterpolate y0 y1 y2 y3 u = catmullRom y0 y1 y2 y3 u := by
  simp only [hermiteInterpolate, catmullRom, Exact.add_eq, Exact.sub_eq, Exact.mul_eq, Exact.div_eq, Exact.ofNat_eq, Exact.neg_eq]
  push_cast
  ring

/-- The last-but-one message. -/
def lastButOne (h : List (Msg V)) : Option (Msg V) := h.dropLast.getLast?

/-- Messages that are due. -/
def due [Field V] (left : V) (dt : Nat) (h : List (Msg V)) : List (Nat × Option V) :=
  if h.length < 4 then []
  else match h.head?, lastButOne h with
    | some m0, some l => (gridUpTo m0.time.toNat dt l.time.toNat).map fun g => (g, hermiteAt left h g)
    | _, _ => []

/-- State after a history. -/
def KI (dt : UInt64) (h : List (Msg V)) (k : Kind V) : Prop :=
  if h.length < 4 then k = .hermRes dt 0 none
  else match h.head?, lastButOne h with
    | some m0, some l => ∃ carry z, k = .hermRes dt carry (some z) ∧ carry.toNat = (l.time.toNat - m0.time.toNat) % dt.toNat
    | _, _ => False

/-- Preconditions of the theorem. -/
structure Pre (dt : UInt64) (h : List (Msg V)) : Prop where
  grid : GridPre dt h
  first : ∀ a b, h[0]? = some a → h[1]? = some b → dt.toNat ≤ b.time.toNat - a.time.toNat
  small : ∀ m ∈ h.take 4, m.time.toNat < 2 ^ 30

theorem Pre.init {dt : UInt64} (h : List (Msg V)) (m : Msg V) (hp : Pre dt (h ++ [m])) : Pre dt h where
  grid := GridPre.init h m hp.grid
  first := by
    intro a b ha hb
    apply hp.first a b
    · rw [List.getElem?_append_left]; exact ha; exact (List.getElem?_eq_some_iff.1 ha).1
    · rw [List.getElem?_append_left]; exact hb; exact (List.getElem?_eq_some_iff.1 hb).1
  small := by
    intro x hx
    apply hp.small
    rw [List.take_append]
    exact List.mem_append_left _ hx

/-- The message used left of the interval. -/
def LeftOf (c : Core V) (s : V) (w : List (Msg V)) (frm : Nat) (before : Option (Msg V)) (z : Msg V) : Prop :=
  (frm = 0 → (∀ z', before = some z' → z = z') ∧ (before = none → makeBefore (runCore c 4 s w) i1 = .ok z)) ∧ ∀ f, frm = f + 1 → w[f]? = some z

theorem around {p q : List (Msg V)} {g : Nat} (hp : ∀ x ∈ p, x.time.toNat < g) (hq : ∀ x ∈ q, g ≤ x.time.toNat) :
    latestBefore (p ++ q) g = p.getLast? ∧ firstFrom (p ++ q) g = q.head? := by
  unfold latestBefore firstFrom
  rw [List.filter_append, List.filter_append, List.filter_eq_self.2 (fun x hx => by simpa using hp x hx),
    List.filter_eq_nil_iff.2 (fun x hx => by have := hq x hx; simpa using this),
    List.filter_eq_nil_iff.2 (fun x hx => by have := hp x hx; simpa using this),
    List.filter_eq_self.2 (fun x hx => by simpa using hq x hx)]
  simp

/-- The interpolation in terms of the neighbouring messages. -/
theorem hermiteAt_split [Field V] (left : V) {p q : List (Msg V)} {a b e : Msg V} (hi : Increasing (p ++ a :: b :: e :: q)) {g : Nat}
    (hag : a.time.toNat < g) (hgb : g ≤ b.time.toNat) :
    hermiteAt left (p ++ a :: b :: e :: q) g = some (catmullRom (valueOr left p.getLast?) a.value b.value e.value
      (((g - a.time.toNat : ℕ) : V) / ((b.time.toNat - a.time.toNat : ℕ) : V))) := by
  obtain ⟨_, h2, h3⟩ := List.pairwise_append.1 hi
  obtain ⟨h4, h5⟩ := List.pairwise_cons.1 h2
  obtain ⟨h6, h7⟩ := List.pairwise_cons.1 h5
  obtain ⟨h8, _⟩ := List.pairwise_cons.1 h7
  simp only [UInt64.lt_iff_toNat_lt] at h3 h4 h6 h8
  have hbe := h6 e (by simp)
  have hpa : ∀ x ∈ p, x.time.toNat < a.time.toNat := fun x hx => h3 x hx a (by simp)
  have r1 : latestBefore (p ++ a :: b :: e :: q) g = some a ∧ firstFrom (p ++ a :: b :: e :: q) g = some b := by
    have := around (p := p ++ [a]) (q := b :: e :: q) (g := g) (by
      intro x hx
      rcases List.mem_append.1 hx with hx | hx
      · have := hpa x hx; omega
      · rw [List.mem_singleton.1 hx]; exact hag) (by
      intro x hx
      rcases List.mem_cons.1 hx with rfl | hx
      · exact hgb
      · have := h6 x hx; omega)
    simpa using this
  have r2 : firstFrom (p ++ a :: b :: e :: q) (b.time.toNat + 1) = some e := by
    have := (around (p := p ++ [a, b]) (q := e :: q) (g := b.time.toNat + 1) (by
      intro x hx
      rcases List.mem_append.1 hx with hx | hx
      · have := hpa x hx; omega
      · simp only [List.mem_cons, List.not_mem_nil, or_false] at hx
        rcases hx with rfl | rfl <;> omega) (by
      intro x hx
      rcases List.mem_cons.1 hx with rfl | hx
      · omega
      · have := h8 x hx; omega)).2
    simpa using this
  have r3 : latestBefore (p ++ a :: b :: e :: q) a.time.toNat = p.getLast? := by
    exact (around (p := p) (q := a :: b :: e :: q) hpa (by
      intro x hx
      rcases List.mem_cons.1 hx with rfl | hx
      · exact Nat.le_refl _
      · have := h4 x hx; omega)).1
  unfold hermiteAt
  rw [r1.1, r1.2]
  simp only [Option.bind_eq_bind, Option.bind_some, r2, r3]

theorem firstFrom_le {h : List (Msg V)} (hi : Increasing h) {g : Nat} {x b : Msg V} (hx : x ∈ h) (hg : g ≤ x.time.toNat)
    (hb : firstFrom h g = some b) : b.time.toNat ≤ x.time.toNat := by
  unfold firstFrom at hb
  have hi' : Increasing (h.filter fun m => g ≤ m.time.toNat) := List.Pairwise.filter _ hi
  have hx' : x ∈ h.filter fun m => g ≤ m.time.toNat := List.mem_filter.2 ⟨hx, by simpa using hg⟩
  cases hf : h.filter fun m => g ≤ m.time.toNat with
  | nil => rw [hf] at hx'; cases hx'
  | cons y l =>
    rw [hf] at hb hx' hi'
    cases hb
    rcases List.mem_cons.1 hx' with rfl | hx'
    · exact Nat.le_refl _
    · exact Nat.le_of_lt (UInt64.lt_iff_toNat_lt.1 ((List.pairwise_cons.1 hi').1 x hx'))

theorem eq_of_time {h : List (Msg V)} (hi : Increasing h) {x y : Msg V} (hx : x ∈ h) (hy : y ∈ h) (he : x.time = y.time) : x = y := by
  induction h with
  | nil => cases hx
  | cons a t ih =>
    obtain ⟨h1, h2⟩ := List.pairwise_cons.1 hi
    rcases List.mem_cons.1 hx with hxa | hx' <;> rcases List.mem_cons.1 hy with hya | hy'
    · rw [hxa, hya]
    · have := h1 y hy'
      rw [← hxa, he] at this
      exact absurd this (UInt64.lt_irrefl _)
    · have := h1 x hx'
      rw [← hya, he] at this
      exact absurd this (UInt64.lt_irrefl _)
    · exact ih h2 hx' hy'

/-- A further message does not change the interpolation up to the last-but-one message. -/
theorem hermiteAt_snoc [Field V] (left : V) {p : List (Msg V)} {a b m : Msg V} (hi : Increasing (p ++ [a, b, m])) {g : Nat} (hg : g ≤ a.time.toNat) :
    hermiteAt left (p ++ [a, b] ++ [m]) g = hermiteAt left (p ++ [a, b]) g := by
  obtain ⟨_, h2, h3⟩ := List.pairwise_append.1 hi
  simp only [List.pairwise_cons, List.mem_cons, forall_eq_or_imp, List.not_mem_nil, UInt64.lt_iff_toNat_lt] at h2
  obtain ⟨⟨hab, ham, _⟩, ⟨hbm, _⟩, _⟩ := h2
  have hi' : Increasing (p ++ [a, b]) := Increasing.init (h := p ++ [a, b]) (m := m) (by simpa using hi)
  unfold hermiteAt
  rw [latestBefore_snoc_le (by omega), firstFrom_append_left (x := a) (by simp) hg]
  cases hx : latestBefore (p ++ [a, b]) g with
  | none => rfl
  | some x =>
    cases hy : firstFrom (p ++ [a, b]) g with
    | none => rfl
    | some y =>
      have hya := firstFrom_le hi' (by simp) hg hy
      have hxg : x.time.toNat < g := by
        have := (List.mem_filter.1 (List.mem_of_getLast? hx)).2
        simpa using this
      simp only [Option.bind_eq_bind, Option.bind_some]
      rw [firstFrom_append_left (x := b) (by simp) (by omega), latestBefore_snoc_le (by omega)]

/-- `lookAt` on an interval, for a state where the left neighbour is available. -/
theorem lookAt_ok {dt carry : UInt64} {c : Core V} {s : V} {w : List (Msg V)} {frm : Nat} {a b : Msg V} {T0 : Nat}
    (before : Option (Msg V))
    (hdt : 0 < dt.toNat) (h0 : T0 ≤ a.time.toNat) (hab : a.time.toNat < b.time.toNat)
    (hov : b.time.toNat + dt.toNat < 2 ^ 64) (hgap : b.time.toNat - a.time.toNat < (2 ^ 31 - 3) * dt.toNat)
    (hc : carry.toNat = (a.time.toNat - T0) % dt.toNat)
    (ha : w[frm]? = some a) (hb : w[frm + 1]? = some b) {e : Msg V} (he : w[frm + 2]? = some e)
    (hz : frm = 0 → before = none → ∃ z, makeBefore (runCore c 4 s w) i1 = .ok z) :
    ∃ ms carry' before', lookAt (runCore c 4 s w) i1 frm dt carry before = .ok (ms, carry', before') ∧
      carry'.toNat = (b.time.toNat - T0) % dt.toNat ∧
      (before.isSome → before' = before) ∧ (frm ≠ 0 → before' = before) ∧
      (frm = 0 → dt.toNat + carry.toNat ≤ b.time.toNat - a.time.toNat + 2 * carry.toNat → before'.isSome) ∧
      gridUpTo T0 dt.toNat b.time.toNat = gridUpTo T0 dt.toNat a.time.toNat ++ ms.map (·.time.toNat) ∧
      ∀ x ∈ ms, a.time.toNat < x.time.toNat ∧ x.time.toNat ≤ b.time.toNat ∧ ∀ z, LeftOf c s w frm before z →
        x.value = hermiteInterpolate z.value a.value b.value e.value
          (Num.ofNat (x.time.toNat - a.time.toNat) /. Num.ofNat (b.time.toNat - a.time.toNat)) := by
  obtain ⟨offs, j, h1, h2, h3, h4⟩ := interval hdt h0 hab hov hgap hc
  have hne : w ≠ [] := by rintro rfl; simp at ha
  unfold lookAt
  rw [dataMsg_run _ _ _ _ _ b hb, bind_ok, dataMsg_run _ _ _ _ _ a ha, bind_ok]
  simp only [h1, bind_ok]
  by_cases hoffs : offs = []
  · rw [if_pos hoffs]
    refine ⟨[], _, before, rfl, h2, fun _ => rfl, fun _ => rfl, ?_, ?_, by intro x hx; cases hx⟩
    · intro hf hle
      exfalso
      subst hoffs
      have h5 := congrArg List.length h4
      simp only [gridUpTo, List.length_append, List.length_map, List.length_range, List.length_nil] at h5
      have hadm := Nat.div_add_mod (a.time.toNat - T0) dt.toNat
      have hbdm := Nat.div_add_mod (b.time.toNat - T0) dt.toNat
      have hbl := Nat.mod_lt (b.time.toNat - T0) hdt
      rw [h5] at hbdm
      simp only [Nat.add_zero] at hbdm
      omega
    · simpa [hoffs] using h4
  · rw [if_neg hoffs]
    have hgrid : ∀ (g : UInt64 → V), gridUpTo T0 dt.toNat b.time.toNat = gridUpTo T0 dt.toNat a.time.toNat ++
        (offs.map fun off => (⟨a.time + off, g off⟩ : Msg V)).map (·.time.toNat) := by
      intro g; rw [List.map_map]; exact h4
    have hd : (b.time - a.time).toNat = b.time.toNat - a.time.toNat := by
      rw [UInt64.toNat_sub]; have := a.time.toNat_lt; have := b.time.toNat_lt; omega
    have hval : ∀ y : V, ∀ x ∈ (offs.map fun off => (⟨a.time + off, hermiteInterpolate y a.value b.value e.value
          (ofTime off /. ofTime (b.time - a.time))⟩ : Msg V)), a.time.toNat < x.time.toNat ∧ x.time.toNat ≤ b.time.toNat ∧
        x.value = hermiteInterpolate y a.value b.value e.value
          (Num.ofNat (x.time.toNat - a.time.toNat) /. Num.ofNat (b.time.toNat - a.time.toNat)) := by
      intro y x hx
      obtain ⟨off, ho, rfl⟩ := List.mem_map.1 hx
      obtain ⟨hpos, hle⟩ := h3 off ho
      have hadd : (a.time + off).toNat = a.time.toNat + off.toNat := by
        rw [UInt64.toNat_add, Nat.mod_eq_of_lt]; have := b.time.toNat_lt; omega
      simp only [hadd, ofTime, hd, Nat.add_sub_cancel_left]
      exact ⟨by omega, by omega, trivial⟩
    cases frm with
    | zero =>
      cases hb0 : before with
      | some z =>
        simp only [bind_ok]
        rw [dataMsg_run _ _ _ _ _ e he, bind_ok]
        refine ⟨_, _, _, rfl, h2, fun _ => rfl, fun _ => rfl, fun _ _ => rfl, hgrid _, ?_⟩
        intro x hx
        refine ⟨(hval _ x hx).1, (hval _ x hx).2.1, ?_⟩
        intro z' hz'
        rw [(hz'.1 rfl).1 z rfl]
        exact (hval _ x hx).2.2
      | none =>
        obtain ⟨z, hz⟩ := hz rfl hb0
        simp only [hz, bind_ok]
        rw [dataMsg_run _ _ _ _ _ e he, bind_ok]
        refine ⟨_, _, _, rfl, h2, fun h => (by cases h), fun h => absurd rfl h, fun _ _ => rfl, hgrid _, ?_⟩
        intro x hx
        refine ⟨(hval _ x hx).1, (hval _ x hx).2.1, ?_⟩
        intro z' hz'
        have := (hz'.1 rfl).2 rfl
        rw [hz] at this
        cases this
        exact (hval _ x hx).2.2
    | succ f =>
      simp only
      have hf : f < w.length := by have := (List.getElem?_eq_some_iff.1 ha).1; omega
      rw [dataMsg_run _ _ _ _ f _ (List.getElem?_eq_getElem hf), bind_ok, dataMsg_run _ _ _ _ _ e he]
      simp only [bind_ok]
      refine ⟨_, _, _, rfl, h2, fun _ => rfl, fun _ => rfl, fun h => (by cases h), hgrid _, ?_⟩
      intro x hx
      refine ⟨(hval _ x hx).1, (hval _ x hx).2.1, ?_⟩
      intro z' hz'
      have := hz'.2 f rfl
      rw [List.getElem?_eq_getElem hf] at this
      cases this
      exact (hval _ x hx).2.2

theorem msgsOn_if (ms : List (Msg V)) : msgsOn o1 (if ms = [] then [] else [(o1, ms)]) = ms := by
  split <;> simp_all [msgsOn]

/-- `left` is the value of the artificial message. -/
def Left (left : V) (h : List (Msg V)) : Prop := ∀ a b c d, h.take 4 = [a, b, c, d] → ∀ (co : Core V) (s : V),
  ∃ t, makeBefore (runCore co 4 s [a, b, c, d]) i1 = .ok ⟨t, left⟩

theorem Left.init {left : V} (h : List (Msg V)) (m : Msg V) (hl : Left left (h ++ [m])) : Left left h := by
  intro a b c d hh
  apply hl
  rw [List.take_append, hh]
  have : 4 ≤ h.length := by
    have := congrArg List.length hh
    simp only [List.length_take, List.length_cons, List.length_nil] at this
    omega
  simp [Nat.sub_eq_zero_of_le this]

/-- The messages of one interval, against the specification. -/
theorem pairs_eq [Field V] [LinearOrder V] [IsStrictOrderedRing V] [Exact V] {left : V} {p q : List (Msg V)} {a b e : Msg V}
    (hi : Increasing (p ++ a :: b :: e :: q)) {ms : List (Msg V)} {y : V} (hy : y = valueOr left p.getLast?)
    (hms : ∀ x ∈ ms, a.time.toNat < x.time.toNat ∧ x.time.toNat ≤ b.time.toNat ∧ x.value = hermiteInterpolate y a.value b.value e.value
      (Num.ofNat (x.time.toNat - a.time.toNat) /. Num.ofNat (b.time.toNat - a.time.toNat))) :
    (ms.map (·.time.toNat)).map (fun g => (g, hermiteAt left (p ++ a :: b :: e :: q) g)) = ms.map fun x => (x.time.toNat, some x.value) := by
  rw [List.map_map]
  apply List.map_congr_left
  intro x hx
  obtain ⟨h1, h2, h3⟩ := hms x hx
  simp only [Function.comp_def]
  rw [hermiteAt_split left hi h1 h2, h3, hermiteInterpolate_eq, ← hy, Exact.div_eq, Exact.ofNat_eq, Exact.ofNat_eq]

theorem step_due [Field V] [LinearOrder V] [IsStrictOrderedRing V] [Exact V] {dt : UInt64} (hdt : 0 < dt.toNat) {c : Core V} {h : List (Msg V)} {m : Msg V} {k : Kind V} {s : V}
    {left : V} (hp : Pre dt (h ++ [m])) (hleft : Left left (h ++ [m])) (hk : KI dt h k) (hlen : 4 ≤ h.length + 1) :
    ∃ out k', Op.process ⟨runCore c 4 s (lastN 4 (h ++ [m])), k⟩ = .ok (out, k') ∧ KI dt (h ++ [m]) k' ∧
      due left dt.toNat (h ++ [m]) = due left dt.toNat h ++ (msgsOn o1 out).map (fun x => (x.time.toNat, some x.value)) := by
  -- write the history as `l ++ [w0, w1, w2]`
  obtain ⟨l, w0, w1, w2, rfl⟩ : ∃ l w0 w1 w2, h = l ++ [w0, w1, w2] := by
    rcases List.eq_nil_or_concat h with rfl | ⟨h2, w2, rfl⟩
    · simp at hlen
    · rcases List.eq_nil_or_concat h2 with rfl | ⟨h1, w1, rfl⟩
      · simp at hlen
      · rcases List.eq_nil_or_concat h1 with rfl | ⟨h0, w0, rfl⟩
        · simp at hlen
        · exact ⟨h0, w0, w1, w2, by simp⟩
  have hw : lastN 4 (l ++ [w0, w1, w2] ++ [m]) = [w0, w1, w2, m] := by
    rw [List.append_assoc]
    unfold lastN
    rw [List.length_append]
    simp
  rw [hw]
  have hinc := hp.grid.inc
  have hch := hp.grid.gap
  rw [List.append_assoc] at hinc hch
  have hinc4 : Increasing [w0, w1, w2, m] := (List.pairwise_append.1 hinc).2.1
  have hch4 : List.IsChain (fun a b : Msg V => b.time.toNat - a.time.toNat < (2 ^ 31 - 3) * dt.toNat) [w0, w1, w2, m] :=
    (List.isChain_append.1 hch).2.1
  simp only [List.isChain_cons_cons] at hch4
  simp only [Increasing, List.pairwise_cons, List.mem_cons, forall_eq_or_imp, List.not_mem_nil, UInt64.lt_iff_toNat_lt] at hinc4
  obtain ⟨⟨h01, h02, h03, _⟩, ⟨h12, h13, _⟩, ⟨h23, _⟩, _⟩ := hinc4
  obtain ⟨g01, g12, g23, _⟩ := hch4
  have hov1 := hp.grid.ov w1 (by simp)
  have hov2 := hp.grid.ov w2 (by simp)
  have hlb' : lastButOne (l ++ [w0, w1, w2] ++ [m]) = some w2 := by
    unfold lastButOne; rw [List.dropLast_concat]; simp
  have hlb : lastButOne (l ++ [w0, w1, w2]) = some w1 := by
    unfold lastButOne
    rw [show l ++ [w0, w1, w2] = (l ++ [w0, w1]) ++ [w2] by simp, List.dropLast_concat]; simp
  have hlen' : ¬ (l ++ [w0, w1, w2] ++ [m]).length < 4 := by simp
  cases l with
  | nil =>
    have hk' : k = .hermRes dt 0 none := by simpa [KI] using hk
    subst hk'
    have hfirst := hp.first w0 w1 rfl rfl
    obtain ⟨zt, hz⟩ := hleft w0 w1 w2 m rfl c s
    obtain ⟨ms1, c1, b1, e1, e2, _, _, e4, e5, e6⟩ := lookAt_ok (T0 := w0.time.toNat) (c := c) (s := s) (w := [w0, w1, w2, m]) (frm := 0)
      (carry := 0) none hdt (Nat.le_refl _) h01 hov1 g01 (by simp) rfl rfl (e := w2) rfl (fun _ _ => ⟨_, hz⟩)
    have hb1 : b1.isSome := e4 rfl (by simpa using hfirst)
    obtain ⟨ms2, c2, b2, f1, f2, f3, f3', _, f5, f6⟩ := lookAt_ok (T0 := w0.time.toNat) (c := c) (s := s) (w := [w0, w1, w2, m]) (frm := 1)
      b1 hdt (Nat.le_of_lt h01) h12 hov2 g12 e2 rfl rfl (e := m) rfl (by intro h; cases h)
    have hb2 : b2 = b1 := f3 hb1
    obtain ⟨z1, rfl⟩ := Option.isSome_iff_exists.1 hb1
    subst hb2
    refine ⟨if ms1 ++ ms2 = [] then [] else [(o1, ms1 ++ ms2)], .hermRes dt c2 (some z1), ?_, ?_, ?_⟩
    · simp only [Op.process, procHermRes, solePort_run, bind_ok, e1, f1]
    · unfold KI
      rw [if_neg hlen', hlb']
      exact ⟨c2, z1, rfl, f2⟩
    · rw [msgsOn_if]
      unfold due
      rw [if_neg hlen', if_pos (by simp), hlb']
      simp only [List.nil_append, List.cons_append, List.head?_cons]
      rw [f5, e5, gridUpTo_self, List.nil_append, List.map_append, List.map_append]
      congr 1
      · refine pairs_eq (p := []) (q := [m]) hinc (y := left) rfl ?_
        intro x hx
        exact ⟨(e6 x hx).1, (e6 x hx).2.1, (e6 x hx).2.2 ⟨zt, left⟩ ⟨fun _ => ⟨fun _ h => (by cases h), fun _ => hz⟩, fun f h => (by cases h)⟩⟩
      · refine pairs_eq (p := [w0]) (q := []) hinc (y := w0.value) rfl ?_
        intro x hx
        exact ⟨(f6 x hx).1, (f6 x hx).2.1, (f6 x hx).2.2 w0 ⟨fun h => (by cases h), fun f h => (by cases h; rfl)⟩⟩
  | cons m0 t =>
    unfold KI at hk
    rw [if_neg (by simp), hlb] at hk
    simp only [List.cons_append, List.head?_cons] at hk
    obtain ⟨carry, z, rfl, hcar⟩ := hk
    have hle : m0.time.toNat ≤ w1.time.toNat := by
      have h6 : Increasing (m0 :: (t ++ ([w0, w1, w2] ++ [m]))) := hinc
      have := (List.pairwise_cons.1 h6).1 w1 (by simp)
      exact Nat.le_of_lt (UInt64.lt_iff_toNat_lt.1 this)
    obtain ⟨ms2, c2, b2, f1, f2, f3, f3', _, f5, f6⟩ := lookAt_ok (T0 := m0.time.toNat) (c := c) (s := s) (w := [w0, w1, w2, m]) (frm := 1)
      (some z) hdt hle h12 hov2 g12 hcar rfl rfl (e := m) rfl (by intro h; cases h)
    have hb2 : b2 = some z := f3 rfl
    subst hb2
    refine ⟨if ms2 = [] then [] else [(o1, ms2)], .hermRes dt c2 (some z), ?_, ?_, ?_⟩
    · simp only [Op.process, procHermRes, solePort_run, bind_ok, f1]
    · unfold KI
      rw [if_neg hlen', hlb']
      exact ⟨c2, z, rfl, f2⟩
    · rw [msgsOn_if]
      unfold due
      rw [if_neg hlen', if_neg (by simp), hlb', hlb]
      have hx1 : m0 :: t ++ [w0, w1, w2] ++ [m] = (m0 :: t ++ [w0]) ++ w1 :: w2 :: m :: [] := by simp
      have hx2 : m0 :: t ++ [w0, w1, w2] ++ [m] = (m0 :: t ++ [w0]) ++ [w1, w2] ++ [m] := by simp
      have hx3 : m0 :: t ++ [w0, w1, w2] = (m0 :: t ++ [w0]) ++ [w1, w2] := by simp
      have hxi : Increasing ((m0 :: t ++ [w0]) ++ [w1, w2, m]) := by simpa using hinc
      simp only [List.cons_append, List.head?_cons]
      rw [f5, List.map_append]
      congr 1
      · apply List.map_congr_left
        intro g hg
        obtain ⟨_, _, _, hle⟩ := (mem_gridUpTo hdt).1 hg
        have := hermiteAt_snoc left hxi hle
        rw [← hx2, ← hx3] at this
        simp only [List.cons_append] at this
        rw [this]
      · have := pairs_eq (left := left) (p := m0 :: t ++ [w0]) (q := []) (a := w1) (b := w2) (e := m) (by simpa using hinc) (ms := ms2) (y := w0.value) (by simp only [List.getLast?_append]; rfl) (by
          intro x hx
          exact ⟨(f6 x hx).1, (f6 x hx).2.1, (f6 x hx).2.2 w0 ⟨fun h => (by cases h), fun f h => (by cases h; rfl)⟩⟩)
        simpa using this

/-- A whole run. -/
theorem run [Field V] [LinearOrder V] [IsStrictOrderedRing V] [Exact V] (id : Str) {dt : UInt64} (hdt : 0 < dt.toNat) (h : List (Msg V)) (hp : Pre dt h) :
    ∃ (outs : List (OpMsg V)) (o' : Op V) (n m : V) (t : UInt64), feedOp (Op.newHermRes id dt) i1 h = .ok outs o' ∧
      (4 ≤ h.length → LeastSquares (h.take 4) n m) ∧
      (∀ a d, h[0]? = some a → h[3]? = some d → t = a.time - UInt64.ofNat ((d.time.toNat - a.time.toNat) / 3)) ∧
      (emittedOn o1 outs).map (fun x => (x.time.toNat, some x.value)) = due (n + m * (t.toNat : V)) dt.toNat h := by
  obtain ⟨n, m, t, q1, q2, q3⟩ : ∃ (n m : V) (t : UInt64), (4 ≤ h.length → LeastSquares (h.take 4) n m) ∧
      (∀ a d, h[0]? = some a → h[3]? = some d → t = a.time - UInt64.ofNat ((d.time.toNat - a.time.toNat) / 3)) ∧
      Left (n + m * (t.toNat : V)) h := by
    by_cases hl : 4 ≤ h.length
    · obtain ⟨a, b, c, d, rest, rfl⟩ : ∃ a b c d rest, h = a :: b :: c :: d :: rest := by
        match h, hl with
        | a :: b :: c :: d :: rest, _ => exact ⟨a, b, c, d, rest, rfl⟩
      have hinc := hp.grid.inc
      simp only [Increasing, List.pairwise_cons, UInt64.lt_iff_toNat_lt] at hinc
      obtain ⟨n, m, t, e1, e2, e3⟩ := makeBefore_ok a b c d (hinc.1 b (by simp)) (hinc.2.1 c (by simp)) (hinc.2.2.1 d (by simp))
        (hp.small d (by simp))
      refine ⟨n, m, t, fun _ => by simpa using e1, ?_, ?_⟩
      · intro a' d' ha hd
        cases ha
        cases hd
        exact e2
      · intro a' b' c' d' he co s
        simp only [List.take_succ_cons, List.take_zero, List.cons.injEq, and_true] at he
        obtain ⟨rfl, rfl, rfl, rfl⟩ := he
        exact ⟨t, e3 co s⟩
    · refine ⟨0, 0, 0, fun h4 => absurd h4 hl, ?_, ?_⟩
      · intro a d _ hd
        have := (List.getElem?_eq_some_iff.1 hd).1
        omega
      · intro a b c d he
        have := congrArg List.length he
        simp only [List.length_take, List.length_cons, List.length_nil] at this
        omega
  unfold Op.newHermRes
  rw [simple_eq_winCore id (by decide)]
  obtain ⟨outs, o', h1, h2⟩ := feed_window (P := fun h => Pre dt h ∧ Left (n + m * (t.toNat : V)) h) (n := 4)
    (fun h m hh => ⟨Pre.init h m hh.1, Left.init h m hh.2⟩) (by decide) (c := Core.simple id 4) (Num.ofNat 0)
    (fun x : Msg V => (x.time.toNat, some x.value)) (KI dt) (by
      intro h k hk
      unfold KI at hk
      split at hk
      · subst hk; rfl
      · split at hk
        · obtain ⟨_, _, rfl, _⟩ := hk; rfl
        · exact hk.elim)
    (due (n + m * (t.toNat : V)) dt.toNat) rfl (by
      intro h m k _ hk hl
      unfold KI at hk ⊢
      rw [if_pos (by omega)] at hk
      rw [if_pos (by simpa using hl)]
      refine ⟨hk, ?_⟩
      unfold due
      rw [if_pos (by simpa using hl), if_pos (by omega)]) (by
      intro h m k s hp hk hl
      exact step_due hdt hp.1 hp.2 hk hl) (.hermRes dt 0 none) (by simp [KI]) h ⟨hp, q3⟩
  exact ⟨outs, o', n, m, t, h1, q1, q2, h2⟩

end HermRes
end Rtbot
