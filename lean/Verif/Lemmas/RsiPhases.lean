import Verif.Lemmas.RsiStep
import Verif.Spec.RsiIndex

/-! # The phases of the program of C94 -/

namespace Rtbot.RsiProgram
open Spec Wave Selector Ripple
variable {V : Type} [Num V]

inductive Ph (V : Type)
  | opening (h : List (Msg V))
  | asking (h : List (Msg V)) (m0 m : Msg V)
  | live (k : Nat) (m : Msg V) (o : Bool → Option V)

def Ph.n : Ph V → Nat
  | .opening h => h.length
  | .asking _ _ _ => 15
  | .live k _ _ => k

def Ph.last : Ph V → Option (Msg V)
  | .opening h => h.getLast?
  | .asking _ _ m => some m
  | .live _ m _ => some m

def Ph.next (a b : V) (x : Msg V) : Ph V → Ph V
  | .opening h => match h.getLast? with
    | none => .opening (h ++ [x])
    | some m0 => if h.length = 14 then .asking h m0 x else .opening (h ++ [x])
  | .asking h _ m => .live 16 x (moved a b (kept m.time x.time fun e => some (avgV b (parts e (h ++ [m])))) (x.value -. m.value))
  | .live k m o => .live (k + 1) x (moved a b (kept m.time x.time o) (x.value -. m.value))

def Ph.out (a b : V) (x : Msg V) : Ph V → List (Msg V)
  | .opening h => match h.getLast? with
    | none => []
    | some m0 => if h.length = 14 then told x.time (asked b h m0 x false).avg (asked b h m0 x true).avg else []
  | .asking h m0 m => fresh m.time (fun e => (asked b h m0 m e).avg) (fun e => some (avgV b (parts e (h ++ [m])))) ++
      told x.time (moved a b (kept m.time x.time fun e => some (avgV b (parts e (h ++ [m])))) (x.value -. m.value) false)
        (moved a b (kept m.time x.time fun e => some (avgV b (parts e (h ++ [m])))) (x.value -. m.value) true)
  | .live _ m o => told x.time (moved a b (kept m.time x.time o) (x.value -. m.value) false) (moved a b (kept m.time x.time o) (x.value -. m.value) true)

/-- What holds of the operators in a phase. -/
def Ph.Holds (a b : V) (s : St V) (θ : Keep V) : Ph V → Prop
  | .opening h => h.length ≤ 14 ∧ Open a b s h θ
  | .asking h m0 m => h.length = 14 ∧ h.getLast? = some m0 ∧ Late s (some m) ∧ J a b s m.time (asked b h m0 m)
  | .live k m o => 16 ≤ k ∧ (o true).isSome = (o false).isSome ∧ Late s (some m) ∧ Made a b s m.time o

def Now (a b : V) (s : St V) (p : Ph V) : Prop := ∃ θ, Common s θ p.n p.last ∧ p.Holds a b s θ

theorem sgn_of {d : V} (h : Placed d) : Sgn d := by
  unfold Placed at h
  simp only [List.mem_cons, Prod.mk.injEq, List.not_mem_nil, or_false] at h
  rcases h with ⟨h1, h2, h3⟩ | ⟨h1, h2, h3⟩ | ⟨h1, h2, h3⟩
  · exact .neg h1 h2 h3
  · exact .zero h1 h2 h3
  · exact .pos h1 h2 h3

/-- A message is fit to follow the last one. -/
def Fit (last : Option (Msg V)) (x : Msg V) : Prop := Num.toTime (ofTime x.time : V) = some x.time ∧ ∀ m, last = some m → Placed (x.value -. m.value)

variable {B : Nat}

theorem moved_isSome {a b : V} {t t' : UInt64} {o : Bool → Option V} {d : V} (h : (o true).isSome = (o false).isSome) : (moved a b (kept t t' o) d true).isSome = (moved a b (kept t t' o) d false).isSome := by
  unfold moved kept smooth
  rw [Option.isSome_map, Option.isSome_map]
  split
  · exact h
  · rfl

theorem next_open {a b : V} {x : Msg V} {h : List (Msg V)} (hl : h.length ≠ 14) : (Ph.opening h).next a b x = .opening (h ++ [x]) := by
  unfold Ph.next
  dsimp only
  split
  · rfl
  · rw [if_neg hl]
theorem out_open {a b : V} {x : Msg V} {h : List (Msg V)} (hl : h.length ≠ 14) : (Ph.opening h).out a b x = [] := by
  unfold Ph.out
  dsimp only
  split
  · rfl
  · rw [if_neg hl]
theorem next_ask {a b : V} {x m0 : Msg V} {h : List (Msg V)} (hl : h.length = 14) (hg : h.getLast? = some m0) : (Ph.opening h).next a b x = .asking h m0 x := by
  unfold Ph.next
  dsimp only
  rw [hg]
  exact if_pos hl
theorem out_ask {a b : V} {x m0 : Msg V} {h : List (Msg V)} (hl : h.length = 14) (hg : h.getLast? = some m0) : (Ph.opening h).out a b x = told x.time (asked b h m0 x false).avg (asked b h m0 x true).avg := by
  unfold Ph.out
  dsimp only
  rw [hg]
  exact if_pos hl

/-- A newer message. -/
theorem taken (hT : Tells V B) (hB : 16 ≤ B) (hB64 : B < 2 ^ 64) {a b : V} {s : St V} {p : Ph V} {x : Msg V} {f : Nat} (h : Now a b s p) (hk : p.n + 1 ≤ B) (hn : newer (p.last.map (·.time)) x.time = true) (hx : Fit p.last x) :
    ∃ r s', feed (f + 20) 40 i1 x s = .ok r s' ∧ Fr (List.range 41) (p.out a b x) s s' ∧ Now a b s' (p.next a b x) ∧ (p.next a b x).n = p.n + 1 ∧ (p.next a b x).last = some x := by
  obtain ⟨θ, hc, hp⟩ := h
  match p, hc, hp, hx, hn with
  | .opening h, hc, hp, hx, hn =>
    by_cases hl : h.length = 14
    · cases hg : h.getLast? with
      | none =>
        rw [List.getLast?_eq_none_iff.1 hg] at hl
        cases hl
      | some m0 =>
        have hn' : m0.time < x.time := by
          have : newer (h.getLast?.map (·.time)) x.time = true := hn
          rw [hg] at this
          simpa [newer] using this
        obtain ⟨r, s', θ', k1, k2, k3, k4, k5⟩ := step_ask (f := f) hT hB hc hp.2 hl hg hn' hx.1 (sgn_of (hx.2 m0 hg))
        have e1 := next_ask (a := a) (b := b) (x := x) hl hg
        have e2 := out_ask (a := a) (b := b) (x := x) hl hg
        rw [e1, e2]
        exact ⟨r, s', k1, k2, ⟨θ', k3, hl, hg, k4, k5⟩, by show 15 = h.length + 1; omega, rfl⟩
    · have hl14 : h.length ≤ 14 := hp.1
      obtain ⟨r, s', θ', k1, k2, k3, k4⟩ := step_open (f := f) hT hB hc hp.2 (by omega) hn hx.1 (fun m0 hm => sgn_of (hx.2 m0 hm))
      have e1 := next_open (a := a) (b := b) (x := x) hl
      have e2 := out_open (a := a) (b := b) (x := x) hl
      rw [e1, e2]
      exact ⟨r, s', k1, k2, ⟨θ', k3, by simp; omega, k4⟩, by simp [Ph.n], by simp [Ph.last]⟩
  | .asking h m0 m, hc, ⟨hl, hg, h1, h2⟩, hx, hn =>
    obtain ⟨r, s', θ', k1, k2, k3, k4, k5⟩ := step_last (f := f) hT hB hc hg h1 h2 (by simpa [newer, Ph.last] using hn) hx.1 (sgn_of (hx.2 m rfl))
    exact ⟨r, s', k1, k2, ⟨θ', k3, Nat.le_refl _, moved_isSome rfl, k4, k5⟩, rfl, rfl⟩
  | .live k m o, hc, ⟨hl, hs, h1, h2⟩, hx, hn =>
    obtain ⟨r, s', θ', k1, k2, k3, k4, k5⟩ := step_live (f := f) hT hB hB64 hc hl hk h1 h2 hs (by simpa [newer, Ph.last] using hn) hx.1 (sgn_of (hx.2 m rfl))
    exact ⟨r, s', k1, k2, ⟨θ', k3, by show 16 ≤ k + 1; omega, moved_isSome hs, k4, k5⟩, rfl, rfl⟩

/-- A message that is not newer. -/
theorem left_out {a b : V} {s : St V} {p : Ph V} {x : Msg V} {f : Nat} (h : Now a b s p) (hn : newer (p.last.map (·.time)) x.time = false) :
    ∃ r s', feed (f + 20) 40 i1 x s = .ok r s' ∧ Fr (List.range 41) [] s s' ∧ Now a b s' p := by
  obtain ⟨θ, hc, hp⟩ := h
  obtain ⟨r, s', k1, k2, k3⟩ := ignored (f := f + 19) (m := x) hc.rest (by rw [hc.last]; exact hn)
  refine ⟨r, s', k1, k2.mono (by decide), θ, ⟨k3, hc.dm.frame k2 (by decide), hc.n, hc.last⟩, ?_⟩
  match p, hp with
  | .opening h, hp => exact ⟨hp.1, hp.2.early.frame k2 (by decide), hp.2.late.frame k2 (by decide), hp.2.j.frame k2 (by decide), hp.2.kb, hp.2.ku⟩
  | .asking h m0 m, ⟨hl, hg, h1, h2⟩ => exact ⟨hl, hg, h1.frame k2 (by decide), h2.frame k2 (by decide)⟩
  | .live k m o, ⟨hl, hs, h1, h2⟩ => exact ⟨hl, hs, h1.frame k2 (by decide), fun e => (h2.aft e).frame k2 (by cases e <;> decide), h2.div.frame k2 (by decide)⟩

/-- The reports for some messages. -/
def Ph.outs (a b : V) : Ph V → List (Msg V) → List (Msg V)
  | _, [] => []
  | p, x :: l => p.out a b x ++ (p.next a b x).outs a b l

/-- The phase after some messages. -/
def Ph.nexts (a b : V) : Ph V → List (Msg V) → Ph V
  | p, [] => p
  | p, x :: l => (p.next a b x).nexts a b l

def Fits : Option (Msg V) → List (Msg V) → Prop
  | _, [] => True
  | last, x :: l => Fit last x ∧ Fits (some x) l

theorem fits_left {l' : List (Msg V)} : ∀ {last : Option (Msg V)} (l : List (Msg V)), Fits last (l ++ l') → Fits last l
  | _, [], _ => trivial
  | _, _ :: l, h => ⟨h.1, fits_left l h.2⟩

theorem outs_append {a b : V} {l' : List (Msg V)} : ∀ (l : List (Msg V)) (p : Ph V), p.outs a b (l ++ l') = p.outs a b l ++ (p.nexts a b l).outs a b l'
  | [], _ => rfl
  | x :: l, p => by
    show p.out a b x ++ (p.next a b x).outs a b (l ++ l') = (p.out a b x ++ (p.next a b x).outs a b l) ++ _
    rw [outs_append l, List.append_assoc]
    rfl

/-- The messages of one call. -/
theorem feeds (hT : Tells V B) (hB : 16 ≤ B) (hB64 : B < 2 ^ 64) {a b : V} {f : Nat} (ms : List (Msg V)) : ∀ (p : Ph V) (s : St V) (out : ProgMsg V), Now a b s p → p.n + (records (p.last.map (·.time)) ms).length ≤ B →
    Fits p.last (records (p.last.map (·.time)) ms) →
    ∃ r s', feedPort (f + 20) 40 i1 ms out s = .ok r s' ∧ Fr (List.range 41) (p.outs a b (records (p.last.map (·.time)) ms)) s s' ∧ Now a b s' (p.nexts a b (records (p.last.map (·.time)) ms)) ∧
      (p.nexts a b (records (p.last.map (·.time)) ms)).n = p.n + (records (p.last.map (·.time)) ms).length ∧
      ∀ ms', records (p.last.map (·.time)) (ms ++ ms') = records (p.last.map (·.time)) ms ++ records ((p.nexts a b (records (p.last.map (·.time)) ms)).last.map (·.time)) ms' ∧
        (Fits p.last (records (p.last.map (·.time)) (ms ++ ms')) →
          Fits (p.nexts a b (records (p.last.map (·.time)) ms)).last (records ((p.nexts a b (records (p.last.map (·.time)) ms)).last.map (·.time)) ms')) := by
  induction ms with
  | nil =>
    intro p s out h _ _
    exact ⟨out, s, rfl, (Fr.refl s).mono (by simp), h, rfl, fun ms' => ⟨rfl, fun h => h⟩⟩
  | cons m ms ih =>
    intro p s out h hk hfit
    by_cases hn : newer (p.last.map (·.time)) m.time = true
    · have hrec : ∀ l, records (p.last.map (·.time)) (m :: l) = m :: records ((some m).map (·.time)) l := fun l => by
        conv_lhs => unfold records
        rw [if_pos hn]
        rfl
      rw [hrec, List.length_cons] at hk
      rw [hrec] at hfit
      obtain ⟨r1, s1, k1, k2, k3, k4, k5⟩ := taken (f := f) hT hB hB64 h (by omega) hn hfit.1
      obtain ⟨r, s', j1, j2, j3, j4, j5⟩ := ih (p.next a b m) s1 (if r1 = [] then out else mergeProg out r1) k3 (by rw [k4, k5]; omega) (by rw [k5]; exact hfit.2)
      rw [k5] at j2 j3 j4 j5
      rw [k4] at j4
      refine ⟨r, s', ?_, ?_, ?_, ?_, fun ms' => ?_⟩
      · unfold feedPort at j1 ⊢
        rw [fold_cons]
        simp only [M.bind_def, k1]
        exact j1
      · rw [hrec]
        exact (k2.trans j2).mono (by simp)
      · rw [hrec]
        exact j3
      · rw [hrec, List.length_cons]
        show ((p.next a b m).nexts a b _).n = _
        omega
      · rw [List.cons_append, hrec, hrec]
        refine ⟨?_, fun hf => (j5 ms').2 hf.2⟩
        rw [(j5 ms').1]
        rfl
    · have hn' : newer (p.last.map (·.time)) m.time = false := by simpa using hn
      have hrec : ∀ l, records (p.last.map (·.time)) (m :: l) = records (p.last.map (·.time)) l := fun l => by
        conv_lhs => unfold records
        rw [if_neg hn]
      rw [hrec] at hk hfit
      obtain ⟨r1, s1, k1, k2, k3⟩ := left_out (f := f) h hn'
      obtain ⟨r, s', j1, j2, j3, j4, j5⟩ := ih p s1 (if r1 = [] then out else mergeProg out r1) k3 hk hfit
      refine ⟨r, s', ?_, ?_, ?_, ?_, fun ms' => ?_⟩
      · unfold feedPort at j1 ⊢
        rw [fold_cons]
        simp only [M.bind_def, k1]
        exact j1
      · rw [hrec]
        exact (k2.trans j2).mono (by simp)
      · rw [hrec]
        exact j3
      · rw [hrec]
        exact j4
      · rw [List.cons_append, hrec, hrec]
        exact j5 ms'

/-- Calls one after the other. -/
theorem calls (hT : Tells V B) (hB : 16 ≤ B) (hB64 : B < 2 ^ 64) {a b : V} {f : Nat} (mss : List (List (Msg V))) : ∀ (p : Ph V) (P : Prog V), Now a b P.st p → P.ops.find? P.entry = some 40 →
    p.n + (records (p.last.map (·.time)) mss.flatten).length ≤ B → Fits p.last (records (p.last.map (·.time)) mss.flatten) →
    ∃ rs P' evs, debugRun (f + 20) (mss.map fun ms => [(i1, ms)]) P = .ok rs P' ∧ P'.st.log = P.st.log ++ evs ∧ emittedBy 0 o1 evs = p.outs a b (records (p.last.map (·.time)) mss.flatten) := by
  induction mss with
  | nil =>
    intro p P _ _ _ _
    exact ⟨[], P, [], rfl, by simp, rfl⟩
  | cons ms mss ih =>
    intro p P h he hk hfit
    rw [List.flatten_cons] at hk hfit ⊢
    have hsplit : ∃ R', records (p.last.map (·.time)) (ms ++ mss.flatten) = records (p.last.map (·.time)) ms ++ R' := by
      have aux : ∀ (l : List (Msg V)) (t : Option UInt64), ∃ R', records t (l ++ mss.flatten) = records t l ++ R' := by
        intro l
        induction l with
        | nil => intro t; exact ⟨_, rfl⟩
        | cons m l ih =>
          intro t
          rw [List.cons_append]
          unfold records
          split
          · obtain ⟨R', h⟩ := ih (some m.time)
            exact ⟨R', by rw [h]; rfl⟩
          · exact ih _
      exact aux ms _
    obtain ⟨R', hR'⟩ := hsplit
    have hk1 : p.n + (records (p.last.map (·.time)) ms).length ≤ B := by
      rw [hR', List.length_append] at hk
      omega
    have hf1 : Fits p.last (records (p.last.map (·.time)) ms) := by
      rw [hR'] at hfit
      exact fits_left _ hfit
    obtain ⟨r, s', k1, k2, k3, k4, k5⟩ := feeds hT hB hB64 (f := f) ms p P.st [] h hk1 hf1
    obtain ⟨k6, k7⟩ := k5 mss.flatten
    have h1 : P.receiveDebug (f + 20) [(i1, ms)] = .ok r { P with st := s' } := by
      unfold Prog.receiveDebug
      rw [he]
      dsimp only
      have : feedAll (f + 20) 40 [(i1, ms)] P.st = .ok r s' := by
        unfold feedAll
        exact fold_step (b' := r) k1 (fold_nil _ _ _)
      rw [this]
    obtain ⟨rs, P', evs', j1, j2, j3⟩ := ih (p.nexts a b (records (p.last.map (·.time)) ms)) { P with st := s' } k3 he (by rw [k4]; rw [k6, List.length_append] at hk; omega) (k7 hfit)
    obtain ⟨evs, l1, l2⟩ := k2.log
    refine ⟨r :: rs, P', evs ++ evs', ?_, ?_, ?_⟩
    · rw [List.map_cons]
      unfold debugRun
      rw [h1]
      dsimp only
      rw [j1]
    · rw [j2, ← List.append_assoc]
      show s'.log ++ evs' = _
      rw [l1]
    · rw [k6, outs_append, emittedBy_append, l2, j3]

/-! ## The reports are the index -/

theorem parts_eq {e : Bool} : ∀ h : List (Msg V), parts e h = (changes h).filterMap (gets e)
  | [] => rfl
  | [_] => rfl
  | m :: m' :: l => by
    have ih := parts_eq (e := e) (m' :: l)
    show (match gets e (m'.value -. m.value) with | none => [] | some x => [x]) ++ parts e (m' :: l) = ((m'.value -. m.value) :: changes (m' :: l)).filterMap (gets e)
    rw [List.filterMap_cons, ih]
    cases gets e (m'.value -. m.value) <;> rfl

theorem gets_loss : (gets true : V → Option V) = lossPart := rfl
theorem gets_gain : (gets false : V → Option V) = gainPart := rfl

theorem changes_last {m : Msg V} {m0 : Msg V} : ∀ h : List (Msg V), h.getLast? = some m0 → (changes (h ++ [m])).getLast? = some (m.value -. m0.value)
  | [], h => by cases h
  | [x], h => by cases h; rfl
  | x :: y :: l, h => by
    have ih := changes_last (m := m) (y :: l) (by simpa using h)
    show ((y.value -. x.value) :: changes ((y :: l) ++ [m])).getLast? = _
    rw [List.getLast?_cons, ih]
    rfl

theorem outs_early {a b : V} : ∀ (l : List (Msg V)) (h l' : List (Msg V)), h.length + l.length ≤ 14 → (Ph.opening h).outs a b (l ++ l') = (Ph.opening (h ++ l)).outs a b l'
  | [], h, l', _ => by rw [List.append_nil]; rfl
  | x :: l, h, l', hl => by
    rw [List.length_cons] at hl
    show (Ph.opening h).out a b x ++ ((Ph.opening h).next a b x).outs a b (l ++ l') = _
    rw [out_open (by omega), next_open (by omega), outs_early l _ _ (by simp; omega), List.append_assoc]
    rfl

theorem outs_dead {a b : V} : ∀ (l : List (Msg V)) (k : Nat) (m : Msg V) (o : Bool → Option V), (∀ e, o e = none) → (Ph.live k m o).outs a b l = []
  | [], _, _, _, _ => rfl
  | x :: l, k, m, o, h => by
    have hm : ∀ e, moved a b (kept m.time x.time o) (x.value -. m.value) e = none := fun e => by
      unfold moved kept
      rw [h, ite_self]
      rfl
    show told x.time _ _ ++ (Ph.live (k + 1) x _).outs a b l = []
    rw [hm, hm, outs_dead l _ _ _ hm]
    rfl

theorem outs_live {a b : V} : ∀ (l : List (Msg V)) (k : Nat) (m : Msg V) (o : Bool → Option V) (g v : V), o false = some g → o true = some v → (Ph.live k m o).outs a b l = follow a b m g v l
  | [], _, _, _, _, _, _, _ => rfl
  | x :: l, k, m, o, g, v, hg, hv => by
    show told x.time _ _ ++ (Ph.live (k + 1) x _).outs a b l = _
    unfold follow
    by_cases ht : x.time = m.time + 1
    · have h1 : moved a b (kept m.time x.time o) (x.value -. m.value) false = some (smoothed a b g (gainNow (x.value -. m.value))) := by
        unfold moved kept
        rw [if_pos ht, hg]
        rfl
      have h2 : moved a b (kept m.time x.time o) (x.value -. m.value) true = some (smoothed a b v (lossNow (x.value -. m.value))) := by
        unfold moved kept
        rw [if_pos ht, hv]
        rfl
      rw [if_pos ht, outs_live l _ _ _ _ _ h1 h2, h1, h2]
      rfl
    · have hm : ∀ e, moved a b (kept m.time x.time o) (x.value -. m.value) e = none := fun e => by
        unfold moved kept
        rw [if_neg ht]
        rfl
      rw [if_neg ht, hm, hm, outs_dead l _ _ _ hm]
      rfl

theorem asked_avg {b : V} {h : List (Msg V)} {m0 m : Msg V} (hg : h.getLast? = some m0) (e : Bool) :
    (asked b h m0 m e).avg = if (gets e (m.value -. m0.value)).isSome then some (avgV b (parts e (h ++ [m]))) else none := by
  unfold asked
  rw [parts_append hg]
  cases gets e (m.value -. m0.value) with
  | none => rfl
  | some x =>
    show some _ = some _
    unfold avgV
    rw [if_neg (by simp)]

theorem both_gets {d : V} (h : Placed d) : ((gets false d).isSome && (gets true d).isSome) = Num.eq d (Num.ofNat 0) := by
  cases sgn_of h with
  | neg h1 h2 h3 => simp [gets, h1, h2, h3]
  | zero h1 h2 h3 => simp [gets, h1, h2]
  | pos h1 h2 h3 => simp [gets, h1, h2, h3]

theorem outs_eq {a b : V} (l : List (Msg V)) (hp : ∀ d ∈ changes l, Placed d) : (Ph.opening []).outs a b l = rsi a b l := by
  unfold rsi
  by_cases hl : l.length ≤ 14
  · rw [List.drop_eq_nil_of_le hl]
    have := outs_early (a := a) (b := b) l [] [] (by simpa using hl)
    rw [List.append_nil] at this
    rw [this]
    rfl
  · obtain ⟨h, m, rest, rfl, h14⟩ : ∃ h m rest, l = h ++ m :: rest ∧ h.length = 14 := by
      refine ⟨l.take 14, l[14]'(by omega), l.drop 15, ?_, by simp; omega⟩
      rw [← List.drop_eq_getElem_cons, List.take_append_drop]
    have hdrop : (h ++ m :: rest).drop 14 = m :: rest := by rw [← h14, List.drop_left]
    have htake : (h ++ m :: rest).take 15 = h ++ [m] := by
      rw [show h ++ m :: rest = (h ++ [m]) ++ rest by simp, show 15 = (h ++ [m]).length by simp [h14], List.take_left]
    rw [hdrop, htake]
    dsimp only
    obtain ⟨m0, hg⟩ : ∃ m0, h.getLast? = some m0 := by
      cases hg : h.getLast? with
      | none => rw [List.getLast?_eq_none_iff.1 hg] at h14; cases h14
      | some m0 => exact ⟨m0, rfl⟩
    have hd : Placed (m.value -. m0.value) := by
      refine hp _ ?_
      have h1 := List.mem_of_getLast? (changes_last (m := m) h hg)
      have aux : ∀ (x y : List (Msg V)) d, d ∈ changes x → d ∈ changes (x ++ y) := by
        intro x
        induction x with
        | nil => intro y d hd; cases hd
        | cons u x ih =>
          intro y d hd
          cases x with
          | nil => cases hd
          | cons v x =>
            rcases List.mem_cons.1 hd with hd | hd
            · exact List.mem_cons.2 (.inl hd)
            · exact List.mem_cons.2 (.inr (ih y d hd))
      have := aux (h ++ [m]) rest _ h1
      rwa [List.append_assoc] at this
    have hG : avgV b (parts false (h ++ [m])) = meanOf b ((changes (h ++ [m])).filterMap gainPart) := by rw [parts_eq]; rfl
    have hL : avgV b (parts true (h ++ [m])) = meanOf b ((changes (h ++ [m])).filterMap lossPart) := by rw [parts_eq]; rfl
    have hz := both_gets hd
    rw [outs_early h [] _ (by simp [h14]), List.nil_append]
    show (Ph.opening h).out a b m ++ ((Ph.opening h).next a b m).outs a b rest = _
    rw [out_ask h14 hg, next_ask h14 hg]
    match rest with
    | [] =>
      unfold indexFrom Ph.outs
      rw [List.append_nil, changes_last h hg, asked_avg hg, asked_avg hg, hG, hL]
      rw [show (some (m.value -. m0.value)).any (fun d => Num.eq d (Num.ofNat 0)) = Num.eq (m.value -. m0.value) (Num.ofNat 0) from rfl, ← hz]
      cases (gets false (m.value -. m0.value)).isSome <;> cases (gets true (m.value -. m0.value)).isSome <;> rfl
    | x :: rest =>
      unfold indexFrom
      rw [show (Ph.asking h m0 m).outs a b (x :: rest) = fresh m.time (fun e => (asked b h m0 m e).avg) (fun e => some (avgV b (parts e (h ++ [m])))) ++
        (Ph.live 15 m fun e => some (avgV b (parts e (h ++ [m])))).outs a b (x :: rest) from List.append_assoc _ _ _]
      rw [outs_live (x :: rest) 15 m (fun e => some (avgV b (parts e (h ++ [m])))) (avgV b (parts false (h ++ [m]))) (avgV b (parts true (h ++ [m]))) rfl rfl, ← List.append_assoc, ← hG, ← hL]
      congr 1
      unfold fresh
      simp only [asked_avg hg]
      cases (gets false (m.value -. m0.value)).isSome <;> cases (gets true (m.value -. m0.value)).isSome <;> first | rfl | exact List.append_nil _

end Rtbot.RsiProgram
