import Verif.Spec.Stream
import Verif.Lemmas.Map

/-! # Single port operators: the sliding window invariant -/

set_option linter.unusedSectionVars false

namespace Rtbot
open Spec
variable {V : Type}

section lists
variable {α : Type}

theorem lastN_of_le {n : Nat} {h : List α} (hl : h.length ≤ n) : lastN n h = h := by
  unfold lastN; rw [show h.length - n = 0 by omega]; rfl

theorem length_lastN (n : Nat) (h : List α) : (lastN n h).length = min h.length n := by
  unfold lastN; rw [List.length_drop]; omega

theorem lastN_snoc_of_lt {n : Nat} {h : List α} (m : α) (hl : h.length < n) : lastN n (h ++ [m]) = lastN n h ++ [m] := by
  rw [lastN_of_le (by simp; omega), lastN_of_le (by omega)]

theorem lastN_snoc_of_ge {n : Nat} {h : List α} (m : α) (hn : 0 < n) (hl : n ≤ h.length) :
    lastN n (h ++ [m]) = (lastN n h).tail ++ [m] := by
  unfold lastN
  rw [List.length_append, List.length_singleton, List.tail_drop,
    List.drop_append_of_le_length (by omega)]
  congr 2; omega

theorem getLast?_lastN {n : Nat} {h : List α} (hn : 0 < n) : (lastN n h).getLast? = h.getLast? := by
  unfold lastN
  rcases List.eq_nil_or_concat h with rfl | ⟨l, a, rfl⟩
  · simp
  · rw [List.concat_eq_append, List.drop_append_of_le_length (by simp; omega)]; simp

end lists

variable [Num V]

/-- Induction principle for `ComputesOn`: an invariant `R` relating the state to the history. -/
theorem computesOn_of_inv {P : List (Msg V) → Prop} {o : Op V} {p : Str} {f : List (Msg V) → Msg V → OpMsg V}
    (hP : ∀ h m, P (h ++ [m]) → P h)
    (R : List (Msg V) → Op V → Prop) (h0 : R [] o)
    (hs : ∀ h o m, P (h ++ [m]) → R h o → ∃ o', step o p m = .ok (f h m) o' ∧ R (h ++ [m]) o') :
    ∀ ms, P ms → ∃ o', feedOp o p ms = .ok (answers f [] ms) o' ∧ R ms o' := by
  have hpre : ∀ ms h, P (h ++ ms) → P h := by
    intro ms
    induction hn : ms.length generalizing ms with
    | zero => intro h hp; rw [List.eq_nil_of_length_eq_zero hn] at hp; simpa using hp
    | succ n ih =>
      intro h hp
      rcases List.eq_nil_or_concat ms with rfl | ⟨l, m, rfl⟩
      · simp at hn
      · rw [List.concat_eq_append] at *
        rw [← List.append_assoc] at hp
        exact ih l (by simp at hn; omega) h (hP _ _ hp)
  have key : ∀ ms h o, R h o → P (h ++ ms) → ∃ o', feedOp o p ms = .ok (answers f h ms) o' ∧ R (h ++ ms) o' := by
    intro ms
    induction ms with
    | nil => intro h o hR _; exact ⟨o, rfl, by simpa using hR⟩
    | cons m ms ih =>
      intro h o hR hp
      have hp' : P (h ++ [m] ++ ms) := by simpa using hp
      obtain ⟨o1', h1, hR1⟩ := hs h o m (hpre ms _ hp') hR
      obtain ⟨o2', h2, hR2⟩ := ih (h ++ [m]) o1' hR1 hp'
      refine ⟨o2', ?_, by simpa using hR2⟩
      simp only [feedOp, h1, h2, answers]
  intro ms hp
  have := key ms [] o h0 (by simpa using hp)
  simpa using this

theorem computes_of_inv {o : Op V} {p : Str} {f : List (Msg V) → Msg V → OpMsg V}
    (R : List (Msg V) → Op V → Prop) (h0 : R [] o)
    (hs : ∀ h o m, R h o → ∃ o', step o p m = .ok (f h m) o' ∧ R (h ++ [m]) o') :
    Computes o p f := by
  intro ms
  obtain ⟨o', h, _⟩ := computesOn_of_inv (P := fun _ => True) (fun _ _ _ => trivial) R h0
    (fun h o m _ hr => hs h o m hr) ms trivial
  exact ⟨o', h⟩

/-- The kinds that inherit `receiveData` and `executeData` of `Operator`. -/
def Kind.isBase : Kind V → Bool
  | .join _ | .binary _ | .linear _ | .demux _ | .autoReg _ | .variable _ _ | .composite _ _ | .pipeline _ _ _ => false
  | _ => true

theorem recvData_base {o : Op V} (h : o.kind.isBase = true) (m : Msg V) (p : Str) :
    o.recvData m p = (do let c ← o.core.receiveDataBase m p; .ok { o with core := c }) := by
  unfold Op.recvData
  cases hk : o.kind <;> simp_all [Kind.isBase]

theorem execData_base {o : Op V} (h : o.kind.isBase = true) : o.execData = o.execBase := by
  unfold Op.execData
  cases hk : o.kind <;> simp_all [Kind.isBase]

/-- State of a single port operator after history `h`: window size `n`, running sum `s`. -/
def winCore (c : Core V) (n : Nat) (s : V) (h : List (Msg V)) : Core V :=
  { c with dataIn := [(i1, { id := i1, max := n, sum := s, data := lastN n h })], toProcess := [] }

/-- The running sum after one more message. -/
def nextSum (n : Nat) (s : V) (h : List (Msg V)) (m : Msg V) : V :=
  (if n ≤ h.length then (match lastN n h with | [] => s | a :: _ => s -. a.value) else s) +. m.value

/-- What one step does to a base operator whose state is a window. -/
theorem step_window {c : Core V} {n : Nat} {s : V} {h : List (Msg V)} {k : Kind V} (hk : k.isBase = true) (hn : 0 < n)
    (m : Msg V) :
    step ⟨winCore c n s h, k⟩ i1 m =
      (if h.length + 1 < n then .ok [] ⟨winCore c n (nextSum n s h m) (h ++ [m]), k⟩
       else
        match Op.process ⟨{ winCore c n (nextSum n s h m) (h ++ [m]) with toProcess := [i1] }, k⟩ with
        | .error e => .err e ⟨{ winCore c n (nextSum n s h m) (h ++ [m]) with toProcess := [i1] }, k⟩
        | .ok (out, k') => .ok out ⟨winCore c n (nextSum n s h m) (h ++ [m]), k'⟩) := by
  have hrec : Inp.receive (V := V) { id := i1, max := n, sum := s, data := lastN n h } m =
      .ok { id := i1, max := n, sum := nextSum n s h m, data := lastN n (h ++ [m]) } := by
    unfold Inp.receive nextSum
    simp only [length_lastN]
    by_cases hl : n ≤ h.length
    · rw [if_pos (by omega), if_pos hl, lastN_snoc_of_ge m hn hl]
      unfold Inp.popSum
      cases hw : lastN n h with
      | nil => have := congrArg List.length hw; rw [length_lastN, List.length_nil] at this; omega
      | cons a w => simp [Inp.push]
    · rw [if_neg (by omega), if_neg (by omega), if_neg hl, lastN_snoc_of_lt m (by omega)]
      simp [Inp.push]
  have hr : Op.recvData ⟨winCore c n s h, k⟩ m i1 =
      .ok ⟨{ winCore c n (nextSum n s h m) (h ++ [m]) with toProcess := [i1] }, k⟩ := by
    rw [recvData_base hk]
    unfold Core.receiveDataBase
    have : i1 ≠ [] := by decide
    simp [winCore, Core.resolveData, this, hrec, bind, Except.bind, Map.put, setInsert]
  unfold step
  rw [hr]
  simp only
  rw [execData_base hk]
  unfold Op.execBase
  have hready : Core.readyPorts { winCore c n (nextSum n s h m) (h ++ [m]) with toProcess := [i1] } =
      .ok (if h.length + 1 < n then [] else [i1]) := by
    unfold Core.readyPorts
    have hall : [i1].all (Core.isData { winCore c n (nextSum n s h m) (h ++ [m]) with toProcess := [i1] }) = true := by
      simp [winCore, Core.isData, Map.has]
    rw [if_pos hall]
    congr 1
    by_cases hl : h.length + 1 < n
    · simp only [winCore, Map.find?_cons, List.filter_cons, if_true, length_lastN, List.length_append, List.length_singleton, hl]
      rw [if_neg (by simp; omega)]; rfl
    · simp only [winCore, Map.find?_cons, List.filter_cons, if_true, length_lastN, List.length_append, List.length_singleton, hl]
      rw [if_pos (by simp; omega)]; rfl
  rw [hready]
  simp only
  by_cases hl : h.length + 1 < n
  · simp only [hl, if_true]
    rfl
  · simp only [hl, if_false]
    rw [if_neg (by simp)]
    rfl

/-- The core with one data port "i1" of size `n > 0` starts as the empty window. -/
theorem simple_eq_winCore (id : Str) {n : Nat} (hn : 0 < n) :
    (Core.simple id n : Core V) = winCore (Core.simple id n) n (Num.ofNat 0) [] := by
  unfold Core.simple winCore Inp.new
  rw [if_neg (by omega)]
  simp [lastN]

/-- The main lemma for windowed operators: sums and subclass members are functions of the history, and `processData`
computes `f` on every full window. -/
theorem computes_window {c : Core V} {n : Nat} (hn : 0 < n) (S : List (Msg V) → V) (K : List (Msg V) → Kind V)
    (f : List (Msg V) → Msg V → OpMsg V) (hK : ∀ h, (K h).isBase = true)
    (hS : ∀ h m, S (h ++ [m]) = nextSum n (S h) h m)
    (hlt : ∀ h m, h.length + 1 < n → f h m = [] ∧ K (h ++ [m]) = K h)
    (hproc : ∀ h m, n ≤ h.length + 1 →
      Op.process ⟨{ winCore c n (S (h ++ [m])) (h ++ [m]) with toProcess := [i1] }, K h⟩ = .ok (f h m, K (h ++ [m]))) :
    Computes ⟨winCore c n (S []) [], K []⟩ i1 f := by
  apply computes_of_inv (fun h o => o = ⟨winCore c n (S h) h, K h⟩) rfl
  rintro h o m rfl
  refine ⟨⟨winCore c n (S (h ++ [m])) (h ++ [m]), K (h ++ [m])⟩, ?_, rfl⟩
  rw [step_window (hK h) hn, ← hS]
  split
  · rename_i hl
    rw [(hlt h m hl).1, (hlt h m hl).2]
  · rename_i hl
    rw [hproc h m (by omega)]

/-- Some running sum exists for every initial value. -/
theorem exists_sums (n : Nat) (s0 : V) : ∃ S : List (Msg V) → V, S [] = s0 ∧ ∀ h m, S (h ++ [m]) = nextSum n (S h) h m := by
  refine ⟨fun h => List.rec (motive := fun _ => V) s0 (fun m rev s => nextSum n s rev.reverse m) h.reverse, rfl, ?_⟩
  intro h m
  simp

/-- Windowed operators whose result does not use the running sum. -/
theorem computes_window' {c : Core V} {n : Nat} (hn : 0 < n) (s0 : V) (K : List (Msg V) → Kind V)
    (f : List (Msg V) → Msg V → OpMsg V) (hK : ∀ h, (K h).isBase = true)
    (hlt : ∀ h m, h.length + 1 < n → f h m = [] ∧ K (h ++ [m]) = K h)
    (hproc : ∀ h m s, n ≤ h.length + 1 →
      Op.process ⟨{ winCore c n s (h ++ [m]) with toProcess := [i1] }, K h⟩ = .ok (f h m, K (h ++ [m]))) :
    Computes ⟨winCore c n s0 [], K []⟩ i1 f := by
  obtain ⟨S, h0, hS⟩ := exists_sums (V := V) n s0
  rw [← h0]
  exact computes_window hn S K f hK hS hlt (fun h m hl => hproc h m _ hl)

/-- Restricted version for sequences with a prefix-closed property. -/
theorem computesOn_window' {P : List (Msg V) → Prop} (hP : ∀ h m, P (h ++ [m]) → P h) {c : Core V} {n : Nat} (hn : 0 < n) (s0 : V)
    (K : List (Msg V) → Kind V)
    (f : List (Msg V) → Msg V → OpMsg V) (hK : ∀ h, (K h).isBase = true)
    (hlt : ∀ h m, h.length + 1 < n → f h m = [] ∧ K (h ++ [m]) = K h)
    (hproc : ∀ h m s, P (h ++ [m]) → n ≤ h.length + 1 →
      Op.process ⟨{ winCore c n s (h ++ [m]) with toProcess := [i1] }, K h⟩ = .ok (f h m, K (h ++ [m]))) :
    ComputesOn P ⟨winCore c n s0 [], K []⟩ i1 f := by
  obtain ⟨S, h0, hS⟩ := exists_sums (V := V) n s0
  rw [← h0]
  intro ms hp
  obtain ⟨o', h, _⟩ := computesOn_of_inv (P := P) hP (fun h o => o = ⟨winCore c n (S h) h, K h⟩)
    (o := ⟨winCore c n (S []) [], K []⟩) (p := i1) (f := f) rfl (by
      rintro h o m hp rfl
      refine ⟨⟨winCore c n (S (h ++ [m])) (h ++ [m]), K (h ++ [m])⟩, ?_, rfl⟩
      rw [step_window (hK h) hn, ← hS]
      split
      · rename_i hl
        rw [(hlt h m hl).1, (hlt h m hl).2]
      · rename_i hl
        rw [hproc h m _ hp (by omega)]) ms hp
  exact ⟨o', h⟩

end Rtbot
