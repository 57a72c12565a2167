import Verif.Lemmas.SyncRun
import Verif.Spec.Pair

/-! # BinaryJoin and Linear -/

set_option linter.unusedSectionVars false

namespace Rtbot
open Spec

namespace Sync

section
variable {V : Type} [Num V]

/-- Result of `BinaryJoin::processData` for fronts `h`. -/
def binOut (op : BinOp) (h : Str → Msg V) : OpMsg V :=
  match op.eval (h i1).value (h i2).value with
  | none => []
  | some v => single ⟨(h i1).time, v⟩

theorem emits_binary (op : BinOp) : Emits (.binary op : Kind V) [i1, i2] (binOut op) := by
  intro o D h hk hb hd
  unfold joinProcess
  rw [hk]
  simp only
  have hm : ∀ p ∈ [i1, i2], o.core.dataMsg p 0 = .ok (h p) := by
    intro p hp
    obtain ⟨i, e1, e2⟩ := hb.find p hp
    obtain ⟨ms, e3⟩ := hd p hp
    unfold Core.dataMsg
    rw [e1]
    simp only [e2, e3]
    simp
  unfold binaryMessages
  rw [hm i2 (by simp), hm i1 (by simp)]
  simp only [bind, Except.bind, binOut]
  cases op.eval (h i1).value (h i2).value <;> rfl

theorem newBinary_bufs (id : Str) (op : BinOp) : Bufs [i1, i2] (Op.newBinary id op : Op V) (fun _ => []) := by
  refine ⟨?_, rfl, ?_⟩
  · unfold Map.Sorted
    have : (Op.newBinary id op : Op V).core.dataIn.keys = [i1, i2] := rfl
    rw [this]; decide
  · intro p hp
    simp only [List.mem_cons, List.not_mem_nil, or_false] at hp
    rcases hp with rfl | rfl
    · exact ⟨Inp.new i1 0, rfl, rfl⟩
    · exact ⟨Inp.new i2 0, rfl, rfl⟩

/-- Value of `Linear` for fronts `h`. -/
def linFold (h : Str → Msg V) : List Str → List V → Msg V → Msg V
  | [], _, out => out
  | _ :: _, [], out => out
  | p :: ps, a :: as, out => linFold h ps as ⟨(h p).time, out.value +. (h p).value *. a⟩

theorem linearLoop_spec (h : Str → Msg V) (m : Map (Inp V)) (coeff : List V) (hl : m.length ≤ coeff.length) (out : Msg V)
    (hm : ∀ e ∈ m, ∃ ms, e.2.data = h e.1 :: ms) : linearLoop m coeff out = .ok (linFold h m.keys coeff out) := by
  induction m generalizing coeff out with
  | nil => simp [linearLoop, Map.keys, linFold]
  | cons e m ih =>
    obtain ⟨p, i⟩ := e
    obtain ⟨ms, hms⟩ := hm (p, i) (by simp)
    simp only at hms
    match coeff, hl with
    | [], hl => simp at hl
    | a :: as, hl =>
      unfold linearLoop
      rw [hms]
      simp only
      rw [ih as (by simpa using hl) _ (fun e he => hm e (List.mem_cons_of_mem _ he))]
      simp [Map.keys, linFold]

theorem emits_linear (coeff : List V) {ps : List Str} (hl : ps.length ≤ coeff.length) :
    Emits (.linear coeff : Kind V) ps (fun h => single (linFold h ps coeff ⟨0, Num.ofNat 0⟩)) := by
  intro o D h hk hb hd
  unfold joinProcess
  rw [hk]
  simp only
  rw [linearLoop_spec h o.core.dataIn coeff (by
      have := congrArg List.length hb.keys
      simp only [Map.keys, List.length_map] at this
      omega) _ (by
      intro e he
      obtain ⟨h1, h2⟩ := bufs_mem hb e he
      obtain ⟨ms, h3⟩ := hd e.1 h1
      exact ⟨ms, by rw [h2, h3]⟩), hb.keys]
  rfl

theorem addInputs_spec (id : Str) (n : Nat) : ∃ c, addInputs (Core.new id : Core V) 0 n = .ok c ∧ HasPorts c 0 n ∧ c.ctrlIn = [] := by
  induction n with
  | zero =>
    refine ⟨Core.new id, rfl, ⟨Map.Sorted.nil, ?_, ?_⟩, rfl⟩
    · intro p
      simp only [Core.new, Map.keys, List.map_nil, List.not_mem_nil, false_iff]
      rintro ⟨k, _, _, _⟩; omega
    · intro k _ _; omega
  | succ n ih =>
    obtain ⟨c, h1, h2, h3⟩ := ih
    obtain ⟨c', e1, e2, e3⟩ := addDataInput_ports h2 h3
    refine ⟨c', ?_, e2, by rw [e3]; exact h3⟩
    rw [addInputs, h1]
    exact e1

/-- A Linear operator as built by its constructor; its ports are in lexicographic order. -/
theorem newLinear_spec (id : Str) (coeff : List V) (hn : 2 ≤ coeff.length) :
    ∃ o ps, (Op.newLinear id coeff : Except Err (Op V)) = .ok o ∧ o.kind = .linear coeff ∧
    Bufs ps o (fun _ => []) ∧ (∀ p, p ∈ ps ↔ p ∈ iPorts coeff.length) ∧ ps.Pairwise (fun a b => strLt a b = true) ∧ ps ≠ [] ∧ [] ∉ ps ∧
    ps.length = coeff.length := by
  obtain ⟨c, h1, h2, _⟩ := addInputs_spec (V := V) id coeff.length
  refine ⟨⟨c.addOutput o1, .linear coeff⟩, c.dataIn.keys, ?_, rfl, ⟨h2.sorted, rfl, ?_⟩, ?_, ?_, ?_, ?_, ?_⟩
  · unfold Op.newLinear
    rw [if_neg (by omega), h1]
    rfl
  · intro p hp
    obtain ⟨k, a, b, rfl⟩ := (h2.keys p).1 hp
    exact ⟨_, h2.find k a b, rfl⟩
  · intro p; rw [h2.keys, mem_iPorts]
  · exact h2.sorted
  · intro h
    have := h2.length
    simp only [Map.keys, List.map_eq_nil_iff] at h
    rw [h] at this; simp at this; omega
  · intro h
    obtain ⟨k, _, _, hk⟩ := (h2.keys []).1 h
    exact iPort_ne_nil k hk.symm
  · simp only [Map.keys, List.length_map]; exact h2.length

theorem linFold_time (h : Str → Msg V) (t : UInt64) : ∀ (ps : List Str) (cs : List V) (out : Msg V), ps.length ≤ cs.length →
    (∀ p ∈ ps, (h p).time = t) → (ps ≠ [] ∨ out.time = t) → (linFold h ps cs out).time = t := by
  intro ps
  induction ps with
  | nil => intro cs out _ _ h; rcases h with h | h
           · exact absurd rfl h
           · exact h
  | cons p ps ih =>
    intro cs out hl hp _
    match cs, hl with
    | [], hl => simp at hl
    | a :: as, hl =>
      exact ih as _ (by simpa using hl) (fun q hq => hp q (List.mem_cons_of_mem _ hq)) (Or.inr (hp p (by simp)))

theorem mapM_find (R : Str → List (Msg V)) (h : Str → Msg V) (t : UInt64) : ∀ (ps : List Str),
    (∀ p ∈ ps, h p ∈ R p ∧ (h p).time = t ∧ Increasing (R p)) →
    (ps.map R).mapM (fun s : List (Msg V) => s.find? fun m => m.time == t) = some (ps.map h) := by
  intro ps
  induction ps with
  | nil => intro _; rfl
  | cons p ps ih =>
    intro hp
    obtain ⟨h1, h2, h3⟩ := hp p (by simp)
    have hf : (R p).find? (fun m => m.time == t) = some (h p) := by
      cases hc : (R p).find? (fun m => m.time == t) with
      | none => have := List.find?_eq_none.1 hc (h p) h1; simp [h2] at this
      | some m =>
        have e1 := List.mem_of_find?_eq_some hc
        have e2 := List.find?_some hc
        rw [inc_inj h3 e1 h1 (by rw [h2]; simpa using e2)]
    rw [List.map_cons, List.mapM_cons, hf, ih (fun q hq => hp q (List.mem_cons_of_mem _ hq))]
    rfl

end

variable {V : Type} [Field V] [LinearOrder V] [IsStrictOrderedRing V] [Num V] [Exact V]

theorem eval_exact (op : BinOp) (a b : V) : op.eval a b = pairValue op a b := by
  have hz : ∀ n : Nat, (Num.ofNat n : V) = (n : V) := Exact.ofNat_eq
  have hl : (!Num.lt a (Num.half : V)) = decide ((1 : V) / 2 ≤ a) := by
    have := Exact.lt_iff a (Num.half : V)
    rw [Exact.half_eq] at this ⊢
    by_cases h : a < 1 / 2
    · rw [this.2 h, decide_eq_false (not_le.2 h)]; rfl
    · rw [Bool.eq_false_iff.2 (fun hc => h (this.1 hc)), decide_eq_true (not_lt.1 h)]; rfl
  have hr : Num.le (Num.half : V) b = decide ((1 : V) / 2 ≤ b) := by
    have := Exact.le_iff (Num.half : V) b
    rw [Exact.half_eq] at this ⊢
    by_cases h : 1 / 2 ≤ b
    · rw [this.2 h, decide_eq_true h]
    · rw [Bool.eq_false_iff.2 (fun hc => h (this.1 hc)), decide_eq_false h]
  cases op <;> unfold BinOp.eval pairValue
  · rw [hl, hr]
    simp only [hz, ← Bool.decide_and, decide_eq_true_eq]
    split <;> simp
  · rw [hl, hr]
    simp only [hz, ← Bool.decide_or, decide_eq_true_eq]
    split <;> simp
  · simp only [Exact.add_eq]
  · simp only [Exact.sub_eq]
  · simp only [Exact.mul_eq]
  · have := Exact.eq_iff b (Num.ofNat 0 : V)
    simp only [hz, Nat.cast_zero] at this ⊢
    by_cases h : b = 0
    · rw [this.2 h]; simp [h]
    · rw [Bool.eq_false_iff.2 (fun hc => h (this.1 hc))]; simp [h, Exact.div_eq]
  · have := Exact.lt_iff b a
    by_cases h : b < a
    · simp [this.2 h, h]
    · simp [Bool.eq_false_iff.2 (fun hc => h (this.1 hc)), h]
  · have := Exact.lt_iff a b
    by_cases h : a < b
    · simp [this.2 h, h]
    · simp [Bool.eq_false_iff.2 (fun hc => h (this.1 hc)), h]

theorem linFold_value (h : Str → Msg V) : ∀ (ps : List Str) (cs : List V) (out : Msg V),
    (linFold h ps cs out).value = out.value + dot cs (ps.map fun p => (h p).value) := by
  intro ps
  induction ps with
  | nil => intro cs out; simp [linFold, dot]
  | cons p ps ih =>
    intro cs out
    match cs with
    | [] => simp [linFold, dot]
    | a :: as =>
      rw [linFold, ih]
      simp only [dot, List.map_cons, List.zip_cons_cons, List.sum_cons, Exact.add_eq, Exact.mul_eq]
      ring

end Sync
end Rtbot
