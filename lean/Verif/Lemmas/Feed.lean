import Verif.Lemmas.Simple
import Verif.Spec.Grid

/-! # Cumulative output of a windowed operator -/

set_option linter.unusedSectionVars false

namespace Rtbot
open Spec
variable {V : Type} [Num V]

theorem emittedOn_nil (q : Str) : emittedOn q ([] : List (OpMsg V)) = [] := rfl
theorem emittedOn_cons (q : Str) (out : OpMsg V) (outs : List (OpMsg V)) :
    emittedOn q (out :: outs) = msgsOn q out ++ emittedOn q outs := by simp [emittedOn]

/-- Invariant proof for the cumulative output `E` of a history. -/
theorem feed_inv {β : Type} {P : List (Msg V) → Prop} (hP : ∀ h m, P (h ++ [m]) → P h) {p : Str} (π : Msg V → β)
    (R : List (Msg V) → Op V → Prop) (E : List (Msg V) → List β) (hE0 : E [] = [])
    (hs : ∀ h o m, P (h ++ [m]) → R h o → ∃ out o', step o p m = .ok out o' ∧ R (h ++ [m]) o' ∧
      E (h ++ [m]) = E h ++ (msgsOn o1 out).map π) (o : Op V) (h0 : R [] o) (ms : List (Msg V)) (hp : P ms) :
    ∃ outs o', feedOp o p ms = .ok outs o' ∧ (emittedOn o1 outs).map π = E ms ∧ R ms o' := by
  have hpre : ∀ ms h, P (h ++ ms) → P h := by
    intro ms
    induction ms with
    | nil => intro h hh; simpa using hh
    | cons m ms ih =>
      intro h hh
      exact hP h m (ih (h ++ [m]) (by simpa using hh))
  have gen : ∀ ms h o, P (h ++ ms) → R h o →
      ∃ outs o', feedOp o p ms = .ok outs o' ∧ E h ++ (emittedOn o1 outs).map π = E (h ++ ms) ∧ R (h ++ ms) o' := by
    intro ms
    induction ms with
    | nil => intro h o _ hr; exact ⟨[], o, rfl, by simp [emittedOn], by simpa using hr⟩
    | cons m ms ih =>
      intro h o hp hr
      obtain ⟨out, o1', h1, h2, h3⟩ := hs h o m (hpre ms (h ++ [m]) (by simpa using hp)) hr
      obtain ⟨outs, o2, h4, h5, h6⟩ := ih (h ++ [m]) o1' (by simpa using hp) h2
      refine ⟨out :: outs, o2, ?_, ?_, by simpa using h6⟩
      · simp [feedOp, h1, h4]
      · rw [emittedOn_cons, List.map_append, ← List.append_assoc, ← h3, h5]
        simp
  obtain ⟨outs, o', h1, h2, h3⟩ := gen ms [] o (by simpa using hp) h0
  exact ⟨outs, o', h1, by simpa [hE0] using h2, by simpa using h3⟩

/-- The same for windowed operators. `KI h k`: the subclass members are `k` after history `h`. -/
theorem feed_window {β : Type} {P : List (Msg V) → Prop} (hP : ∀ h m, P (h ++ [m]) → P h) {c : Core V} {n : Nat} (hn : 0 < n)
    (s0 : V) (π : Msg V → β) (KI : List (Msg V) → Kind V → Prop) (hK : ∀ h k, KI h k → k.isBase = true) (E : List (Msg V) → List β)
    (hE0 : E [] = [])
    (hlt : ∀ h m k, P (h ++ [m]) → KI h k → h.length + 1 < n → KI (h ++ [m]) k ∧ E (h ++ [m]) = E h)
    (hproc : ∀ h m k s, P (h ++ [m]) → KI h k → n ≤ h.length + 1 →
      ∃ out k', Op.process ⟨runCore c n s (lastN n (h ++ [m])), k⟩ = .ok (out, k') ∧ KI (h ++ [m]) k' ∧
        E (h ++ [m]) = E h ++ (msgsOn o1 out).map π)
    (k0 : Kind V) (h0 : KI [] k0) (ms : List (Msg V)) (hp : P ms) :
    ∃ outs o', feedOp ⟨winCore c n s0 [], k0⟩ i1 ms = .ok outs o' ∧ (emittedOn o1 outs).map π = E ms := by
  obtain ⟨outs, o', h1, h2, _⟩ := feed_inv (p := i1) hP π (fun h o => ∃ s k, o = ⟨winCore c n s h, k⟩ ∧ KI h k) E hE0 (by
    rintro h o m hp ⟨s, k, rfl, hk⟩
    by_cases hl : h.length + 1 < n
    · obtain ⟨a, b⟩ := hlt h m k hp hk hl
      refine ⟨[], ⟨winCore c n (nextSum n s h m) (h ++ [m]), k⟩, ?_, ⟨_, _, rfl, a⟩, by simp [b, msgsOn]⟩
      rw [step_window (hK h k hk) hn, if_pos hl]
    · obtain ⟨out, k', h1, h2, h3⟩ := hproc h m k (nextSum n s h m) hp hk (by omega)
      refine ⟨out, ⟨winCore c n (nextSum n s h m) (h ++ [m]), k'⟩, ?_, ⟨_, _, rfl, h2⟩, h3⟩
      rw [step_window (hK h k hk) hn, if_neg hl, runCore_eq, h1]) ⟨winCore c n s0 [], k0⟩ ⟨_, _, rfl, h0⟩ ms hp
  exact ⟨outs, o', h1, h2⟩

/-! ## Grids -/

theorem gridUpTo_append {t0 dt t t' : Nat} (h : t ≤ t') :
    gridUpTo t0 dt t' = gridUpTo t0 dt t ++
      (List.range ((t' - t0) / dt - (t - t0) / dt)).map fun k => t0 + ((t - t0) / dt + k + 1) * dt := by
  unfold gridUpTo
  have hle : (t - t0) / dt ≤ (t' - t0) / dt := Nat.div_le_div_right (by omega)
  generalize (t' - t0) / dt = q' at *
  generalize (t - t0) / dt = q at *
  obtain ⟨r, rfl⟩ := Nat.exists_eq_add_of_le hle
  rw [List.range_add, List.map_append, List.map_map]
  simp [Function.comp_def]

theorem gridUpTo_self (t0 dt : Nat) : gridUpTo t0 dt t0 = [] := by simp [gridUpTo]

/-! ## Increasing histories -/

theorem Increasing.init {h : List (Msg V)} {m : Msg V} (hi : Increasing (h ++ [m])) : Increasing h :=
  List.Pairwise.sublist (List.sublist_append_left h [m]) hi

theorem Increasing.lt_last {h : List (Msg V)} {m : Msg V} (hi : Increasing (h ++ [m])) : ∀ x ∈ h, x.time.toNat < m.time.toNat := by
  intro x hx
  have := (List.pairwise_append.1 hi).2.2 x hx m (by simp)
  exact UInt64.lt_iff_toNat_lt.1 this

theorem latestAt_snoc_lt {h : List (Msg V)} {m : Msg V} {g : Nat} (hg : g < m.time.toNat) : latestAt (h ++ [m]) g = latestAt h g := by
  unfold latestAt
  rw [List.filter_append]
  simp [Nat.not_le.2 hg]

theorem latestAt_snoc_ge {h : List (Msg V)} {m : Msg V} {g : Nat} (hg : m.time.toNat ≤ g) : latestAt (h ++ [m]) g = some m := by
  unfold latestAt
  rw [List.filter_append]
  simp [hg]

end Rtbot
