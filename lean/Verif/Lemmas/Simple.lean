import Verif.Lemmas.Window

/-! # Accessors on a window state, and lifting a `processData` computation to streams -/

set_option linter.unusedSectionVars false

namespace Rtbot
open Spec
variable {V : Type} [Num V]

/-- The state in which `processData` runs: full window, port "i1" to process. -/
def runCore (c : Core V) (n : Nat) (s : V) (w : List (Msg V)) : Core V :=
  { c with dataIn := [(i1, { id := i1, max := n, sum := s, data := w })], toProcess := [i1] }

theorem runCore_eq (c : Core V) (n : Nat) (s : V) (h : List (Msg V)) :
    { winCore c n s h with toProcess := [i1] } = runCore c n s (lastN n h) := rfl

@[simp] theorem solePort_run (c : Core V) (n : Nat) (s : V) (w : List (Msg V)) : (runCore c n s w).solePort = .ok i1 := rfl

@[simp] theorem dataPort_run (c : Core V) (n : Nat) (s : V) (w : List (Msg V)) :
    (runCore c n s w).dataPort i1 = .ok { id := i1, max := n, sum := s, data := w } := by
  simp [runCore, Core.dataPort]

@[simp] theorem dataLast_run (c : Core V) (n : Nat) (s : V) (w : List (Msg V)) (m : Msg V) :
    (runCore c n s (w ++ [m])).dataLast i1 = .ok m := by
  simp [runCore, Core.dataLast]

theorem dataMsg_run (c : Core V) (n : Nat) (s : V) (w : List (Msg V)) (k : Nat) (m : Msg V) (hk : w[k]? = some m) :
    (runCore c n s w).dataMsg i1 k = .ok m := by
  have : w ≠ [] := by rintro rfl; simp at hk
  simp [runCore, Core.dataMsg, this, hk]

@[simp] theorem bind_ok {ε α β : Type} (a : α) (f : α → Except ε β) : (Except.ok a >>= f) = f a := rfl

/-- The window when the next message `m` arrives: the last `n-1` earlier messages and `m`. -/
theorem lastN_snoc {α : Type} {n : Nat} (hn : 0 < n) (h : List α) (m : α) : lastN n (h ++ [m]) = lastN (n - 1) h ++ [m] := by
  unfold lastN
  rw [List.length_append, List.length_singleton, List.drop_append_of_le_length (by omega)]
  congr 2; omega

/-- A windowed operator without further state (or with state fixed). -/
theorem computes_stateless {c : Core V} {n : Nat} (hn : 0 < n) (s0 : V) (k : Kind V) (f : List (Msg V) → Msg V → OpMsg V)
    (hK : k.isBase = true)
    (hlt : ∀ h m, h.length + 1 < n → f h m = [])
    (hproc : ∀ h m s, n ≤ h.length + 1 → Op.process ⟨runCore c n s (lastN (n - 1) h ++ [m]), k⟩ = .ok (f h m, k)) :
    Computes ⟨winCore c n s0 [], k⟩ i1 f := by
  apply computes_window' (K := fun _ => k) hn s0
  · exact fun _ => hK
  · exact fun h m hl => ⟨hlt h m hl, rfl⟩
  · intro h m s hl
    rw [runCore_eq, lastN_snoc hn]
    exact hproc h m s hl

/-- One message buffer, state `K h` after history `h`. -/
theorem computes_one {c : Core V} (s0 : V) (K : List (Msg V) → Kind V) (f : List (Msg V) → Msg V → OpMsg V)
    (hK : ∀ h, (K h).isBase = true)
    (hproc : ∀ h m s, Op.process ⟨runCore c 1 s [m], K h⟩ = .ok (f h m, K (h ++ [m]))) :
    Computes ⟨winCore c 1 s0 [], K []⟩ i1 f := by
  apply computes_window' (K := K) (by decide) s0 _ hK
  · intro h m hl; omega
  · intro h m s _
    rw [runCore_eq, lastN_snoc (by decide)]
    have : lastN (1 - 1) h = [] := by unfold lastN; simp
    rw [this]; exact hproc h m s

theorem computesOn_one {P : List (Msg V) → Prop} (hP : ∀ h m, P (h ++ [m]) → P h) {c : Core V} (s0 : V)
    (K : List (Msg V) → Kind V) (f : List (Msg V) → Msg V → OpMsg V)
    (hK : ∀ h, (K h).isBase = true)
    (hproc : ∀ h m s, P (h ++ [m]) → Op.process ⟨runCore c 1 s [m], K h⟩ = .ok (f h m, K (h ++ [m]))) :
    ComputesOn P ⟨winCore c 1 s0 [], K []⟩ i1 f := by
  apply computesOn_window' hP (K := K) (by decide) s0 _ hK
  · intro h m hl; omega
  · intro h m s hp _
    rw [runCore_eq, lastN_snoc (by decide)]
    have : lastN (1 - 1) h = [] := by unfold lastN; simp
    rw [this]; exact hproc h m s hp

@[simp] theorem dataLast_one (c : Core V) (n : Nat) (s : V) (m : Msg V) :
    (runCore c n s [m]).dataLast i1 = .ok m := by
  simp [runCore, Core.dataLast]

@[simp] theorem dataFirst_one (c : Core V) (n : Nat) (s : V) (m : Msg V) :
    (runCore c n s [m]).dataFirst i1 = .ok m := by
  simp [runCore, Core.dataFirst]

@[simp] theorem procLast_one (c : Core V) (n : Nat) (s : V) (m : Msg V) (f : Msg V → Except Err (OpMsg V × Kind V)) :
    procLast (runCore c n s [m]) f = f m := by
  simp [procLast]

theorem onO1_single (m : Msg V) : onO1 [m] = single m := by simp [onO1, single]

theorem simple1_eq (id : Str) : (Core.simple id 1 : Core V) = winCore (Core.simple id 1) 1 (Num.ofNat 0) [] :=
  simple_eq_winCore id (by decide)

end Rtbot

namespace Rtbot
open Spec
variable {V : Type} [Num V]

/-- Emitted messages when the answers do not depend on the history. -/
theorem emittedOn_answers (q : Str) (g : Msg V → OpMsg V) (h ms : List (Msg V)) :
    emittedOn q (answers (fun _ m => g m) h ms) = ms.flatMap fun m => msgsOn q (g m) := by
  induction ms generalizing h with
  | nil => rfl
  | cons m ms ih =>
    have := ih (h ++ [m])
    simp only [emittedOn, answers, List.flatMap_cons] at *
    rw [this]

theorem emittedOn_answers_filter (b : Msg V → Bool) (h ms : List (Msg V)) :
    emittedOn o1 (answers (fun _ m => if b m then [(o1, [m])] else []) h ms) = ms.filter b := by
  rw [emittedOn_answers]
  induction ms with
  | nil => rfl
  | cons m ms ih =>
    rw [List.flatMap_cons, List.filter_cons, ih]
    cases b m <;> simp [msgsOn]

/-- Three mutually exclusive and exhaustive predicates split a list. -/
theorem filter_three {α : Type} (a b c : α → Bool) (l : List α)
    (h : ∀ x, (a x = true ∧ b x = false ∧ c x = false) ∨ (a x = false ∧ b x = true ∧ c x = false) ∨
      (a x = false ∧ b x = false ∧ c x = true)) :
    (l.filter a ++ l.filter b ++ l.filter c).Perm l := by
  induction l with
  | nil => simp
  | cons x l ih =>
    rcases h x with ⟨h1, h2, h3⟩ | ⟨h1, h2, h3⟩ | ⟨h1, h2, h3⟩
    · simpa [h1, h2, h3] using ih
    · simp only [List.filter_cons, h1, h2, h3, Bool.false_eq_true, if_false, if_true]
      refine List.Perm.trans ?_ (List.Perm.cons x ih)
      rw [List.append_assoc, List.append_assoc, List.cons_append]
      exact List.perm_middle
    · simp only [List.filter_cons, h1, h2, h3, Bool.false_eq_true, if_false, if_true]
      exact List.Perm.trans List.perm_middle (List.Perm.cons x ih)

end Rtbot
