import Verif.Spec.Python
import Verif.Lemmas.SchemaProg

namespace Rtbot
open Spec
variable {V : Type}

theorem member_iff {m : Map (Json V)} {k : Str} {x : Json V} : Member (.obj m) k x ↔ m.find? k = some x :=
  ⟨fun ⟨m', h, hx⟩ => by cases h; exact hx, fun h => ⟨m, rfl, h⟩⟩

theorem pyItem_ok {x y : Json V} {k : Str} : pyItem x k = .ok y ↔ Member x k y := by
  unfold pyItem
  cases x with
  | obj m =>
    rw [member_iff]
    dsimp only
    cases h : Map.find? m k with
    | none => exact ⟨fun h => (by cases h), fun h => (by cases h)⟩
    | some z => simp
  | _ => exact ⟨fun h => (by cases h), fun ⟨m, h, _⟩ => (by cases h)⟩

theorem pyIds_ok : ∀ {ops : List (Json V)}, (∀ x ∈ ops, ∃ id, HasId x id) → ∃ ids, pyIds ops = .ok ids ∧ ∀ s, pyMem s ids = true ↔ ∃ x ∈ ops, HasId x s := by
  intro ops
  induction ops with
  | nil => intro _; exact ⟨[], rfl, fun s => by simp [pyMem]⟩
  | cons x ops ih =>
    intro h
    obtain ⟨id, hid⟩ := h x (List.mem_cons_self ..)
    obtain ⟨ids, h1, h2⟩ := ih fun y hy => h y (List.mem_cons_of_mem _ hy)
    refine ⟨.str id :: ids, ?_, fun s => ?_⟩
    · unfold pyIds
      rw [pyItem_ok.2 hid, h1]
      rfl
    · unfold pyMem
      simp only [Bool.or_eq_true, beq_iff_eq, h2, List.mem_cons, exists_eq_or_imp]
      refine or_congr_left ⟨fun he => he ▸ hid, fun he => ?_⟩
      have := hid.unique he
      simpa using this

theorem pyValid_ok {x : Json V} : pyValid x = .ok true ↔ ∃ t, DocOp x t := by
  unfold pyValid
  constructor
  · intro h
    cases hx : pyItem x b!"type" with
    | error e => rw [hx] at h; cases h
    | ok y =>
      rw [hx] at h
      cases y with
      | str t =>
        have h : Except.ok (match Map.find? opSchemas t with | none => false | some s => s.accepts x) = (Except.ok true : Except Err Bool) := h
        cases hf : Map.find? opSchemas t with
        | none => rw [hf] at h; cases h
        | some s =>
          rw [hf] at h
          simp only [Except.ok.injEq] at h
          exact ⟨t, (opSchemas_iff (opSchemas_find hf)).1 h⟩
      | _ => cases h
  · rintro ⟨t, h⟩
    rw [pyItem_ok.2 h.type]
    show Except.ok (match Map.find? opSchemas t with | none => false | some s => s.accepts x) = (Except.ok true : Except Err Bool)
    cases hf : Map.find? opSchemas t with
    | none =>
      rw [Map.find?_none_iff] at hf
      exact absurd (doc_listed h.params) hf
    | some s => exact congrArg _ ((opSchemas_iff (opSchemas_find hf)).2 h)

variable [Num V]

theorem find_pySetIf (x y : Json V) (k k' : Str) (m : Map (Json V)) :
    (pySetIf x k y m).find? k' = if k' = k ∧ pyTruthy x = true then some y else m.find? k' := by
  unfold pySetIf
  by_cases h : pyTruthy x = true
  · rw [if_pos h, Map.find?_put]
    simp [h]
  · rw [if_neg h, if_neg fun hc => h hc.2]

theorem sorted_pySetIf (x y : Json V) (k : Str) {m : Map (Json V)} (h : Map.Sorted m) : Map.Sorted (pySetIf x k y m) := by
  unfold pySetIf
  split
  · exact h.put _ _
  · exact h

/-- The members of the description. -/
theorem toJson_member (p : PyProgram V) (k : Str) (x : Json V) : Member p.toJson k x ↔
    k = b!"entryOperator" ∧ pyTruthy p.date = true ∧ p.entryOperator = x ∨ k = b!"date" ∧ pyTruthy p.date = true ∧ p.date = x ∨
    k = b!"license" ∧ pyTruthy p.license = true ∧ p.license = x ∨ k = b!"description" ∧ pyTruthy p.description = true ∧ p.description = x ∨
    k = b!"author" ∧ pyTruthy p.author = true ∧ p.author = x ∨ k = b!"title" ∧ pyTruthy p.title = true ∧ p.title = x ∨
    k = b!"apiVersion" ∧ p.apiVersion = x ∨ k = b!"connections" ∧ p.connections = x ∨ k = b!"operators" ∧ p.operators = x := by
  unfold PyProgram.toJson
  rw [member_iff]
  simp only [find_pySetIf]
  have hb : ∀ (k : Str) (x : Json V), Map.find? [(b!"apiVersion", p.apiVersion), (b!"connections", p.connections), (b!"operators", p.operators)] k = some x ↔
      k = b!"apiVersion" ∧ p.apiVersion = x ∨ k = b!"connections" ∧ p.connections = x ∨ k = b!"operators" ∧ p.operators = x := by
    intro k x
    simp only [Map.find?]
    constructor
    · intro h
      split at h
      · next hk => cases h; exact Or.inl ⟨by simpa using hk.symm, rfl⟩
      · split at h
        · next hk => cases h; exact Or.inr (Or.inl ⟨by simpa using hk.symm, rfl⟩)
        · split at h
          · next hk => cases h; exact Or.inr (Or.inr ⟨by simpa using hk.symm, rfl⟩)
          · cases h
    · rintro (⟨rfl, rfl⟩ | ⟨rfl, rfl⟩ | ⟨rfl, rfl⟩) <;> rfl
  by_cases h1 : k = b!"entryOperator"
  · subst h1
    by_cases hd : pyTruthy p.date = true <;> simp [hd, hb]
  by_cases h2 : k = b!"date"
  · subst h2
    by_cases hd : pyTruthy p.date = true <;> simp [hd, hb]
  by_cases h3 : k = b!"license"
  · subst h3
    by_cases hd : pyTruthy p.license = true <;> simp [hd, hb]
  by_cases h4 : k = b!"description"
  · subst h4
    by_cases hd : pyTruthy p.description = true <;> simp [hd, hb]
  by_cases h5 : k = b!"author"
  · subst h5
    by_cases hd : pyTruthy p.author = true <;> simp [hd, hb]
  by_cases h6 : k = b!"title"
  · subst h6
    by_cases hd : pyTruthy p.title = true <;> simp [hd, hb]
  simp only [h1, h2, h3, h4, h5, h6, false_and, if_false, false_or, hb]

end Rtbot
