import Verif.Spec.Python
import Verif.Lemmas.SchemaProg

namespace Rtbot
open Spec
variable {V : Type}

theorem pyParams_takes {t : Str} {s : Schema} (h : (t, s) ∈ opSchemas) :
    takes (V := V) t = some (((pyParams s).filter (·.2)).map (·.1), ((pyParams s).filter (!·.2)).map fun p => (p.1, paramDefault t p.1)) := by
  simp only [opSchemas, List.mem_cons, List.not_mem_nil, or_false, Prod.mk.injEq] at h
  rcases h with ⟨rfl, rfl⟩ | ⟨rfl, rfl⟩ | ⟨rfl, rfl⟩ | ⟨rfl, rfl⟩ | ⟨rfl, rfl⟩ | ⟨rfl, rfl⟩ | ⟨rfl, rfl⟩ | ⟨rfl, rfl⟩ | ⟨rfl, rfl⟩ | ⟨rfl, rfl⟩ | ⟨rfl, rfl⟩ |
    ⟨rfl, rfl⟩ | ⟨rfl, rfl⟩ | ⟨rfl, rfl⟩ | ⟨rfl, rfl⟩ | ⟨rfl, rfl⟩ | ⟨rfl, rfl⟩ | ⟨rfl, rfl⟩ | ⟨rfl, rfl⟩ | ⟨rfl, rfl⟩ | ⟨rfl, rfl⟩ | ⟨rfl, rfl⟩ | ⟨rfl, rfl⟩ |
    ⟨rfl, rfl⟩ | ⟨rfl, rfl⟩ | ⟨rfl, rfl⟩ | ⟨rfl, rfl⟩ | ⟨rfl, rfl⟩ | ⟨rfl, rfl⟩ | ⟨rfl, rfl⟩ | ⟨rfl, rfl⟩ | ⟨rfl, rfl⟩ | ⟨rfl, rfl⟩ | ⟨rfl, rfl⟩ | ⟨rfl, rfl⟩
  all_goals rfl

theorem pyParams_no_type {s : Schema} {r : Bool} : (b!"type", r) ∉ pyParams s := by
  intro h
  unfold pyParams at h
  split at h
  · obtain ⟨p, hp, he⟩ := List.mem_map.1 h
    have := (List.mem_filter.1 hp).2
    simp only [Prod.mk.injEq] at he
    simp [he.1] at this
  · cases h

theorem takes_none {t : Str} (h : Map.find? opSchemas t = none) : takes (V := V) t = none := by
  rw [Map.find?_none_iff] at h
  have : ∀ l : List Str, (∀ x ∈ l, x ∈ opSchemas.map (·.1)) → t ∉ l := fun l hl ht => h (hl t ht)
  have h1 : ∀ x : Str, x ∈ opSchemas.map (·.1) → t ≠ x := fun x hx ht => h (ht ▸ hx)
  unfold takes
  rw [if_neg (this _ (by decide)), if_neg (this _ (by decide)), if_neg (this _ (by decide)), if_neg (this _ (by decide)), if_neg (h1 _ (by decide)),
    if_neg (this _ (by decide)), if_neg (h1 _ (by decide)), if_neg (this _ (by decide)), if_neg (h1 _ (by decide)), if_neg (h1 _ (by decide)),
    if_neg (h1 _ (by decide)), if_neg (h1 _ (by decide))]

/-- What the dictionary holds for a parameter. -/
def pyGiven (t : Str) (args : Map (Json V)) (k : Str) : Json V :=
  match args.find? k with
  | some v => v
  | none => paramDefault t k

theorem pyArgs_ok {t : Str} {args : Map (Json V)} : ∀ {ps : List (Str × Bool)} {m : Map (Json V)}, m.Sorted → (∀ k, (k, true) ∈ ps → args.find? k ≠ none) →
    ∃ m', pyArgs t args ps m = .ok m' ∧ m'.Sorted ∧
      ∀ k, m'.find? k = if k ∈ ps.map (·.1) then some (pyGiven t args k) else m.find? k := by
  intro ps
  induction ps with
  | nil => intro m hm _; exact ⟨m, rfl, hm, fun k => by simp⟩
  | cons p ps ih =>
    obtain ⟨k0, r⟩ := p
    intro m hm hr
    have step : ∀ v, v = pyGiven t args k0 → ∃ m', pyArgs t args ps (m.put k0 v) = .ok m' ∧ m'.Sorted ∧
        ∀ k, m'.find? k = if k ∈ ((k0, r) :: ps).map (·.1) then some (pyGiven t args k) else m.find? k := by
      intro v hv
      obtain ⟨m', h1, h2, h3⟩ := ih (hm.put k0 v) fun k hk => hr k (List.mem_cons_of_mem _ hk)
      refine ⟨m', h1, h2, fun k => ?_⟩
      rw [h3, List.map_cons, Map.find?_put]
      by_cases hk : k ∈ ps.map (·.1)
      · rw [if_pos hk, if_pos (List.mem_cons_of_mem _ hk)]
      · rw [if_neg hk]
        by_cases hk0 : k = k0
        · subst hk0
          rw [if_pos rfl, if_pos (List.mem_cons_self ..), hv]
        · rw [if_neg hk0, if_neg (by simp only [List.mem_cons, not_or]; exact ⟨hk0, hk⟩)]
    unfold pyArgs
    cases ha : args.find? k0 with
    | some v => exact step v (by unfold pyGiven; rw [ha])
    | none =>
      cases r with
      | true => exact absurd ha (hr k0 (List.mem_cons_self ..))
      | false => exact step _ (by unfold pyGiven; rw [ha])

theorem pyArgs_required {t : Str} {args : Map (Json V)} : ∀ {ps : List (Str × Bool)} {m m' : Map (Json V)}, pyArgs t args ps m = .ok m' →
    ∀ k, (k, true) ∈ ps → args.find? k ≠ none := by
  intro ps
  induction ps with
  | nil => intro m m' _ k hk; cases hk
  | cons p ps ih =>
    obtain ⟨k0, r⟩ := p
    intro m m' h k hk
    unfold pyArgs at h
    cases ha : args.find? k0 with
    | some v =>
      rw [ha] at h
      rcases List.mem_cons.1 hk with hk | hk
      · cases hk; rw [ha]; simp
      · exact ih h k hk
    | none =>
      rw [ha] at h
      cases r with
      | true => cases h
      | false =>
        rcases List.mem_cons.1 hk with hk | hk
        · cases hk
        · exact ih h k hk

theorem pyArgs_error {t : Str} {args : Map (Json V)} : ∀ {ps : List (Str × Bool)} {m : Map (Json V)} {e : Err}, pyArgs t args ps m = .error e →
    e = .exc .runtime := by
  intro ps
  induction ps with
  | nil => intro m e h; cases h
  | cons p ps ih =>
    obtain ⟨k0, r⟩ := p
    intro m e h
    unfold pyArgs at h
    cases ha : args.find? k0 with
    | some v => rw [ha] at h; exact ih h
    | none =>
      rw [ha] at h
      cases r with
      | true => cases h; rfl
      | false => exact ih h

end Rtbot
