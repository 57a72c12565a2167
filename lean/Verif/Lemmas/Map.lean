import Verif.Model.Base

/-! # Lemmas about strings, maps and sets -/

namespace Rtbot

theorem strLt_irrefl (a : Str) : strLt a a = false := by
  induction a with
  | nil => rfl
  | cons x xs ih => simp [strLt, ih]

theorem strLt_trans {a b c : Str} (h1 : strLt a b = true) (h2 : strLt b c = true) : strLt a c = true := by
  induction a generalizing b c with
  | nil => cases b <;> cases c <;> simp_all [strLt]
  | cons x xs ih =>
    cases b with
    | nil => simp [strLt] at h1
    | cons y ys =>
      cases c with
      | nil => simp [strLt] at h2
      | cons z zs =>
        simp only [strLt, Bool.or_eq_true, Bool.and_eq_true, decide_eq_true_eq, beq_iff_eq] at *
        rcases h1 with h1 | ⟨rfl, h1⟩
        · rcases h2 with h2 | ⟨rfl, h2⟩
          · exact Or.inl (UInt8.lt_trans h1 h2)
          · exact Or.inl h1
        · rcases h2 with h2 | ⟨rfl, h2⟩
          · exact Or.inl h2
          · exact Or.inr ⟨rfl, ih h1 h2⟩

theorem strLt_total (a b : Str) : strLt a b = true ∨ a = b ∨ strLt b a = true := by
  induction a generalizing b with
  | nil => cases b <;> simp [strLt]
  | cons x xs ih =>
    cases b with
    | nil => simp [strLt]
    | cons y ys =>
      simp only [strLt, Bool.or_eq_true, Bool.and_eq_true, decide_eq_true_eq, beq_iff_eq, List.cons.injEq]
      rcases Nat.lt_trichotomy x.toNat y.toNat with h | h | h
      · exact Or.inl (Or.inl (UInt8.lt_iff_toNat_lt.2 h))
      · have : x = y := UInt8.toNat_inj.1 h
        subst this
        rcases ih ys with h | h | h
        · exact Or.inl (Or.inr ⟨rfl, h⟩)
        · exact Or.inr (Or.inl ⟨rfl, h⟩)
        · exact Or.inr (Or.inr (Or.inr ⟨rfl, h⟩))
      · exact Or.inr (Or.inr (Or.inl (UInt8.lt_iff_toNat_lt.2 h)))

theorem strLt_ne {a b : Str} (h : strLt a b = true) : a ≠ b := by
  rintro rfl; simp [strLt_irrefl] at h

theorem strLt_asymm {a b : Str} (h : strLt a b = true) : strLt b a = false := by
  cases hb : strLt b a with
  | false => rfl
  | true => have := strLt_trans h hb; simp [strLt_irrefl] at this

namespace Map
variable {β : Type}

/-- Keys strictly increasing: the representation invariant of `std::map`. -/
def Sorted (m : Map β) : Prop := m.keys.Pairwise fun a b => strLt a b = true

@[simp] theorem find?_nil (k : Str) : find? ([] : Map β) k = none := rfl

@[simp] theorem find?_cons (k' : Str) (v : β) (m : Map β) (k : Str) :
    find? ((k', v) :: m) k = if k' = k then some v else find? m k := rfl

@[simp] theorem find?_put_self (m : Map β) (k : Str) (v : β) : (m.put k v).find? k = some v := by
  induction m with
  | nil => simp [put]
  | cons e m ih =>
    obtain ⟨k', v'⟩ := e
    simp only [put]
    split
    · simp
    · split
      · simp
      · rename_i h _; simp [h, ih]

theorem find?_put_ne (m : Map β) {k k' : Str} (v : β) (h : k' ≠ k) : (m.put k v).find? k' = m.find? k' := by
  induction m with
  | nil => simp [put, Ne.symm h]
  | cons e m ih =>
    obtain ⟨k'', v'⟩ := e
    simp only [put]
    split
    · rename_i h'; subst h'; simp [Ne.symm h]
    · split
      · simp [Ne.symm h]
      · simp [ih]

theorem find?_put (m : Map β) (k k' : Str) (v : β) :
    (m.put k v).find? k' = if k' = k then some v else m.find? k' := by
  split
  · rename_i h; subst h; simp
  · rename_i h; exact find?_put_ne m v h

theorem find?_emplace (m : Map β) (k k' : Str) (v : β) :
    (m.emplace k v).find? k' = if k' = k then some ((m.find? k).getD v) else m.find? k' := by
  unfold emplace has
  cases h : m.find? k with
  | none => simp [find?_put]
  | some w => simp only [Option.isSome_some, if_true, Option.getD_some]; split <;> simp_all

theorem find?_erase (m : Map β) (k k' : Str) :
    (m.erase k).find? k' = if k' = k then none else m.find? k' := by
  induction m with
  | nil => simp [erase]
  | cons e m ih =>
    obtain ⟨k'', v'⟩ := e
    unfold erase at *
    rw [List.filter_cons]
    by_cases h : k'' = k
    · subst h
      simp only [ne_eq, not_true_eq_false, decide_false, Bool.false_eq_true, if_false, ih]
      by_cases h2 : k' = k''
      · simp [h2]
      · simp [h2, Ne.symm h2]
    · simp only [ne_eq, h, not_false_eq_true, decide_true, if_true, find?_cons, ih]
      by_cases h2 : k'' = k'
      · subst h2; simp [h]
      · simp [h2]

theorem find?_none_iff (m : Map β) (k : Str) : m.find? k = none ↔ k ∉ m.keys := by
  induction m with
  | nil => simp [keys]
  | cons e m ih =>
    obtain ⟨k', v⟩ := e
    simp only [find?_cons, keys, List.map_cons, List.mem_cons] at *
    by_cases h : k' = k
    · simp [h]
    · simp [h, ih, Ne.symm h]

theorem find?_isSome_iff (m : Map β) (k : Str) : (m.find? k).isSome = true ↔ k ∈ m.keys := by
  have := find?_none_iff m k
  cases h : m.find? k with
  | none => simp_all
  | some v =>
    simp only [Option.isSome_some, true_iff]
    by_cases hk : k ∈ m.keys
    · exact hk
    · rw [← this, h] at hk; cases hk

theorem has_iff (m : Map β) (k : Str) : m.has k = true ↔ k ∈ m.keys := find?_isSome_iff m k

theorem keys_put_of_mem (m : Map β) {k : Str} (v : β) (hs : m.Sorted) (h : k ∈ m.keys) : (m.put k v).keys = m.keys := by
  induction m with
  | nil => simp [keys] at h
  | cons e m ih =>
    obtain ⟨k', v'⟩ := e
    simp only [put]
    by_cases hk : k' = k
    · simp [hk, keys]
    · have hm : k ∈ keys m := by
        simp only [keys, List.map_cons, List.mem_cons] at h ⊢
        rcases h with h | h
        · exact absurd h.symm hk
        · exact h
      have hlt : strLt k' k = true := by
        unfold Sorted keys at hs
        rw [List.map_cons, List.pairwise_cons] at hs
        exact hs.1 k hm
      have : strLt k k' = false := strLt_asymm hlt
      simp only [hk, if_false, this, Bool.false_eq_true]
      have hs' : Sorted m := by
        unfold Sorted keys at *
        rw [List.map_cons, List.pairwise_cons] at hs
        exact hs.2
      simp only [keys, List.map_cons]
      exact congrArg _ (ih hs' hm)

theorem mem_keys_put (m : Map β) (k k' : Str) (v : β) : k' ∈ (m.put k v).keys ↔ k' = k ∨ k' ∈ m.keys := by
  rw [← find?_isSome_iff, ← find?_isSome_iff, find?_put]
  split <;> simp_all

theorem Sorted.put {m : Map β} (hs : m.Sorted) (k : Str) (v : β) : (m.put k v).Sorted := by
  induction m with
  | nil => simp [Map.put, Sorted, keys]
  | cons e m ih =>
    obtain ⟨k', v'⟩ := e
    have hs0 := hs
    unfold Sorted keys at hs
    rw [List.map_cons, List.pairwise_cons] at hs
    obtain ⟨h1, h2⟩ := hs
    simp only [Map.put]
    split
    · rename_i h; subst h; exact hs0
    · split
      · rename_i h hlt
        unfold Sorted keys
        simp only [List.map_cons, List.pairwise_cons]
        refine ⟨?_, h1, h2⟩
        intro b hb
        rcases List.mem_cons.1 hb with rfl | hb
        · exact hlt
        · exact strLt_trans hlt (h1 b hb)
      · rename_i h hlt
        unfold Sorted keys
        simp only [List.map_cons, List.pairwise_cons]
        refine ⟨?_, ih h2⟩
        intro b hb
        rcases (mem_keys_put m k b v).1 hb with rfl | hb
        · rcases strLt_total k' b with h3 | h3 | h3
          · exact h3
          · exact absurd h3 h
          · exact absurd h3 hlt
        · exact h1 b hb

theorem Sorted.emplace {m : Map β} (hs : m.Sorted) (k : Str) (v : β) : (m.emplace k v).Sorted := by
  unfold Map.emplace; split
  · exact hs
  · exact hs.put k v

theorem Sorted.erase {m : Map β} (hs : m.Sorted) (k : Str) : (m.erase k).Sorted := by
  unfold Sorted keys Map.erase at *
  exact hs.sublist (List.filter_sublist.map _)

theorem Sorted.nil : Sorted ([] : Map β) := List.Pairwise.nil

theorem Sorted.tail {e : Str × β} {m : Map β} (hs : Sorted (e :: m)) : m.Sorted := by
  unfold Sorted keys at *; rw [List.map_cons, List.pairwise_cons] at hs; exact hs.2

theorem Sorted.head_lt {e : Str × β} {m : Map β} (hs : Sorted (e :: m)) {k : Str} (hk : k ∈ m.keys) : strLt e.1 k = true := by
  unfold Sorted keys at hs; rw [List.map_cons, List.pairwise_cons] at hs; exact hs.1 k hk

/-- Two sorted maps with the same lookups are equal. -/
theorem Sorted.ext {m1 m2 : Map β} (h1 : m1.Sorted) (h2 : m2.Sorted) (h : ∀ k, m1.find? k = m2.find? k) : m1 = m2 := by
  induction m1 generalizing m2 with
  | nil =>
    cases m2 with
    | nil => rfl
    | cons e m2 => have := h e.1; obtain ⟨a, b⟩ := e; simp at this
  | cons e1 m1 ih =>
    cases m2 with
    | nil => have := h e1.1; obtain ⟨a, b⟩ := e1; simp at this
    | cons e2 m2 =>
      obtain ⟨k1, v1⟩ := e1
      obtain ⟨k2, v2⟩ := e2
      have hk : k1 = k2 := by
        rcases strLt_total k1 k2 with hlt | heq | hlt
        · have := h k1
          simp only [find?_cons, if_true] at this
          rw [if_neg (fun h => strLt_ne hlt h.symm)] at this
          have hm : k1 ∈ keys m2 := (find?_isSome_iff _ _).1 (by rw [← this]; rfl)
          have h3 : strLt k2 k1 = true := h2.head_lt hm
          rw [strLt_asymm hlt] at h3; cases h3
        · exact heq
        · have := h k2
          simp only [find?_cons, if_true] at this
          rw [if_neg (fun h => strLt_ne hlt h.symm)] at this
          have hm : k2 ∈ keys m1 := (find?_isSome_iff _ _).1 (by rw [this]; rfl)
          have h3 : strLt k1 k2 = true := h1.head_lt hm
          rw [strLt_asymm hlt] at h3; cases h3
      subst hk
      have hv : v1 = v2 := by have := h k1; simpa using this
      subst hv
      congr 1
      apply ih h1.tail h2.tail
      intro k
      have := h k
      simp only [find?_cons] at this
      by_cases hk : k1 = k
      · subst hk
        have n1 : find? m1 k1 = none := by
          rw [find?_none_iff]; intro hm; have h3 : strLt k1 k1 = true := h1.head_lt hm; simp [strLt_irrefl] at h3
        have n2 : find? m2 k1 = none := by
          rw [find?_none_iff]; intro hm; have h3 : strLt k1 k1 = true := h2.head_lt hm; simp [strLt_irrefl] at h3
        rw [n1, n2]
      · simpa [hk] using this

end Map

theorem mem_setInsert (s : List Str) (k k' : Str) : k' ∈ setInsert s k ↔ k' = k ∨ k' ∈ s := by
  induction s with
  | nil => simp [setInsert]
  | cons a s ih =>
    simp only [setInsert]
    split
    · rename_i h; subst h; simp
    · split
      · simp
      · simp only [List.mem_cons, ih]
        constructor
        · rintro (h | h | h) <;> simp_all
        · rintro (h | h | h) <;> simp_all

/-- Representation invariant of `std::set`. -/
def SetSorted (s : List Str) : Prop := s.Pairwise fun a b => strLt a b = true

theorem SetSorted.insert {s : List Str} (hs : SetSorted s) (k : Str) : SetSorted (setInsert s k) := by
  induction s with
  | nil => simp [setInsert, SetSorted]
  | cons a s ih =>
    have hs0 := hs
    unfold SetSorted at hs
    rw [List.pairwise_cons] at hs
    simp only [setInsert]
    split
    · exact hs0
    · split
      · rename_i h hlt
        refine List.pairwise_cons.2 ⟨?_, hs0⟩
        intro b hb
        rcases List.mem_cons.1 hb with rfl | hb
        · exact hlt
        · exact strLt_trans hlt (hs.1 b hb)
      · rename_i h hlt
        refine List.pairwise_cons.2 ⟨?_, ih hs.2⟩
        intro b hb
        rcases (mem_setInsert s k b).1 hb with rfl | hb
        · rcases strLt_total a b with h3 | h3 | h3
          · exact h3
          · exact absurd h3 h
          · exact absurd h3 hlt
        · exact hs.1 b hb

end Rtbot
