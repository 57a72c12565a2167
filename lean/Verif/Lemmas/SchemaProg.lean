import Verif.Lemmas.Schema

set_option linter.unusedSectionVars false

/-! # Accepted descriptions of operators and programs -/

namespace Rtbot
variable {V : Type}
open Spec

/-! ## One operator out of the list -/

theorem count_zero {l : List Schema} {j : Json V} (h : ∀ s ∈ l, s.accepts j = false) : Schema.count l j = 0 := by
  induction l with
  | nil => rfl
  | cons s l ih =>
    rw [Schema.count, h s List.mem_cons_self, ih fun s hs => h s (List.mem_cons_of_mem _ hs)]
    rfl

theorem count_one {l : List (Str × Schema)} {j : Json V} (hn : (l.map (·.1)).Nodup) (h : ∀ t s, (t, s) ∈ l → s.accepts j = true → HasType j t) :
    Schema.count (l.map (·.2)) j = 1 ↔ ∃ t s, (t, s) ∈ l ∧ s.accepts j = true := by
  induction l with
  | nil => simp [Schema.count]
  | cons e l ih =>
    obtain ⟨t, s⟩ := e
    rw [List.map_cons, List.nodup_cons] at hn
    rw [List.map_cons, Schema.count]
    by_cases hs : s.accepts j = true
    · have h0 : Schema.count (l.map (·.2)) j = 0 := by
        refine count_zero fun s' hs' => ?_
        obtain ⟨⟨t', s''⟩, hm, rfl⟩ := List.mem_map.1 hs'
        rw [Bool.eq_false_iff]
        intro hc
        have h1 := h t' s'' (List.mem_cons_of_mem _ hm) hc
        have h2 := h t s List.mem_cons_self hs
        have := h1.unique h2
        cases this
        exact hn.1 (List.mem_map.2 ⟨_, hm, rfl⟩)
      dsimp only
      rw [if_pos hs, h0]
      exact ⟨fun _ => ⟨t, s, List.mem_cons_self, hs⟩, fun _ => rfl⟩
    · dsimp only
      rw [if_neg hs, Nat.zero_add, ih hn.2 fun t s hm => h t s (List.mem_cons_of_mem _ hm)]
      constructor
      · rintro ⟨t', s', h1, h2⟩; exact ⟨t', s', List.mem_cons_of_mem _ h1, h2⟩
      · rintro ⟨t', s', h1, h2⟩
        rcases List.mem_cons.1 h1 with h1 | h1
        · cases h1; exact absurd h2 hs
        · exact ⟨t', s', h1, h2⟩

theorem opSchemas_nodup : (opSchemas.map (·.1)).Nodup := by decide

theorem doc_listed {j : Json V} {t : Str} (h : DocParams j t) : t ∈ opSchemas.map (·.1) := by
  rcases docParams_inv h with h | ⟨h, _⟩ | ⟨h, _⟩ | ⟨h, _⟩ | ⟨h, _⟩ | ⟨h, _⟩ | ⟨h, _⟩ | ⟨h, _⟩ | ⟨h, _⟩ | ⟨h, _⟩ | ⟨h, _⟩ | ⟨h, _⟩ |
    ⟨h, _⟩ | ⟨h, _⟩ | ⟨h, _⟩
  case inl => exact (by decide : ∀ t ∈ _, t ∈ opSchemas.map (·.1)) t h
  all_goals first
    | (rw [h]; decide)
    | exact (by decide : ∀ t ∈ _, t ∈ opSchemas.map (·.1)) t h

theorem oneOf_iff {j : Json V} : (Schema.oneOf (opSchemas.map (·.2))).accepts j = true ↔ ∃ t, DocOp j t := by
  rw [Schema.accepts, beq_iff_eq, count_one opSchemas_nodup fun t s hm hs => ((opSchemas_iff hm).1 hs).type]
  constructor
  · rintro ⟨t, s, h1, h2⟩; exact ⟨t, (opSchemas_iff h1).1 h2⟩
  · rintro ⟨t, h⟩
    obtain ⟨⟨t', s⟩, h1, h2⟩ := List.mem_map.1 (doc_listed h.params)
    cases h2
    exact ⟨_, s, h1, (opSchemas_iff h1).2 h⟩

theorem opSchemas_find {t : Str} {s : Schema} (h : Map.find? opSchemas t = some s) : (t, s) ∈ opSchemas := by
  have : ∀ l : List (Str × Schema), Map.find? l t = some s → (t, s) ∈ l := by
    intro l
    induction l with
    | nil => intro h; cases h
    | cons e l ih =>
      obtain ⟨k, x⟩ := e
      intro h
      unfold Map.find? at h
      split at h
      · rename_i hk; cases h; rw [hk]; exact List.mem_cons_self
      · exact List.mem_cons_of_mem _ (ih h)
  exact this _ h

theorem opSchemas_known {t : Str} (h : t ∈ opSchemas.map (·.1)) : ∃ s, Map.find? opSchemas t = some s := by
  have : ∀ l : List (Str × Schema), t ∈ l.map (·.1) → ∃ s, Map.find? l t = some s := by
    intro l
    induction l with
    | nil => intro h; cases h
    | cons e l ih =>
      obtain ⟨k, x⟩ := e
      intro h
      unfold Map.find?
      split
      · exact ⟨x, rfl⟩
      · rename_i hk
        rw [List.map_cons, List.mem_cons] at h
        exact ih (h.resolve_left fun he => hk he.symm)
  exact this _ h

/-! ## Connections -/

theorem connSchema_iff {j : Json V} : connSchema.accepts j = true ↔ DocConn j := by
  have hnd : ∀ m : Map (Json V), (m.all fun e => [(b!"from", Schema.string), (b!"to", .string), (b!"fromPort", .string), (b!"toPort", .string)].any
      fun p => p.1 == e.1) = true ↔ ∀ k ∈ Map.keys m, k ∈ [b!"from", b!"to", b!"fromPort", b!"toPort"] := by
    intro m
    simp only [List.all_eq_true, Map.keys, List.mem_map, List.any_cons, List.any_nil, Bool.or_false, Bool.or_eq_true, beq_iff_eq, List.mem_cons,
      List.not_mem_nil, or_false]
    constructor
    · rintro h k ⟨e, he, rfl⟩
      rcases h e he with h | h | h | h <;> simp [← h]
    · intro h e he
      rcases h e.1 ⟨e, he, rfl⟩ with h | h | h | h <;> simp [h]
  have mem : ∀ {m : Map (Json V)} {k : Str} {x : Json V}, Map.find? m k = some x ↔ Member (.obj m) k x := fun {m k x} =>
    ⟨fun h => ⟨m, rfl, h⟩, fun ⟨m', h1, h2⟩ => by cases h1; exact h2⟩
  have has : ∀ {m : Map (Json V)} {k : Str}, Map.has m k = true ↔ ∃ x, Member (.obj m) k x := fun {m k} => by
    unfold Map.has
    rw [Option.isSome_iff_exists]
    exact exists_congr fun x => mem
  cases j with
  | obj m =>
    unfold connSchema
    rw [Schema.accepts]
    rw [Bool.and_eq_true, Bool.and_eq_true, members_iff, Bool.false_or, hnd]
    simp only [List.all_cons, List.all_nil, Bool.and_true, Bool.and_eq_true, has]
    constructor
    · rintro ⟨⟨h1, h2, h3⟩, h4⟩
      have one : ∀ k, (k, Schema.string) ∈ [(b!"from", Schema.string), (b!"to", .string), (b!"fromPort", .string), (b!"toPort", .string)] →
          May (.obj m) k IsText := fun k hk x hx => text_iff.1 (h1 k _ hk x (mem.2 hx))
      obtain ⟨x, hx⟩ := h2
      obtain ⟨y, hy⟩ := h3
      exact ⟨⟨x, hx, one _ (by simp) x hx⟩, ⟨y, hy, one _ (by simp) y hy⟩, one _ (by simp), one _ (by simp), fun m' he => by cases he; exact h4⟩
    · rintro ⟨⟨x, hx, hx'⟩, ⟨y, hy, hy'⟩, h3, h4, h5⟩
      refine ⟨⟨?_, ⟨x, hx⟩, ⟨y, hy⟩⟩, h5 m rfl⟩
      intro k s hm z hz
      have hz := mem.1 hz
      simp only [List.mem_cons, List.not_mem_nil, or_false, Prod.mk.injEq] at hm
      rcases hm with ⟨rfl, rfl⟩ | ⟨rfl, rfl⟩ | ⟨rfl, rfl⟩ | ⟨rfl, rfl⟩
      · cases hz.unique hx; exact text_iff.2 hx'
      · cases hz.unique hy; exact text_iff.2 hy'
      · exact text_iff.2 (h3 z hz)
      · exact text_iff.2 (h4 z hz)
  | _ =>
    constructor
    · intro h; cases h
    · rintro ⟨⟨x, hx, _⟩, _⟩
      obtain ⟨m, hm⟩ := member_obj hx
      cases hm

/-! ## Programs -/

theorem keyPattern_iff {k : Str} : keyPattern k = true ↔ Checked k := by
  unfold keyPattern Checked
  simp only [Bool.and_eq_true, List.all_eq_true, Bool.or_eq_true, decide_eq_true_eq, beq_iff_eq, Bool.not_eq_true', List.isEmpty_eq_false_iff, or_assoc]

theorem output_iff {x : Json V} : (Schema.dict keyPattern (.array .string 0 none)).accepts x = true ↔
    ∃ m, x = .obj m ∧ ∀ k y, (k, y) ∈ m → Checked k → ListOf IsText y := by
  have hl : ∀ y : Json V, (Schema.array .string 0 none).accepts y = true ↔ ListOf IsText y := fun y =>
    (array_iff fun x => text_iff).trans ⟨fun h => h.1, fun h => ⟨h, Nat.zero_le _⟩⟩
  cases x with
  | obj m =>
    rw [Schema.accepts]
    simp only [List.all_eq_true, Bool.or_eq_true, Bool.not_eq_true']
    constructor
    · intro h
      refine ⟨m, rfl, fun k y hm hc => ?_⟩
      rcases h (k, y) hm with h | h
      · rw [keyPattern_iff.2 hc] at h; cases h
      · exact (hl y).1 h
    · rintro ⟨m', he, h⟩ ⟨k, y⟩ hm
      cases he
      by_cases hc : keyPattern k = true
      · exact Or.inr ((hl y).2 (h k y hm (keyPattern_iff.1 hc)))
      · exact Or.inl (Bool.eq_false_iff.2 hc)
  | _ => simp [Schema.accepts]

theorem twoDigits_iff {a b : UInt8} {n : Nat} :
    twoDigits a b = some n ↔ ∃ x y, x ≤ 9 ∧ y ≤ 9 ∧ a = digit x ∧ b = digit y ∧ n = x * 10 + y := by
  have hd : ∀ c : UInt8, 48 ≤ c → c ≤ 57 → c = digit (c.toNat - 48) := by
    intro c h1 h2
    have h1' : 48 ≤ c.toNat := h1
    unfold digit
    rw [Nat.add_sub_cancel' h1', UInt8.ofNat_toNat]
  have hr : ∀ x, x ≤ 9 → 48 ≤ digit x ∧ digit x ≤ 57 ∧ (digit x).toNat - 48 = x := by decide
  unfold twoDigits
  constructor
  · intro h
    split at h
    · rename_i hc
      cases h
      have h1 : a.toNat ≤ 57 := hc.2.1
      have h2 : b.toNat ≤ 57 := hc.2.2.2
      exact ⟨_, _, by omega, by omega, hd a hc.1 hc.2.1, hd b hc.2.2.1 hc.2.2.2, rfl⟩
    · cases h
  · rintro ⟨x, y, hx, hy, rfl, rfl, rfl⟩
    obtain ⟨h1, h2, h3⟩ := hr x hx
    obtain ⟨h4, h5, h6⟩ := hr y hy
    rw [if_pos ⟨h1, h2, h4, h5⟩, h3, h6]

theorem monthDays_iff {y m n : Nat} : (1 ≤ m ∧ (monthLengths y)[m - 1]? = some n) ↔ 1 ≤ m ∧ m ≤ 12 ∧ n = monthDays y m := by
  have hleap : (400 ∣ y ∨ 4 ∣ y ∧ ¬ 100 ∣ y) ↔ ((y % 4 = 0 ∧ y % 100 ≠ 0) ∨ y % 400 = 0) := by omega
  by_cases h : 1 ≤ m ∧ m ≤ 12
  · have : m = 1 ∨ m = 2 ∨ m = 3 ∨ m = 4 ∨ m = 5 ∨ m = 6 ∨ m = 7 ∨ m = 8 ∨ m = 9 ∨ m = 10 ∨ m = 11 ∨ m = 12 := by omega
    rcases this with rfl | rfl | rfl | rfl | rfl | rfl | rfl | rfl | rfl | rfl | rfl | rfl <;>
      simp [monthLengths, monthDays, hleap, eq_comm]
  · constructor
    · rintro ⟨h1, h2⟩
      have : m - 1 < 12 := (List.getElem?_eq_some_iff.1 h2).1
      omega
    · rintro ⟨h1, h2, _⟩
      exact absurd ⟨h1, h2⟩ h

theorem isDate_iff {s : Str} : isDate s = true ↔ ∃ a b c d e f g h hi lo m day, s = [a, b, c, d, 45, e, f, 45, g, h] ∧ twoDigits a b = some hi ∧
    twoDigits c d = some lo ∧ twoDigits e f = some m ∧ twoDigits g h = some day ∧ 1 ≤ m ∧ m ≤ 12 ∧ 1 ≤ day ∧ day ≤ monthDays (hi * 100 + lo) m := by
  unfold isDate
  split
  · rename_i a b c d e f g h
    constructor
    · intro hh
      split at hh
      · rename_i hi lo m day h1 h2 h3 h4
        obtain ⟨k1, k2, k3, k4⟩ := of_decide_eq_true hh
        exact ⟨_, _, _, _, _, _, _, _, hi, lo, m, day, rfl, h1, h2, h3, h4, k1, k2, k3, k4⟩
      · cases hh
    · rintro ⟨a', b', c', d', e', f', g', h', hi, lo, m, day, hs, h1, h2, h3, h4, k1, k2, k3, k4⟩
      cases hs
      rw [h1, h2, h3, h4]
      exact decide_eq_true ⟨k1, k2, k3, k4⟩
  · rename_i hn
    constructor
    · intro h; cases h
    · rintro ⟨a, b, c, d, e, f, g, h, hi, lo, m, day, rfl, _⟩
      exact absurd rfl (hn _ _ _ _ _ _ _ _)

theorem date_iff {x : Json V} : Schema.date.accepts x = true ↔ IsDate x := by
  unfold IsDate
  constructor
  · intro h
    cases x with
    | str s =>
      rw [Schema.accepts] at h
      obtain ⟨a, b, c, d, e, f, g, h, hi, lo, m, day, rfl, h1, h2, h3, h4, k1, k2, k3, k4⟩ := isDate_iff.1 h
      obtain ⟨y1, y2, _, _, rfl, rfl, rfl⟩ := twoDigits_iff.1 h1
      obtain ⟨y3, y4, _, _, rfl, rfl, rfl⟩ := twoDigits_iff.1 h2
      obtain ⟨m1, m2, _, _, rfl, rfl, rfl⟩ := twoDigits_iff.1 h3
      obtain ⟨d1, d2, _, _, rfl, rfl, rfl⟩ := twoDigits_iff.1 h4
      have he : y1 * 1000 + y2 * 100 + y3 * 10 + y4 = (y1 * 10 + y2) * 100 + (y3 * 10 + y4) := by omega
      refine ⟨y1, y2, y3, y4, m1, m2, d1, d2, monthDays ((y1 * 10 + y2) * 100 + (y3 * 10 + y4)) (m1 * 10 + m2), rfl, ?_, k1, ?_, k3, k4⟩
      · simp only [List.mem_cons, List.not_mem_nil, or_false]
        rintro d (rfl | rfl | rfl | rfl | rfl | rfl | rfl | rfl) <;> assumption
      · rw [he]; exact (monthDays_iff.2 ⟨k1, k2, rfl⟩).2
    | _ => cases h
  · rintro ⟨y1, y2, y3, y4, m1, m2, d1, d2, n, rfl, hd, k1, k2, k3, k4⟩
    rw [Schema.accepts]
    obtain ⟨_, k5, rfl⟩ := monthDays_iff.1 ⟨k1, k2⟩
    have he : y1 * 1000 + y2 * 100 + y3 * 10 + y4 = (y1 * 10 + y2) * 100 + (y3 * 10 + y4) := by omega
    rw [he] at k4
    exact isDate_iff.2 ⟨_, _, _, _, _, _, _, _, _, _, _, _, rfl, twoDigits_iff.2 ⟨y1, y2, hd _ (by simp), hd _ (by simp), rfl, rfl, rfl⟩,
      twoDigits_iff.2 ⟨y3, y4, hd _ (by simp), hd _ (by simp), rfl, rfl, rfl⟩, twoDigits_iff.2 ⟨m1, m2, hd _ (by simp), hd _ (by simp), rfl, rfl, rfl⟩,
      twoDigits_iff.2 ⟨d1, d2, hd _ (by simp), hd _ (by simp), rfl, rfl, rfl⟩, k1, k5, k3, k4⟩

theorem listOf_iff {s : Schema} {P : Json V → Prop} (hs : ∀ x : Json V, s.accepts x = true ↔ P x) {x : Json V} :
    (Schema.array s 0 none).accepts x = true ↔ ListOf P x :=
  (array_iff hs).trans ⟨fun h => h.1, fun h => ⟨h, Nat.zero_le _⟩⟩

theorem programSchema_iff {j : Json V} : programSchema.accepts j = true ↔ DocProgram j := by
  have hops : ∀ x : Json V, (Schema.array (.oneOf (opSchemas.map (·.2))) 0 none).accepts x = true ↔ ListOf (fun x => ∃ t, DocOp x t) x :=
    fun x => listOf_iff fun x => oneOf_iff
  have hcs : ∀ x : Json V, (Schema.array connSchema 0 none).accepts x = true ↔ ListOf DocConn x := fun x => listOf_iff fun x => connSchema_iff
  unfold programSchema
  rw [object_iff]
  generalize Schema.array (.oneOf (opSchemas.map (·.2))) 0 none = sops at hops
  generalize Schema.array connSchema 0 none = scs at hcs
  constructor
  · rintro ⟨_, h1, h2⟩
    refine ⟨?_, ?_, ?_, ?_, ?_, ?_, ?_⟩
    · exact (needs_iff fun x => text_iff).1 ⟨h1 _ _ (by simp), h2 _ (by simp)⟩
    · exact (needs_iff hops).1 ⟨h1 _ _ (by simp), h2 _ (by simp)⟩
    · exact (needs_iff hcs).1 ⟨h1 _ _ (by simp), h2 _ (by simp)⟩
    · intro x hx
      exact output_iff.1 (h1 b!"output" _ (by simp) x hx)
    · intro k hk x hx
      refine text_iff.1 (h1 k _ ?_ x hx)
      simp only [List.mem_cons, List.not_mem_nil, or_false] at hk
      rcases hk with rfl | rfl | rfl | rfl <;> simp
    · intro x hx
      obtain ⟨s, hs, rfl⟩ := enum_iff.1 (h1 b!"apiVersion" (.enum [b!"v1"]) (by simp) x hx)
      simp only [List.mem_singleton] at hs
      rw [hs]
    · intro x hx
      exact date_iff.1 (h1 b!"date" .date (by simp) x hx)
  · intro h
    obtain ⟨e, he, he'⟩ := h.entry
    obtain ⟨os, ho, ho'⟩ := h.operators
    obtain ⟨cs, hc, hc'⟩ := h.connections
    refine ⟨member_obj he, ?_, ?_⟩
    · intro k s hm x hx
      simp only [List.mem_cons, List.not_mem_nil, or_false, Prod.mk.injEq] at hm
      rcases hm with ⟨rfl, rfl⟩ | ⟨rfl, rfl⟩ | ⟨rfl, rfl⟩ | ⟨rfl, rfl⟩ | ⟨rfl, rfl⟩ | ⟨rfl, rfl⟩ | ⟨rfl, rfl⟩ | ⟨rfl, rfl⟩ | ⟨rfl, rfl⟩ | ⟨rfl, rfl⟩
      · exact text_iff.2 (h.texts _ (by simp) x hx)
      · exact text_iff.2 (h.texts _ (by simp) x hx)
      · exact date_iff.2 (h.date x hx)
      · exact enum_iff.2 ⟨_, by simp, h.version x hx⟩
      · exact text_iff.2 (h.texts _ (by simp) x hx)
      · exact text_iff.2 (h.texts _ (by simp) x hx)
      · cases hx.unique he; exact text_iff.2 he'
      · exact output_iff.2 (h.output x hx)
      · cases hx.unique ho; exact (hops _).2 ho'
      · cases hx.unique hc; exact (hcs _).2 hc'
    · intro k hk
      simp only [List.mem_cons, List.not_mem_nil, or_false] at hk
      rcases hk with rfl | rfl | rfl
      · exact ⟨_, ho⟩
      · exact ⟨_, hc⟩
      · exact ⟨_, he⟩

end Rtbot
