import Verif.Lemmas.SchemaProg
import Verif.Spec.Redis

/-! # Lemmas: the schema of the Redis module -/

namespace Rtbot
open Spec
variable {V : Type}

theorem closed_iff {props : List (Str × Schema)} {req : List Str} {j : Json V} :
    (Schema.object props req false).accepts j = true ↔ (Schema.object props req true).accepts j = true ∧ OnlyKeys j (props.map (·.1)) := by
  cases j with
  | obj m =>
    rw [Schema.accepts, Schema.accepts]
    simp only [Bool.false_or, Bool.true_or, Bool.and_true, Bool.and_eq_true, List.all_eq_true, List.any_eq_true, beq_iff_eq, and_congr_right_iff, OnlyKeys, Map.keys,
      List.mem_map]
    intro _
    constructor
    · rintro h
      refine ⟨m, rfl, ?_⟩
      rintro k ⟨e, he, rfl⟩
      obtain ⟨p, hp, hpe⟩ := h e he
      exact ⟨p, hp, hpe⟩
    · rintro ⟨m', hm, h⟩ e he
      cases hm
      obtain ⟨p, hp, hpe⟩ := h e.1 ⟨e, he, rfl⟩
      exact ⟨p, hp, hpe⟩
  | _ => simp [Schema.accepts]

theorem may_iff {j : Json V} {k : Str} {s : Schema} {P : Json V → Prop} (hs : ∀ x : Json V, s.accepts x = true ↔ P x) :
    (∀ x, Member j k x → s.accepts x = true) ↔ May j k P := forall_congr' fun x => imp_congr_right fun _ => hs x

theorem redisRange_iff {x : Json V} : (Schema.object [(b!"min", .number), (b!"max", .number)] [] false).accepts x = true ↔
    OnlyKeys x [b!"min", b!"max"] ∧ May x b!"min" IsNumber ∧ May x b!"max" IsNumber := by
  rw [closed_iff, object_iff, ← may_iff fun x => number_iff, ← may_iff fun x => number_iff]
  constructor
  · rintro ⟨⟨_, h1, _⟩, h2⟩
    exact ⟨h2, h1 _ _ (by simp), h1 _ _ (by simp)⟩
  · rintro ⟨h1, h2, h3⟩
    refine ⟨⟨?_, ?_, fun k hk => by cases hk⟩, h1⟩
    · obtain ⟨m, hm, _⟩ := h1
      exact ⟨m, hm⟩
    · intro k s hm
      simp only [List.mem_cons, List.not_mem_nil, or_false, Prod.mk.injEq] at hm
      rcases hm with ⟨rfl, rfl⟩ | ⟨rfl, rfl⟩ <;> assumption

theorem redisOptim_iff {x : Json V} :
    (Schema.object [(b!"range", .object [(b!"min", .number), (b!"max", .number)] [] false)] [] false).accepts x = true ↔
      OnlyKeys x [b!"range"] ∧ May x b!"range" fun y => OnlyKeys y [b!"min", b!"max"] ∧ May y b!"min" IsNumber ∧ May y b!"max" IsNumber := by
  rw [closed_iff, object_iff, ← may_iff fun x => redisRange_iff]
  constructor
  · rintro ⟨⟨_, h1, _⟩, h2⟩
    exact ⟨h2, h1 _ _ (by simp)⟩
  · rintro ⟨h1, h2⟩
    refine ⟨⟨?_, ?_, fun k hk => by cases hk⟩, h1⟩
    · obtain ⟨m, hm, _⟩ := h1
      exact ⟨m, hm⟩
    · intro k s hm
      simp only [List.mem_cons, List.not_mem_nil, or_false, Prod.mk.injEq] at hm
      obtain ⟨rfl, rfl⟩ := hm
      assumption

/-- The schema of a parameter. -/
def redisParam : Schema :=
  .object [(b!"name", .string), (b!"type", .enum [b!"integer", b!"float"]), (b!"value", .number),
    (b!"optim", .object [(b!"range", .object [(b!"min", .number), (b!"max", .number)] [] false)] [] false)] [b!"name", b!"type", b!"value"] false

theorem redisParam_iff {j : Json V} : redisParam.accepts j = true ↔ RedisParam j := by
  unfold redisParam
  have ho := fun x : Json V => redisOptim_iff (x := x)
  generalize Schema.object [(b!"range", .object [(b!"min", .number), (b!"max", .number)] [] false)] [] false = so at ho
  rw [closed_iff, object_iff]
  constructor
  · rintro ⟨⟨_, h1, h2⟩, h3⟩
    exact ⟨(needs_iff fun x => text_iff).1 ⟨h1 _ _ (by simp), h2 _ (by simp)⟩, (needs_iff fun x => enum_iff).1 ⟨h1 b!"type" _ (by simp), h2 _ (by simp)⟩,
      (needs_iff fun x => number_iff).1 ⟨h1 b!"value" _ (by simp), h2 _ (by simp)⟩, (may_iff ho).1 (h1 b!"optim" _ (by simp)), h3⟩
  · rintro ⟨h1, h2, h3, h4, h5⟩
    obtain ⟨a1, b1⟩ := (needs_iff fun x => text_iff).2 h1
    obtain ⟨a2, b2⟩ := (needs_iff fun x => enum_iff).2 h2
    obtain ⟨a3, b3⟩ := (needs_iff fun x => number_iff).2 h3
    have a4 := (may_iff ho).2 h4
    refine ⟨⟨?_, ?_, ?_⟩, h5⟩
    · obtain ⟨m, hm, _⟩ := h5
      exact ⟨m, hm⟩
    · intro k s hm
      simp only [List.mem_cons, List.not_mem_nil, or_false, Prod.mk.injEq] at hm
      rcases hm with ⟨rfl, rfl⟩ | ⟨rfl, rfl⟩ | ⟨rfl, rfl⟩ | ⟨rfl, rfl⟩ <;> assumption
    · intro k hk
      simp only [List.mem_cons, List.not_mem_nil, or_false] at hk
      rcases hk with rfl | rfl | rfl <;> assumption

/-- The schema of an operator. -/
def redisOp : Schema := .object [(b!"id", .string), (b!"type", .string), (b!"parameters", .array redisParam 0 none)] [b!"id", b!"type"] true

theorem redisOp_iff {j : Json V} : redisOp.accepts j = true ↔ Needs j b!"id" IsText ∧ Needs j b!"type" IsText ∧ May j b!"parameters" (ListOf RedisParam) := by
  unfold redisOp
  have ho := fun x : Json V => listOf_iff (x := x) fun y => redisParam_iff (j := y)
  generalize Schema.array redisParam 0 none = so at ho
  rw [object_iff]
  constructor
  · rintro ⟨_, h1, h2⟩
    exact ⟨(needs_iff fun x => text_iff).1 ⟨h1 _ _ (by simp), h2 _ (by simp)⟩, (needs_iff fun x => text_iff).1 ⟨h1 b!"type" _ (by simp), h2 _ (by simp)⟩,
      (may_iff ho).1 (h1 b!"parameters" _ (by simp))⟩
  · rintro ⟨h1, h2, h4⟩
    obtain ⟨a1, b1⟩ := (needs_iff fun x => text_iff).2 h1
    obtain ⟨a2, b2⟩ := (needs_iff fun x => text_iff).2 h2
    have a4 := (may_iff ho).2 h4
    refine ⟨?_, ?_, ?_⟩
    · obtain ⟨x, hx⟩ := b1
      exact member_obj hx
    · intro k s hm
      simp only [List.mem_cons, List.not_mem_nil, or_false, Prod.mk.injEq] at hm
      rcases hm with ⟨rfl, rfl⟩ | ⟨rfl, rfl⟩ | ⟨rfl, rfl⟩ <;> assumption
    · intro k hk
      simp only [List.mem_cons, List.not_mem_nil, or_false] at hk
      rcases hk with rfl | rfl <;> assumption

theorem redisConn_iff {j : Json V} : (Schema.object [(b!"from", .string), (b!"to", .string)] [b!"from", b!"to"] false).accepts j = true ↔
    Needs j b!"from" IsText ∧ Needs j b!"to" IsText ∧ OnlyKeys j [b!"from", b!"to"] := by
  rw [closed_iff, object_iff]
  constructor
  · rintro ⟨⟨_, h1, h2⟩, h3⟩
    exact ⟨(needs_iff fun x => text_iff).1 ⟨h1 _ _ (by simp), h2 _ (by simp)⟩, (needs_iff fun x => text_iff).1 ⟨h1 b!"to" _ (by simp), h2 _ (by simp)⟩, h3⟩
  · rintro ⟨h1, h2, h4⟩
    obtain ⟨a1, b1⟩ := (needs_iff fun x => text_iff).2 h1
    obtain ⟨a2, b2⟩ := (needs_iff fun x => text_iff).2 h2
    refine ⟨⟨?_, ?_, ?_⟩, h4⟩
    · obtain ⟨x, hx⟩ := b1
      exact member_obj hx
    · intro k s hm
      simp only [List.mem_cons, List.not_mem_nil, or_false, Prod.mk.injEq] at hm
      rcases hm with ⟨rfl, rfl⟩ | ⟨rfl, rfl⟩ <;> assumption
    · intro k hk
      simp only [List.mem_cons, List.not_mem_nil, or_false] at hk
      rcases hk with rfl | rfl <;> assumption

theorem redisAlgorithm_iff {x : Json V} : (Schema.object [(b!"algorithm", .string)] [] true).accepts x = true ↔
    (∃ m, x = .obj m) ∧ May x b!"algorithm" IsText := by
  rw [object_iff, ← may_iff fun x => text_iff]
  refine and_congr_right fun _ => ⟨fun h => h.1 _ _ (by simp), fun h => ⟨?_, fun k hk => by cases hk⟩⟩
  intro k s hm
  simp only [List.mem_cons, List.not_mem_nil, or_false, Prod.mk.injEq] at hm
  obtain ⟨rfl, rfl⟩ := hm
  assumption

theorem redisSchema_iff {j : Json V} : redisSchema.accepts j = true ↔ RedisProgram j := by
  have hops := fun x : Json V => listOf_iff (x := x) fun y => redisOp_iff (j := y)
  have hcs := fun x : Json V => listOf_iff (x := x) fun y => redisConn_iff (j := y)
  have hopt := fun x : Json V => redisAlgorithm_iff (x := x)
  unfold redisSchema
  unfold redisOp redisParam at hops
  rw [object_iff]
  generalize Schema.array (.object [(b!"id", .string), (b!"type", .string), _] _ _) 0 none = sops at hops
  generalize Schema.array (.object [(b!"from", .string), (b!"to", .string)] _ _) 0 none = scs at hcs
  generalize Schema.object [(b!"algorithm", .string)] [] true = sopt at hopt
  constructor
  · rintro ⟨_, h1, h2⟩
    refine ⟨?_, ?_, ?_, ?_, ?_, ?_⟩
    · exact (needs_iff fun x => text_iff).1 ⟨h1 _ _ (by simp), h2 _ (by simp)⟩
    · exact (needs_iff fun x => text_iff).1 ⟨h1 _ _ (by simp), h2 _ (by simp)⟩
    · exact (needs_iff hops).1 ⟨h1 _ _ (by simp), h2 _ (by simp)⟩
    · exact (needs_iff hcs).1 ⟨h1 _ _ (by simp), h2 _ (by simp)⟩
    · intro k hk x hx
      refine text_iff.1 (h1 k _ ?_ x hx)
      simp only [List.mem_cons, List.not_mem_nil, or_false] at hk
      rcases hk with rfl | rfl | rfl | rfl <;> simp
    · exact (may_iff hopt).1 (h1 _ _ (by simp))
  · rintro ⟨h1, h2, h3, h4, h5, h6⟩
    obtain ⟨a1, b1⟩ := (needs_iff fun x => text_iff).2 h1
    obtain ⟨a2, b2⟩ := (needs_iff fun x => text_iff).2 h2
    obtain ⟨a3, b3⟩ := (needs_iff hops).2 h3
    obtain ⟨a4, b4⟩ := (needs_iff hcs).2 h4
    have a6 := (may_iff hopt).2 h6
    refine ⟨?_, ?_, ?_⟩
    · obtain ⟨x, hx⟩ := b1
      exact member_obj hx
    · intro k s hm
      simp only [List.mem_cons, List.not_mem_nil, or_false, Prod.mk.injEq] at hm
      rcases hm with ⟨rfl, rfl⟩ | ⟨rfl, rfl⟩ | ⟨rfl, rfl⟩ | ⟨rfl, rfl⟩ | ⟨rfl, rfl⟩ | ⟨rfl, rfl⟩ | ⟨rfl, rfl⟩ | ⟨rfl, rfl⟩ | ⟨rfl, rfl⟩
      · assumption
      · exact fun x hx => text_iff.2 (h5 _ (by simp) x hx)
      · exact fun x hx => text_iff.2 (h5 _ (by simp) x hx)
      · exact fun x hx => text_iff.2 (h5 _ (by simp) x hx)
      · exact fun x hx => text_iff.2 (h5 _ (by simp) x hx)
      all_goals assumption
    · intro k hk
      simp only [List.mem_cons, List.not_mem_nil, or_false] at hk
      rcases hk with rfl | rfl | rfl | rfl <;> assumption

end Rtbot
