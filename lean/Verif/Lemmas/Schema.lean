import Verif.Spec.Schema
import Verif.Model.Schema
import Verif.Lemmas.Write
import Verif.Lemmas.SyncRun
import Verif.Lemmas.DemuxRun
import Verif.Lemmas.Wiring

set_option linter.unusedSectionVars false

/-! # What the schema accepts -/

namespace Rtbot
variable {V : Type}
open Spec

theorem members_iff {props : List (Str × Schema)} {m : Map (Json V)} :
    Schema.members props m = true ↔ ∀ k s, (k, s) ∈ props → ∀ x, Map.find? m k = some x → s.accepts x = true := by
  induction props with
  | nil => simp [Schema.members]
  | cons p props ih =>
    obtain ⟨k, s⟩ := p
    rw [Schema.members, Bool.and_eq_true, ih]
    constructor
    · rintro ⟨h1, h2⟩ k' s' hm x hx
      rcases List.mem_cons.1 hm with h | h
      · cases h; rw [hx] at h1; exact h1
      · exact h2 k' s' h x hx
    · intro h
      refine ⟨?_, fun k' s' hm => h k' s' (List.mem_cons_of_mem _ hm)⟩
      cases hf : Map.find? m k with
      | none => rfl
      | some x => exact h k s List.mem_cons_self x hf

theorem object_iff {props : List (Str × Schema)} {req : List Str} {j : Json V} :
    (Schema.object props req true).accepts j = true ↔ (∃ m, j = .obj m) ∧ (∀ k s, (k, s) ∈ props → ∀ x, Member j k x → s.accepts x = true) ∧
      ∀ k ∈ req, ∃ x, Member j k x := by
  cases j with
  | obj m =>
    rw [Schema.accepts]
    simp only [Bool.true_or, Bool.and_true, Bool.and_eq_true, members_iff, List.all_eq_true]
    constructor
    · rintro ⟨h1, h2⟩
      refine ⟨⟨m, rfl⟩, fun k s hm x ⟨m', he, hx⟩ => ?_, fun k hk => ?_⟩
      · cases he; exact h1 k s hm x hx
      · have := h2 k hk
        unfold Map.has at this
        cases hf : Map.find? m k with
        | none => rw [hf] at this; cases this
        | some x => exact ⟨x, m, rfl, hf⟩
    · rintro ⟨_, h1, h2⟩
      refine ⟨fun k s hm x hx => h1 k s hm x ⟨m, rfl, hx⟩, fun k hk => ?_⟩
      obtain ⟨x, m', he, hx⟩ := h2 k hk
      cases he
      unfold Map.has
      rw [hx]; rfl
  | _ => simp [Schema.accepts]

theorem text_iff {x : Json V} : Schema.string.accepts x = true ↔ IsText x := by
  cases x <;> simp [Schema.accepts, IsText]

theorem enum_iff {l : List Str} {x : Json V} : (Schema.enum l).accepts x = true ↔ ∃ s ∈ l, x = .str s := by
  cases x <;> simp [Schema.accepts]

theorem number_iff {x : Json V} : Schema.number.accepts x = true ↔ IsNumber x := by
  cases x with
  | uint n => simp [Schema.accepts, IsNumber.uint]
  | int n => simp [Schema.accepts, IsNumber.int]
  | float n => simp [Schema.accepts, IsNumber.float]
  | _ => simp only [Schema.accepts, Bool.false_eq_true, false_iff]; intro h; cases h

theorem integer_iff {x : Json V} : (Schema.integer none).accepts x = true ↔ IsInteger x := by
  cases x with
  | uint n => simp [Schema.accepts, Json.int64?, atLeast, IsInteger.uint]
  | int n => simp [Schema.accepts, Json.int64?, atLeast, IsInteger.int]
  | _ => simp only [Schema.accepts, Json.int64?, Bool.false_eq_true, false_iff]; intro h; cases h

theorem atLeast_iff {x : Json V} (lo : Nat) (h0 : 0 < lo) : (Schema.integer (some lo)).accepts x = true ↔ AtLeast lo x := by
  cases x with
  | uint n =>
    simp only [Schema.accepts, Json.int64?, atLeast, decide_eq_true_eq]
    constructor
    · intro h
      have hn := n.toNat_lt
      split at h
      · exact .uint n (by omega) (by assumption)
      · omega
    · intro h
      cases h with
      | uint _ h hb => rw [if_pos hb]; omega
  | int n =>
    simp only [Schema.accepts, Json.int64?, atLeast, decide_eq_true_eq]
    exact ⟨fun h => .int n h, fun h => by cases h; assumption⟩
  | _ => simp only [Schema.accepts, Json.int64?, Bool.false_eq_true, false_iff]; intro h; cases h

theorem array_iff {s : Schema} {P : Json V → Prop} (hs : ∀ x : Json V, s.accepts x = true ↔ P x) {lo : Nat} {x : Json V} :
    (Schema.array s lo none).accepts x = true ↔ ListOf P x ∧ lo ≤ x.items.length := by
  cases x with
  | arr l =>
    simp only [Schema.accepts, atMost, Bool.and_true, Bool.and_eq_true, decide_eq_true_eq, List.all_eq_true, hs, ListOf, Json.items]
    constructor
    · rintro ⟨h1, h2⟩; exact ⟨⟨l, rfl, h2⟩, h1⟩
    · rintro ⟨⟨l', h1, h2⟩, h3⟩; cases h1; exact ⟨h3, h2⟩
  | _ => simp [Schema.accepts, ListOf]

theorem point_iff {x : Json V} : (Schema.array .number 2 (some 2)).accepts x = true ↔ ∃ a b, x = .arr [a, b] ∧ IsNumber a ∧ IsNumber b := by
  cases x with
  | arr l =>
    rw [Schema.accepts]
    simp only [atMost, Bool.and_eq_true, decide_eq_true_eq, List.all_eq_true, number_iff]
    constructor
    · rintro ⟨⟨h1, h2⟩, h3⟩
      match l, h1, h2, h3 with
      | [a, b], _, _, h3 => exact ⟨a, b, rfl, h3 a (by simp), h3 b (by simp)⟩
    · rintro ⟨a, b, h, h1, h2⟩
      cases h
      refine ⟨⟨Nat.le_refl 2, Nat.le_refl 2⟩, ?_⟩
      intro y hy
      simp only [List.mem_cons, List.not_mem_nil, or_false] at hy
      rcases hy with rfl | rfl <;> assumption
  | _ => simp [Schema.accepts]

theorem member_obj {j x : Json V} {k : Str} (h : Member j k x) : ∃ m, j = .obj m := by
  obtain ⟨m, h, _⟩ := h; exact ⟨m, h⟩

theorem opSchema_iff {t : Str} {props : List (Str × Schema)} {req : List Str} {j : Json V} :
    (opSchema t props req).accepts j = true ↔ HasType j t ∧
      (∀ k s, (k, s) ∈ props → k ≠ b!"type" → ∀ x, Member j k x → s.accepts x = true) ∧ ∀ k ∈ req, ∃ x, Member j k x := by
  unfold opSchema
  rw [object_iff]
  constructor
  · rintro ⟨_, h1, h2⟩
    obtain ⟨x, hx⟩ := h2 b!"type" List.mem_cons_self
    obtain ⟨s, hs, rfl⟩ := enum_iff.1 (h1 b!"type" _ List.mem_cons_self x hx)
    simp only [List.mem_singleton] at hs
    subst hs
    refine ⟨hx, fun k s hm hk => h1 k s (List.mem_cons_of_mem _ ?_), fun k hk => h2 k (List.mem_cons_of_mem _ hk)⟩
    rw [List.mem_filter]
    exact ⟨hm, decide_eq_true hk⟩
  · rintro ⟨h1, h2, h3⟩
    refine ⟨member_obj h1, ?_, ?_⟩
    · intro k s hm x hx
      rcases List.mem_cons.1 hm with h | h
      · cases h
        cases hx.unique h1
        exact enum_iff.2 ⟨t, by simp, rfl⟩
      · simp only [List.mem_filter] at h
        exact h2 k s h.1 (of_decide_eq_true h.2) x hx
    · intro k hk
      rcases List.mem_cons.1 hk with rfl | h
      · exact ⟨_, h1⟩
      · exact h3 k h

theorem needs_iff {j : Json V} {k : Str} {s : Schema} {P : Json V → Prop} (hs : ∀ x : Json V, s.accepts x = true ↔ P x) :
    ((∀ x, Member j k x → s.accepts x = true) ∧ ∃ x, Member j k x) ↔ Needs j k P := by
  constructor
  · rintro ⟨h1, x, h2⟩; exact ⟨x, h2, (hs x).1 (h1 x h2)⟩
  · rintro ⟨x, h1, h2⟩
    exact ⟨fun y hy => by cases hy.unique h1; exact (hs x).2 h2, x, h1⟩

theorem idOnly_iff {t : Str} {j : Json V} : (idOnly t).accepts j = true ↔ HasType j t ∧ Needs j b!"id" IsText := by
  unfold idOnly
  rw [opSchema_iff, ← needs_iff (fun x => text_iff)]
  refine and_congr_right fun _ => ⟨fun ⟨h1, h2⟩ => ⟨h1 _ _ List.mem_cons_self (by decide), h2 _ List.mem_cons_self⟩, fun ⟨h1, h2⟩ => ⟨?_, ?_⟩⟩
  · intro k s hm _
    simp only [List.mem_singleton, Prod.mk.injEq] at hm
    obtain ⟨rfl, rfl⟩ := hm
    exact h1
  · intro k hk
    simp only [List.mem_singleton] at hk
    subst hk
    exact h2

theorem idAnd_iff {t key : Str} {s : Schema} {P : Json V → Prop} (hs : ∀ x : Json V, s.accepts x = true ↔ P x) (hk : key ≠ b!"type") {j : Json V} :
    (idAnd t key s).accepts j = true ↔ HasType j t ∧ Needs j b!"id" IsText ∧ Needs j key P := by
  unfold idAnd
  rw [opSchema_iff, ← needs_iff (fun x => text_iff), ← needs_iff hs]
  refine and_congr_right fun _ => ⟨fun ⟨h1, h2⟩ => ⟨⟨h1 _ _ List.mem_cons_self (by decide), h2 _ List.mem_cons_self⟩,
    h1 _ _ (by simp) hk, h2 _ (by simp)⟩, fun ⟨⟨h1, h2⟩, h3, h4⟩ => ⟨?_, ?_⟩⟩
  · intro k s hm _
    simp only [List.mem_cons, List.not_mem_nil, or_false, Prod.mk.injEq] at hm
    rcases hm with ⟨rfl, rfl⟩ | ⟨rfl, rfl⟩
    · exact h1
    · exact h3
  · intro k hk
    simp only [List.mem_cons, List.not_mem_nil, or_false] at hk
    rcases hk with rfl | rfl
    · exact h2
    · exact h4

theorem idValue_iff {t : Str} {s : Schema} {P : Json V → Prop} (hs : ∀ x : Json V, s.accepts x = true ↔ P x) {j : Json V} :
    (idValue t s).accepts j = true ↔ HasType j t ∧ Needs j b!"id" IsText ∧ Needs j b!"value" P := idAnd_iff hs (by decide)

/-- One optional parameter. -/
theorem idMay_iff {t key : Str} {s : Schema} {P : Json V → Prop} (hs : ∀ x : Json V, s.accepts x = true ↔ P x) (hk : key ≠ b!"type") {j : Json V} :
    (opSchema t [(b!"id", .string), (key, s)] [b!"id"]).accepts j = true ↔ HasType j t ∧ Needs j b!"id" IsText ∧ May j key P := by
  rw [opSchema_iff, ← needs_iff (fun x => text_iff)]
  refine and_congr_right fun _ => ⟨fun ⟨h1, h2⟩ => ⟨⟨h1 _ _ List.mem_cons_self (by decide), h2 _ List.mem_cons_self⟩,
    fun x hx => (hs x).1 (h1 _ _ (by simp) hk x hx)⟩, fun ⟨⟨h1, h2⟩, h3⟩ => ⟨?_, ?_⟩⟩
  · intro k s hm _
    simp only [List.mem_cons, List.not_mem_nil, or_false, Prod.mk.injEq] at hm
    rcases hm with ⟨rfl, rfl⟩ | ⟨rfl, rfl⟩
    · exact h1
    · exact fun x hx => (hs x).2 (h3 x hx)
  · intro k hk
    simp only [List.mem_singleton] at hk
    subst hk
    exact h2

theorem timeShift_iff {j : Json V} :
    (opSchema b!"TimeShift" [(b!"id", .string), (b!"dt", .integer (some 1)), (b!"times", .integer none)] [b!"id"]).accepts j = true ↔
      HasType j b!"TimeShift" ∧ Needs j b!"id" IsText ∧ May j b!"dt" (AtLeast 1) ∧ May j b!"times" IsInteger := by
  rw [opSchema_iff, ← needs_iff (fun x => text_iff)]
  refine and_congr_right fun _ => ⟨fun ⟨h1, h2⟩ => ⟨⟨h1 _ _ List.mem_cons_self (by decide), h2 _ List.mem_cons_self⟩,
    fun x hx => (atLeast_iff 1 (by decide)).1 (h1 _ _ (by simp) (by decide) x hx),
    fun x hx => integer_iff.1 (h1 _ _ (by simp) (by decide) x hx)⟩, fun ⟨⟨h1, h2⟩, h3, h4⟩ => ⟨?_, ?_⟩⟩
  · intro k s hm _
    simp only [List.mem_cons, List.not_mem_nil, or_false, Prod.mk.injEq] at hm
    rcases hm with ⟨rfl, rfl⟩ | ⟨rfl, rfl⟩ | ⟨rfl, rfl⟩
    · exact h1
    · exact fun x hx => (atLeast_iff 1 (by decide)).2 (h3 x hx)
    · exact fun x hx => integer_iff.2 (h4 x hx)
  · intro k hk
    simp only [List.mem_singleton] at hk
    subst hk
    exact h2

theorem function_iff {j : Json V} : functionSchema.accepts j = true ↔ HasType j b!"Function" ∧ Needs j b!"id" IsText ∧
    Needs j b!"points" fun x => ListOf (fun p => ∃ a b, p = .arr [a, b] ∧ IsNumber a ∧ IsNumber b) x ∧ 2 ≤ x.items.length := by
  unfold functionSchema
  rw [opSchema_iff, ← needs_iff (fun x => text_iff), ← needs_iff (fun x => array_iff (fun x => point_iff))]
  refine and_congr_right fun _ => ⟨fun ⟨h1, h2⟩ => ⟨⟨h1 _ _ List.mem_cons_self (by decide), h2 _ List.mem_cons_self⟩,
    h1 _ _ (List.mem_cons_of_mem _ List.mem_cons_self) (by decide), h2 _ (by simp)⟩, fun ⟨⟨h1, h2⟩, h3, h4⟩ => ⟨?_, ?_⟩⟩
  · intro k s hm hk
    simp only [List.mem_cons, List.not_mem_nil, or_false, Prod.mk.injEq] at hm
    rcases hm with ⟨rfl, rfl⟩ | ⟨rfl, rfl⟩ | ⟨rfl, rfl⟩
    · exact h1
    · exact h3
    · exact absurd rfl hk
  · intro k hk
    simp only [List.mem_cons, List.not_mem_nil, or_false] at hk
    rcases hk with rfl | rfl
    · exact h2
    · exact h4

/-- What the documented parameters are, by type. -/
theorem docParams_inv {j : Json V} {t : Str} (h : DocParams j t) :
    t ∈ [b!"And", b!"Or", b!"Plus", b!"Minus", b!"Multiplication", b!"Division", b!"GreaterThanStream", b!"LessThanStream",
      b!"CumulativeSum", b!"Count", b!"Difference", b!"Identity"] ∨
    t ∈ [b!"Add", b!"Scale", b!"Power", b!"Constant", b!"GreaterThan", b!"EqualTo"] ∧ Needs j b!"value" IsNumber ∨
    t = b!"LessThan" ∧ Needs j b!"value" IsInteger ∨
    t ∈ [b!"MovingAverage", b!"PeakDetector"] ∧ Needs j b!"n" IsInteger ∨
    t = b!"StandardDeviation" ∧ Needs j b!"n" IsNumber ∨
    t ∈ [b!"CosineResampler", b!"HermiteResampler"] ∧ Needs j b!"dt" IsInteger ∨
    t = b!"ConstantResampler" ∧ Needs j b!"interval" (AtLeast 1) ∨
    t ∈ [b!"Input", b!"Output", b!"Demultiplexer"] ∧ May j b!"numPorts" (AtLeast 1) ∨
    t = b!"Join" ∧ May j b!"numPorts" (AtLeast 2) ∨
    t = b!"FiniteImpulseResponse" ∧ Needs j b!"coeff" (ListOf IsNumber) ∨
    t = b!"AutoRegressive" ∧ Needs j b!"coeff" (fun x => ListOf IsNumber x ∧ x ≠ .arr []) ∨
    t = b!"Linear" ∧ May j b!"coeff" (fun x => ListOf IsNumber x ∧ 2 ≤ x.items.length) ∨
    t = b!"TimeShift" ∧ May j b!"dt" (AtLeast 1) ∧ May j b!"times" IsInteger ∨
    t = b!"Variable" ∧ May j b!"value" IsNumber ∨
    t = b!"Function" ∧ Needs j b!"points" (fun x => ListOf (fun p => ∃ a b, p = .arr [a, b] ∧ IsNumber a ∧ IsNumber b) x ∧ 2 ≤ x.items.length) := by
  cases h with
  | plain h => exact .inl h
  | value h hv => exact .inr (.inl ⟨h, hv⟩)
  | lessThan hv => exact .inr (.inr (.inl ⟨rfl, hv⟩))
  | window h hv => exact .inr (.inr (.inr (.inl ⟨h, hv⟩)))
  | stdDev hv => exact .inr (.inr (.inr (.inr (.inl ⟨rfl, hv⟩))))
  | resampler h hv => exact .inr (.inr (.inr (.inr (.inr (.inl ⟨h, hv⟩)))))
  | constRes hv => exact .inr (.inr (.inr (.inr (.inr (.inr (.inl ⟨rfl, hv⟩))))))
  | ports h hv => exact .inr (.inr (.inr (.inr (.inr (.inr (.inr (.inl ⟨h, hv⟩)))))))
  | join hv => exact .inr (.inr (.inr (.inr (.inr (.inr (.inr (.inr (.inl ⟨rfl, hv⟩))))))))
  | fir hv => exact .inr (.inr (.inr (.inr (.inr (.inr (.inr (.inr (.inr (.inl ⟨rfl, hv⟩)))))))))
  | autoReg hv => exact .inr (.inr (.inr (.inr (.inr (.inr (.inr (.inr (.inr (.inr (.inl ⟨rfl, hv⟩))))))))))
  | linear hv => exact .inr (.inr (.inr (.inr (.inr (.inr (.inr (.inr (.inr (.inr (.inr (.inl ⟨rfl, hv⟩)))))))))))
  | timeShift h hv => exact .inr (.inr (.inr (.inr (.inr (.inr (.inr (.inr (.inr (.inr (.inr (.inr (.inl ⟨rfl, h, hv⟩))))))))))))
  | «variable» hv => exact .inr (.inr (.inr (.inr (.inr (.inr (.inr (.inr (.inr (.inr (.inr (.inr (.inr (.inl ⟨rfl, hv⟩)))))))))))))
  | function hv => exact .inr (.inr (.inr (.inr (.inr (.inr (.inr (.inr (.inr (.inr (.inr (.inr (.inr (.inr ⟨rfl, hv⟩)))))))))))))

/-- Find the case of a documented type. -/
macro "doc_case " h:ident : tactic => `(tactic|
  rcases docParams_inv $h with h | ⟨h, h'⟩ | ⟨h, h'⟩ | ⟨h, h'⟩ | ⟨h, h'⟩ | ⟨h, h'⟩ | ⟨h, h'⟩ | ⟨h, h'⟩ | ⟨h, h'⟩ | ⟨h, h'⟩ | ⟨h, h'⟩ | ⟨h, h'⟩ |
    ⟨h, h'⟩ | ⟨h, h'⟩ | ⟨h, h'⟩ <;> first | exact absurd h (by decide) | exact h')

theorem doc_plain {t : Str} {j : Json V} (hp : DocParams j t) : (idOnly t).accepts j = true ↔ DocOp j t :=
  idOnly_iff.trans ⟨fun ⟨h1, h2⟩ => ⟨h1, h2, hp⟩, fun h => ⟨h.type, h.id⟩⟩

theorem doc_one {t : Str} {s : Schema} {j : Json V} {Q : Prop} (h1 : s.accepts j = true ↔ HasType j t ∧ Needs j b!"id" IsText ∧ Q)
    (h2 : Q → DocParams j t) (h2' : DocParams j t → Q) : s.accepts j = true ↔ DocOp j t :=
  h1.trans ⟨fun ⟨h3, h4, h5⟩ => ⟨h3, h4, h2 h5⟩, fun h => ⟨h.type, h.id, h2' h.params⟩⟩

theorem list1_iff {x : Json V} : (Schema.array .number 1 none).accepts x = true ↔ ListOf IsNumber x ∧ x ≠ .arr [] :=
  (array_iff fun x => number_iff).trans (and_congr_right fun h => by
    obtain ⟨l, rfl, _⟩ := h
    cases l <;> simp [Json.items])

theorem list0_iff {x : Json V} : (Schema.array .number 0 none).accepts x = true ↔ ListOf IsNumber x :=
  (array_iff fun x => number_iff).trans ⟨fun h => h.1, fun h => ⟨h, Nat.zero_le _⟩⟩

theorem doc_Add {j : Json V} : (idValue b!"Add" .number).accepts j = true ↔ DocOp j b!"Add" :=
  doc_one (idValue_iff fun _ => number_iff) (fun h => .value (by decide) h) fun h => by doc_case h

theorem doc_AutoRegressive {j : Json V} : (idAnd b!"AutoRegressive" b!"coeff" (.array .number 1 none)).accepts j = true ↔ DocOp j b!"AutoRegressive" :=
  doc_one (idAnd_iff (fun _ => list1_iff) (by decide)) (fun h => .autoReg h) fun h => by doc_case h

theorem doc_Constant {j : Json V} : (idValue b!"Constant" .number).accepts j = true ↔ DocOp j b!"Constant" :=
  doc_one (idValue_iff fun _ => number_iff) (fun h => .value (by decide) h) fun h => by doc_case h

theorem doc_ConstantResampler {j : Json V} : (idAnd b!"ConstantResampler" b!"interval" (.integer (some 1))).accepts j = true ↔ DocOp j b!"ConstantResampler" :=
  doc_one (idAnd_iff (fun _ => atLeast_iff 1 (by decide)) (by decide)) (fun h => .constRes h) fun h => by doc_case h

theorem doc_CosineResampler {j : Json V} : (idAnd b!"CosineResampler" b!"dt" (.integer none)).accepts j = true ↔ DocOp j b!"CosineResampler" :=
  doc_one (idAnd_iff (fun _ => integer_iff) (by decide)) (fun h => .resampler (by decide) h) fun h => by doc_case h

theorem doc_EqualTo {j : Json V} : (idValue b!"EqualTo" .number).accepts j = true ↔ DocOp j b!"EqualTo" :=
  doc_one (idValue_iff fun _ => number_iff) (fun h => .value (by decide) h) fun h => by doc_case h

theorem doc_FiniteImpulseResponse {j : Json V} : (idAnd b!"FiniteImpulseResponse" b!"coeff" (.array .number 0 none)).accepts j = true ↔ DocOp j b!"FiniteImpulseResponse" :=
  doc_one (idAnd_iff (fun _ => list0_iff) (by decide)) (fun h => .fir h) fun h => by doc_case h

theorem doc_Function {j : Json V} : (functionSchema).accepts j = true ↔ DocOp j b!"Function" :=
  doc_one (function_iff) (fun h => .function h) fun h => by doc_case h

theorem doc_GreaterThan {j : Json V} : (idValue b!"GreaterThan" .number).accepts j = true ↔ DocOp j b!"GreaterThan" :=
  doc_one (idValue_iff fun _ => number_iff) (fun h => .value (by decide) h) fun h => by doc_case h

theorem doc_HermiteResampler {j : Json V} : (idAnd b!"HermiteResampler" b!"dt" (.integer none)).accepts j = true ↔ DocOp j b!"HermiteResampler" :=
  doc_one (idAnd_iff (fun _ => integer_iff) (by decide)) (fun h => .resampler (by decide) h) fun h => by doc_case h

theorem doc_LessThan {j : Json V} : (idValue b!"LessThan" (.integer none)).accepts j = true ↔ DocOp j b!"LessThan" :=
  doc_one (idValue_iff fun _ => integer_iff) (fun h => .lessThan h) fun h => by doc_case h

theorem doc_Linear {j : Json V} : (opSchema b!"Linear" [(b!"id", .string), (b!"coeff", .array .number 2 none)] [b!"id"]).accepts j = true ↔ DocOp j b!"Linear" :=
  doc_one (idMay_iff (fun _ => array_iff fun _ => number_iff) (by decide)) (fun h => .linear h) fun h => by doc_case h

theorem doc_MovingAverage {j : Json V} : (idAnd b!"MovingAverage" b!"n" (.integer none)).accepts j = true ↔ DocOp j b!"MovingAverage" :=
  doc_one (idAnd_iff (fun _ => integer_iff) (by decide)) (fun h => .window (by decide) h) fun h => by doc_case h

theorem doc_PeakDetector {j : Json V} : (idAnd b!"PeakDetector" b!"n" (.integer none)).accepts j = true ↔ DocOp j b!"PeakDetector" :=
  doc_one (idAnd_iff (fun _ => integer_iff) (by decide)) (fun h => .window (by decide) h) fun h => by doc_case h

theorem doc_Power {j : Json V} : (idValue b!"Power" .number).accepts j = true ↔ DocOp j b!"Power" :=
  doc_one (idValue_iff fun _ => number_iff) (fun h => .value (by decide) h) fun h => by doc_case h

theorem doc_Scale {j : Json V} : (idValue b!"Scale" .number).accepts j = true ↔ DocOp j b!"Scale" :=
  doc_one (idValue_iff fun _ => number_iff) (fun h => .value (by decide) h) fun h => by doc_case h

theorem doc_StandardDeviation {j : Json V} : (idAnd b!"StandardDeviation" b!"n" .number).accepts j = true ↔ DocOp j b!"StandardDeviation" :=
  doc_one (idAnd_iff (fun _ => number_iff) (by decide)) (fun h => .stdDev h) fun h => by doc_case h

theorem doc_TimeShift {j : Json V} : (opSchema b!"TimeShift" [(b!"id", .string), (b!"dt", .integer (some 1)), (b!"times", .integer none)] [b!"id"]).accepts j = true ↔ DocOp j b!"TimeShift" :=
  doc_one (timeShift_iff) (fun h => .timeShift h.1 h.2) fun h => by doc_case h

theorem doc_Variable {j : Json V} : (opSchema b!"Variable" [(b!"id", .string), (b!"value", .number)] [b!"id"]).accepts j = true ↔ DocOp j b!"Variable" :=
  doc_one (idMay_iff (fun _ => number_iff) (by decide)) (fun h => .variable h) fun h => by doc_case h

theorem doc_Demultiplexer {j : Json V} : (idPorts b!"Demultiplexer" 1).accepts j = true ↔ DocOp j b!"Demultiplexer" :=
  doc_one (idMay_iff (fun _ => atLeast_iff 1 (by decide)) (by decide)) (fun h => .ports (by decide) h) fun h => by doc_case h

theorem doc_Input {j : Json V} : (idPorts b!"Input" 1).accepts j = true ↔ DocOp j b!"Input" :=
  doc_one (idMay_iff (fun _ => atLeast_iff 1 (by decide)) (by decide)) (fun h => .ports (by decide) h) fun h => by doc_case h

theorem doc_Join {j : Json V} : (idPorts b!"Join" 2).accepts j = true ↔ DocOp j b!"Join" :=
  doc_one (idMay_iff (fun _ => atLeast_iff 2 (by decide)) (by decide)) (fun h => .join h) fun h => by doc_case h

theorem doc_Output {j : Json V} : (idPorts b!"Output" 1).accepts j = true ↔ DocOp j b!"Output" :=
  doc_one (idMay_iff (fun _ => atLeast_iff 1 (by decide)) (by decide)) (fun h => .ports (by decide) h) fun h => by doc_case h

/-- The schema filed under a type accepts exactly the documented descriptions of that type. -/
theorem opSchemas_iff {j : Json V} {t : Str} {s : Schema} (h : (t, s) ∈ opSchemas) : s.accepts j = true ↔ DocOp j t := by
  simp only [opSchemas, List.mem_cons, List.not_mem_nil, or_false, Prod.mk.injEq] at h
  rcases h with ⟨rfl, rfl⟩ | ⟨rfl, rfl⟩ | ⟨rfl, rfl⟩ | ⟨rfl, rfl⟩ | ⟨rfl, rfl⟩ | ⟨rfl, rfl⟩ | ⟨rfl, rfl⟩ | ⟨rfl, rfl⟩ | ⟨rfl, rfl⟩ | ⟨rfl, rfl⟩ | ⟨rfl, rfl⟩ |
    ⟨rfl, rfl⟩ | ⟨rfl, rfl⟩ | ⟨rfl, rfl⟩ | ⟨rfl, rfl⟩ | ⟨rfl, rfl⟩ | ⟨rfl, rfl⟩ | ⟨rfl, rfl⟩ | ⟨rfl, rfl⟩ | ⟨rfl, rfl⟩ | ⟨rfl, rfl⟩ | ⟨rfl, rfl⟩ | ⟨rfl, rfl⟩ |
    ⟨rfl, rfl⟩ | ⟨rfl, rfl⟩ | ⟨rfl, rfl⟩ | ⟨rfl, rfl⟩ | ⟨rfl, rfl⟩ | ⟨rfl, rfl⟩ | ⟨rfl, rfl⟩ | ⟨rfl, rfl⟩ | ⟨rfl, rfl⟩ | ⟨rfl, rfl⟩ | ⟨rfl, rfl⟩ | ⟨rfl, rfl⟩
  · exact doc_Add
  · exact doc_plain (.plain (by decide))
  · exact doc_AutoRegressive
  · exact doc_Constant
  · exact doc_ConstantResampler
  · exact doc_CosineResampler
  · exact doc_plain (.plain (by decide))
  · exact doc_plain (.plain (by decide))
  · exact doc_plain (.plain (by decide))
  · exact doc_plain (.plain (by decide))
  · exact doc_EqualTo
  · exact doc_FiniteImpulseResponse
  · exact doc_Function
  · exact doc_GreaterThan
  · exact doc_plain (.plain (by decide))
  · exact doc_HermiteResampler
  · exact doc_plain (.plain (by decide))
  · exact doc_LessThan
  · exact doc_plain (.plain (by decide))
  · exact doc_Linear
  · exact doc_plain (.plain (by decide))
  · exact doc_MovingAverage
  · exact doc_plain (.plain (by decide))
  · exact doc_plain (.plain (by decide))
  · exact doc_PeakDetector
  · exact doc_plain (.plain (by decide))
  · exact doc_Power
  · exact doc_Scale
  · exact doc_StandardDeviation
  · exact doc_TimeShift
  · exact doc_Variable
  · exact doc_Demultiplexer
  · exact doc_Input
  · exact doc_Join
  · exact doc_Output

end Rtbot
