import Verif.Spec.Javascript
import Verif.Lemmas.PyProgram
import Verif.Spec.Exact

/-! # C73: putting a program together in JavaScript -/

namespace Rtbot
open Spec
variable {V : Type}

theorem jsEdited_append (p : JsProgram V) (a b : List (JsEdit V)) : jsEdited p (a ++ b) = jsEdited (jsEdited p a) b := by
  induction a generalizing p with
  | nil => rfl
  | cons e a ih => cases e <;> exact ih _

theorem addConnection_ok {p q : JsProgram V} {c : JsConn} (h : p.addConnection c = .ok q) :
    q = { p with connections := p.connections ++ [c] } ∧ (∃ x ∈ p.operators, x.id = c.src) ∧ (∃ x ∈ p.operators, x.id = c.dst) ∧ c ∉ p.connections := by
  unfold JsProgram.addConnection at h
  split at h
  · next h1 =>
    split at h
    · next h2 =>
      split at h
      · cases h
      · next h3 =>
        cases h
        simp only [List.any_eq_true, beq_iff_eq] at h1 h2 h3
        exact ⟨rfl, h1, h2, fun hc => h3 ⟨c, hc, rfl⟩⟩
    · cases h
  · cases h

/-- C73: a connection is added when there are operators with its two ids and it is not there yet; otherwise an exception is thrown. -/
theorem C73_connection (p : JsProgram V) (c : JsConn) :
    ((∃ x ∈ p.operators, x.id = c.src) ∧ (∃ x ∈ p.operators, x.id = c.dst) ∧ c ∉ p.connections ∧
      p.addConnection c = .ok { p with connections := p.connections ++ [c] }) ∨
    (¬ ((∃ x ∈ p.operators, x.id = c.src) ∧ (∃ x ∈ p.operators, x.id = c.dst) ∧ c ∉ p.connections) ∧ p.addConnection c = .error (.exc .runtime)) := by
  unfold JsProgram.addConnection
  simp only [List.any_eq_true, beq_iff_eq, exists_eq_right]
  by_cases h1 : ∃ x ∈ p.operators, x.id = c.src
  · rw [if_pos h1]
    by_cases h2 : ∃ x ∈ p.operators, x.id = c.dst
    · rw [if_pos h2]
      by_cases h3 : c ∈ p.connections
      · rw [if_pos h3]
        exact Or.inr ⟨fun h => h.2.2 h3, rfl⟩
      · rw [if_neg h3]
        exact Or.inl ⟨h1, h2, h3, rfl⟩
    · rw [if_neg h2]
      exact Or.inr ⟨fun h => h2 h.2.1, rfl⟩
  · rw [if_neg h1]
    exact Or.inr ⟨fun h => h1 h.1, rfl⟩

/-- C73: whatever calls are made, those that throw included, connections join operators of the program and none is there twice. -/
theorem C73_joined (p : JsProgram V) (hp : p.connections = []) (es : List (JsEdit V)) :
    (jsEdited p es).connections.Nodup ∧
      ∀ c ∈ (jsEdited p es).connections, (∃ x ∈ (jsEdited p es).operators, x.id = c.src) ∧ ∃ x ∈ (jsEdited p es).operators, x.id = c.dst := by
  have key : ∀ (es : List (JsEdit V)) (p : JsProgram V), (p.connections.Nodup ∧
      ∀ c ∈ p.connections, (∃ x ∈ p.operators, x.id = c.src) ∧ ∃ x ∈ p.operators, x.id = c.dst) → (jsEdited p es).connections.Nodup ∧
      ∀ c ∈ (jsEdited p es).connections, (∃ x ∈ (jsEdited p es).operators, x.id = c.src) ∧ ∃ x ∈ (jsEdited p es).operators, x.id = c.dst := by
    intro es
    induction es with
    | nil => intro p h; exact h
    | cons e es ih =>
      intro p h
      cases e with
      | addOp x =>
        refine ih _ ⟨h.1, fun c hc => ?_⟩
        obtain ⟨⟨a, ha, h1⟩, b, hb, h2⟩ := h.2 c hc
        exact ⟨⟨a, List.mem_append_left _ ha, h1⟩, b, List.mem_append_left _ hb, h2⟩
      | delOp id =>
        refine ih _ ⟨h.1.filter _, fun c hc => ?_⟩
        obtain ⟨hc, hd⟩ := List.mem_filter.1 hc
        simp only [ne_eq, decide_eq_true_eq] at hd
        obtain ⟨⟨a, ha, h1⟩, b, hb, h2⟩ := h.2 c hc
        refine ⟨⟨a, List.mem_filter.2 ⟨ha, ?_⟩, h1⟩, b, List.mem_filter.2 ⟨hb, ?_⟩, h2⟩
        · simpa [h1] using hd.1
        · simpa [h2] using hd.2
      | addConn c =>
        refine ih _ ?_
        unfold connTried
        cases hq : p.addConnection c with
        | error _ => exact h
        | ok q =>
          obtain ⟨rfl, h1, h2, h3⟩ := addConnection_ok hq
          refine ⟨List.nodup_append.2 ⟨h.1, List.nodup_singleton c, ?_⟩, fun d hd => ?_⟩
          · rintro x hx y hy rfl
            rw [List.mem_singleton] at hy
            exact h3 (hy ▸ hx)
          · rcases List.mem_append.1 hd with hd | hd
            · exact h.2 d hd
            · rw [List.mem_singleton] at hd
              subst hd
              exact ⟨h1, h2⟩
      | delConn c => exact ih _ ⟨h.1.filter _, fun d hd => h.2 d (List.mem_filter.1 hd).1⟩
  exact key es p (by rw [hp]; exact ⟨List.nodup_nil, fun c hc => by cases hc⟩)

/-- C73: the operators of the program are those that were added and not deleted afterwards. -/
theorem C73_operators (p : JsProgram V) (hp : p.operators = []) (es : List (JsEdit V)) (x : JsOp V) :
    x ∈ (jsEdited p es).operators ↔ ∃ a b, es = a ++ .addOp x :: b ∧ .delOp x.id ∉ b := by
  have key : ∀ (es : List (JsEdit V)) (p : JsProgram V),
      x ∈ (jsEdited p es).operators ↔ (x ∈ p.operators ∧ .delOp x.id ∉ es) ∨ ∃ a b, es = a ++ .addOp x :: b ∧ .delOp x.id ∉ b := by
    intro es
    induction es with
    | nil => intro p; simp [jsEdited]
    | cons e es ih =>
      intro p
      have hsplit : (∃ a b, e :: es = a ++ .addOp x :: b ∧ .delOp x.id ∉ b) ↔ (e = .addOp x ∧ .delOp x.id ∉ es) ∨ ∃ a b, es = a ++ .addOp x :: b ∧ .delOp x.id ∉ b := by
        constructor
        · rintro ⟨a, b, h, hb⟩
          cases a with
          | nil => simp only [List.nil_append, List.cons.injEq] at h; exact Or.inl ⟨h.1, h.2 ▸ hb⟩
          | cons e' a => simp only [List.cons_append, List.cons.injEq] at h; exact Or.inr ⟨a, b, h.2, hb⟩
        · rintro (⟨rfl, h⟩ | ⟨a, b, rfl, hb⟩)
          · exact ⟨[], es, rfl, h⟩
          · exact ⟨e :: a, b, rfl, hb⟩
      rw [hsplit]
      cases e with
      | addOp y =>
        refine (ih _).trans ?_
        simp only [JsProgram.addOperator, List.mem_append, List.mem_cons, List.not_mem_nil, or_false, JsEdit.addOp.injEq, reduceCtorEq, false_or]
        constructor
        · rintro (⟨h | h, h'⟩ | h)
          · exact Or.inl ⟨h, h'⟩
          · exact Or.inr (Or.inl ⟨h.symm, h'⟩)
          · exact Or.inr (Or.inr h)
        · rintro (⟨h, h'⟩ | ⟨h, h'⟩ | h)
          · exact Or.inl ⟨Or.inl h, h'⟩
          · exact Or.inl ⟨Or.inr h.symm, h'⟩
          · exact Or.inr h
      | delOp id =>
        refine (ih _).trans ?_
        simp only [JsProgram.deleteOperator, List.mem_filter, ne_eq, decide_eq_true_eq, List.mem_cons, JsEdit.delOp.injEq, not_or, reduceCtorEq, false_and, false_or,
          and_assoc]
      | addConn c =>
        refine (ih _).trans ?_
        have : (connTried p c).operators = p.operators := by
          unfold connTried
          cases hq : p.addConnection c with
          | error _ => rfl
          | ok q => rw [(addConnection_ok hq).1]
        rw [this]
        simp
      | delConn c =>
        refine (ih _).trans ?_
        simp [JsProgram.deleteConnection]
  refine (key es p).trans ?_
  simp [hp]

/-- C73: the entry operator is the last operator of type Input that was added, otherwise the one given in the beginning. -/
theorem C73_entry (p : JsProgram V) (es : List (JsEdit V)) :
    (jsEdited p es).entryOperator = match (inputsAdded es).getLast? with | some id => some id | none => p.entryOperator := by
  induction es generalizing p with
  | nil => rfl
  | cons e es ih =>
    cases e with
    | addOp x =>
      refine (ih _).trans ?_
      show _ = match (if x.type = b!"Input" then x.id :: inputsAdded es else inputsAdded es).getLast? with | some id => some id | none => p.entryOperator
      by_cases hx : x.type = b!"Input"
      · rw [if_pos hx]
        cases h : (inputsAdded es).getLast? with
        | none =>
          rw [List.getLast?_eq_none_iff] at h
          rw [h]
          simp [JsProgram.addOperator, hx]
        | some i =>
          rw [List.getLast?_cons, h]
          rfl
      · rw [if_neg hx]
        simp [JsProgram.addOperator, hx]
    | delOp id => exact ih _
    | addConn c =>
      refine (ih _).trans ?_
      have : (connTried p c).entryOperator = p.entryOperator := by
        unfold connTried
        cases hq : p.addConnection c with
        | error _ => rfl
        | ok q => rw [(addConnection_ok hq).1]
      rw [this]
      rfl
    | delConn c => exact ih _

/-- C73: as long as no connections are deleted, the connections of the program are those that were added when their operators were there, and none of these was deleted
afterwards.

Missing: deleted connections, see below. -/
theorem C73_connections_partial (p : JsProgram V) (hp : p.connections = []) (es : List (JsEdit V)) (hd : ∀ c, .delConn c ∉ es) (c : JsConn) :
    c ∈ (jsEdited p es).connections ↔ ∃ a b, es = a ++ .addConn c :: b ∧ (∃ x ∈ (jsEdited p a).operators, x.id = c.src) ∧
      (∃ x ∈ (jsEdited p a).operators, x.id = c.dst) ∧ .delOp c.src ∉ b ∧ .delOp c.dst ∉ b := by
  have key : ∀ (es : List (JsEdit V)) (p : JsProgram V), (∀ c, .delConn c ∉ es) →
      (c ∈ (jsEdited p es).connections ↔ (c ∈ p.connections ∧ .delOp c.src ∉ es ∧ .delOp c.dst ∉ es) ∨ ∃ a b, es = a ++ .addConn c :: b ∧
        (∃ x ∈ (jsEdited p a).operators, x.id = c.src) ∧ (∃ x ∈ (jsEdited p a).operators, x.id = c.dst) ∧ .delOp c.src ∉ b ∧ .delOp c.dst ∉ b) := by
    intro es
    induction es with
    | nil => intro p _; simp [jsEdited]
    | cons e es ih =>
      intro p hd
      have hd' : ∀ c, .delConn c ∉ es := fun c hc => hd c (List.mem_cons_of_mem _ hc)
      have hsplit : ∀ q : JsProgram V, (∀ l, jsEdited p (e :: l) = jsEdited q l) → ((∃ a b, e :: es = a ++ .addConn c :: b ∧
          (∃ x ∈ (jsEdited p a).operators, x.id = c.src) ∧ (∃ x ∈ (jsEdited p a).operators, x.id = c.dst) ∧ .delOp c.src ∉ b ∧ .delOp c.dst ∉ b) ↔
          (e = .addConn c ∧ (∃ x ∈ p.operators, x.id = c.src) ∧ (∃ x ∈ p.operators, x.id = c.dst) ∧ .delOp c.src ∉ es ∧ .delOp c.dst ∉ es) ∨ ∃ a b, es = a ++ .addConn c :: b ∧
          (∃ x ∈ (jsEdited q a).operators, x.id = c.src) ∧ (∃ x ∈ (jsEdited q a).operators, x.id = c.dst) ∧ .delOp c.src ∉ b ∧ .delOp c.dst ∉ b) := by
        intro q hq
        constructor
        · rintro ⟨a, b, h, hb⟩
          cases a with
          | nil => simp only [List.nil_append, List.cons.injEq] at h; obtain ⟨h1, rfl⟩ := h; exact Or.inl ⟨h1, hb⟩
          | cons e' a =>
            simp only [List.cons_append, List.cons.injEq] at h
            obtain ⟨rfl, rfl⟩ := h
            rw [hq a] at hb
            exact Or.inr ⟨a, b, rfl, hb⟩
        · rintro (⟨rfl, h⟩ | ⟨a, b, rfl, hb⟩)
          · exact ⟨[], es, rfl, h⟩
          · exact ⟨e :: a, b, rfl, by rw [hq a]; exact hb⟩
      cases e with
      | addOp y =>
        rw [hsplit _ fun l => rfl]
        refine (ih _ hd').trans ?_
        simp [JsProgram.addOperator]
      | delOp id =>
        rw [hsplit _ fun l => rfl]
        refine (ih _ hd').trans ?_
        simp only [JsProgram.deleteOperator, List.mem_filter, ne_eq, decide_eq_true_eq, List.mem_cons, JsEdit.delOp.injEq, not_or, reduceCtorEq, false_and, false_or]
        refine or_congr_left ?_
        constructor
        · rintro ⟨⟨h1, h2, h3⟩, h4, h5⟩; exact ⟨h1, ⟨h2, h4⟩, h3, h5⟩
        · rintro ⟨h1, ⟨h2, h4⟩, h3, h5⟩; exact ⟨⟨h1, h2, h3⟩, h4, h5⟩
      | addConn d =>
        rw [hsplit _ fun l => rfl]
        refine (ih _ hd').trans ?_
        simp only [List.mem_cons, reduceCtorEq, false_or, JsEdit.addConn.injEq]
        rw [← or_assoc]
        refine or_congr_left ?_
        unfold connTried
        rcases C73_connection p d with ⟨h1, h2, h3, h4⟩ | ⟨h1, h4⟩
        · rw [h4]
          dsimp only
          rw [List.mem_append, List.mem_singleton]
          constructor
          · rintro ⟨h | rfl, h'⟩
            · exact Or.inl ⟨h, h'⟩
            · exact Or.inr ⟨rfl, h1, h2, h'⟩
          · rintro (⟨h, h'⟩ | ⟨rfl, _, _, h'⟩)
            · exact ⟨Or.inl h, h'⟩
            · exact ⟨Or.inr rfl, h'⟩
        · rw [h4]
          dsimp only
          constructor
          · exact Or.inl
          · rintro (h | ⟨rfl, h2, h3, h'⟩)
            · exact h
            · exact ⟨by_contra fun hc => h1 ⟨h2, h3, hc⟩, h'⟩
      | delConn d => exact absurd (List.mem_cons_self ..) (hd d)
  refine (key es p hd).trans ?_
  simp [hp]

/-! ## Validity -/

theorem find_jsSet (k k' : Str) (x : Option Str) (m : Map (Json V)) :
    (jsSet k x m).find? k' = if k' = k ∧ x.isSome = true then x.map Json.str else m.find? k' := by
  unfold jsSet
  cases x with
  | none => simp
  | some s => rw [Map.find?_put]; simp

/-- The members of the description. -/
theorem toPlain_member (p : JsProgram V) (k : Str) (x : Json V) : Member p.toPlain k x ↔
    k = b!"license" ∧ p.license.map Json.str = some x ∨ k = b!"author" ∧ p.author.map Json.str = some x ∨ k = b!"date" ∧ p.date.map Json.str = some x ∨
    k = b!"description" ∧ p.description.map Json.str = some x ∨ k = b!"title" ∧ p.title.map Json.str = some x ∨
    k = b!"entryOperator" ∧ p.entryOperator.map Json.str = some x ∨ k = b!"defaultPort" ∧ p.defaultPort.map Json.str = some x ∨
    k = b!"apiVersion" ∧ .str p.apiVersion = x ∨ k = b!"connections" ∧ .arr (p.connections.map JsConn.plain) = x ∨
    k = b!"operators" ∧ .arr (p.operators.map (·.plain)) = x ∨ k = b!"programId" ∧ .str p.programId = x := by
  unfold JsProgram.toPlain
  rw [member_iff]
  simp only [find_jsSet]
  have hb : ∀ (k : Str) (x : Json V), Map.find? [(b!"apiVersion", .str p.apiVersion), (b!"connections", .arr (p.connections.map JsConn.plain)),
      (b!"operators", .arr (p.operators.map (·.plain))), (b!"programId", .str p.programId)] k = some x ↔
      k = b!"apiVersion" ∧ .str p.apiVersion = x ∨ k = b!"connections" ∧ .arr (p.connections.map JsConn.plain) = x ∨
      k = b!"operators" ∧ .arr (p.operators.map (·.plain)) = x ∨ k = b!"programId" ∧ .str p.programId = x := by
    intro k x
    simp only [Map.find?]
    constructor
    · intro h
      split at h
      · next hk => cases h; exact Or.inl ⟨by simpa using hk.symm, rfl⟩
      · split at h
        · next hk => cases h; exact Or.inr (Or.inl ⟨by simpa using hk.symm, rfl⟩)
        · split at h
          · next hk => cases h; exact Or.inr (Or.inr (Or.inl ⟨by simpa using hk.symm, rfl⟩))
          · split at h
            · next hk => cases h; exact Or.inr (Or.inr (Or.inr ⟨by simpa using hk.symm, rfl⟩))
            · cases h
    · rintro (⟨rfl, rfl⟩ | ⟨rfl, rfl⟩ | ⟨rfl, rfl⟩ | ⟨rfl, rfl⟩) <;> rfl
  by_cases h1 : k = b!"license"
  · subst h1
    cases p.license <;> simp [hb]
  by_cases h2 : k = b!"author"
  · subst h2
    cases p.author <;> simp [hb]
  by_cases h3 : k = b!"date"
  · subst h3
    cases p.date <;> simp [hb]
  by_cases h4 : k = b!"description"
  · subst h4
    cases p.description <;> simp [hb]
  by_cases h5 : k = b!"title"
  · subst h5
    cases p.title <;> simp [hb]
  by_cases h6 : k = b!"entryOperator"
  · subst h6
    cases p.entryOperator <;> simp [hb]
  by_cases h7 : k = b!"defaultPort"
  · subst h7
    cases p.defaultPort <;> simp [hb]
  simp only [h1, h2, h3, h4, h5, h6, h7, false_and, if_false, false_or, hb]

/-- What is written for a connection is as documented. -/
theorem conn_doc (c : JsConn) : DocConn (c.plain : Json V) where
  src := ⟨.str c.src, ⟨_, rfl, rfl⟩, c.src, rfl⟩
  dst := ⟨.str c.dst, ⟨_, rfl, rfl⟩, c.dst, rfl⟩
  out := by
    rintro x ⟨_, h, hx⟩
    cases h
    cases hx
    exact ⟨_, rfl⟩
  inp := by
    rintro x ⟨_, h, hx⟩
    cases h
    cases hx
    exact ⟨_, rfl⟩
  only := by
    intro m h k hk
    cases h
    simp only [Map.keys, List.map_cons, List.map_nil, List.mem_cons, List.not_mem_nil, or_false] at hk ⊢
    rcases hk with h | h | h | h <;> simp [h]

/-- C73: a program whose operators are written as documented is valid exactly when it has an entry operator, the version "v1", and a calendar date if it has a date. -/
theorem C73_valid (p : JsProgram V) (hp : ∀ x ∈ p.operators, JsValid x) : programSchema.accepts p.toPlain = true ↔
    p.entryOperator ≠ none ∧ p.apiVersion = b!"v1" ∧ ∀ d, p.date = some d → IsDate (.str d : Json V) := by
  rw [programSchema_iff]
  constructor
  · intro h
    refine ⟨?_, ?_, ?_⟩
    · obtain ⟨x, h1, _⟩ := h.entry
      have := (toPlain_member ..).1 h1
      simp at this
      obtain ⟨s, hs, _⟩ := this
      rw [hs]
      simp
    · have := h.version (.str p.apiVersion) ((toPlain_member ..).2 (by simp))
      simpa using this
    · intro d hd
      exact h.date (.str d) ((toPlain_member ..).2 (by simp [hd]))
  · rintro ⟨he, hv, hd⟩
    obtain ⟨e, he⟩ := Option.ne_none_iff_exists'.1 he
    refine ⟨⟨.str e, (toPlain_member ..).2 (by simp [he]), e, rfl⟩, ⟨.arr (p.operators.map (·.plain)), (toPlain_member ..).2 (by simp), _, rfl, ?_⟩,
      ⟨.arr (p.connections.map JsConn.plain), (toPlain_member ..).2 (by simp), _, rfl, ?_⟩, ?_, ?_, ?_, ?_⟩
    · intro y hy
      obtain ⟨x, hx, rfl⟩ := List.mem_map.1 hy
      exact ⟨x.type, (hp x hx).1⟩
    · intro y hy
      obtain ⟨c, _, rfl⟩ := List.mem_map.1 hy
      exact conn_doc c
    · intro x hx
      have := (toPlain_member ..).1 hx
      simp at this
    · intro k hk x hx
      simp only [List.mem_cons, List.not_mem_nil, or_false] at hk
      have := (toPlain_member ..).1 hx
      rcases hk with rfl | rfl | rfl | rfl
      all_goals
        simp at this
        obtain ⟨s, _, rfl⟩ := this
        exact ⟨s, rfl⟩
    · intro x hx
      have := (toPlain_member ..).1 hx
      simp at this
      rw [← this, hv]
    · intro x hx
      have := (toPlain_member ..).1 hx
      simp at this
      obtain ⟨d, h1, rfl⟩ := this
      exact hd d h1

/-! ## Violations and concrete cases -/

/-- C73 is violated: deleting a connection never deletes it. -/
theorem C73_violated_kept (p : JsProgram V) (c : JsConn) : c ∈ (p.deleteConnection c).connections ↔ c ∈ p.connections := by
  simp [JsProgram.deleteConnection]

/-- A program with operators. -/
def jsTry (es : List (JsEdit ℚ)) : JsProgram ℚ := jsEdited (.new b!"p" none none none (some b!"2000-01-01") none none) es

/-- An operator without parameters. -/
def jsOp (type id : Str) : JsOp ℚ := ⟨id, type, .obj [(b!"id", .str id), (b!"type", .str type)]⟩

/-- C73 is violated: deleting a connection that is not there deletes another one, from another port of another operator to another port of another operator. -/
theorem C73_violated_other :
    (jsTry [.addOp (jsOp b!"Input" b!"in"), .addOp (jsOp b!"Minus" b!"m"), .addConn ⟨b!"in", b!"m", b!"o1", b!"i1"⟩, .addConn ⟨b!"in", b!"m", b!"o1", b!"i2"⟩,
      .delConn ⟨b!"m", b!"x", b!"o2", b!"i1"⟩]).connections = [⟨b!"in", b!"m", b!"o1", b!"i1"⟩] := by decide +kernel

/-- C73 is violated: when the entry operator is deleted, the program still names it. It counts as valid but cannot be created. -/
theorem C73_violated_entry :
    let p := jsTry [.addOp (jsOp b!"Input" b!"in"), .addOp (jsOp b!"Count" b!"c"), .addConn ⟨b!"in", b!"c", b!"o1", b!"i1"⟩, .delOp b!"in"]
    p.entryOperator = some b!"in" ∧ p.operators.map (·.id) = [b!"c"] ∧ programSchema.accepts p.toPlain = true ∧
      (Prog.initWith (fun _ => (0, 0)) [] p.toPlain).isOk = false := by decide +kernel

/-- C73 is violated: operators with the same id can be added. The program counts as valid and is created without the second one. -/
theorem C73_violated_twice :
    let p := jsTry [.addOp (jsOp b!"Input" b!"in"), .addOp (jsOp b!"Count" b!"c"), .addOp (jsOp b!"Identity" b!"c"), .addConn ⟨b!"in", b!"c", b!"o1", b!"i1"⟩]
    p.operators.map (·.id) = [b!"in", b!"c", b!"c"] ∧ programSchema.accepts p.toPlain = true ∧
      (match Prog.initWith (fun _ => (0, 0)) [] p.toPlain with
        | .ok P => P.ops.keys
        | .error _ => []) = [b!"c", b!"in"] := by decide +kernel

/-- C73: deleted operators and connections that throw, in a concrete program. -/
example : (jsTry [.addOp (jsOp b!"Input" b!"in"), .addOp (jsOp b!"Count" b!"c"), .addOp (jsOp b!"Count" b!"d"), .addConn ⟨b!"in", b!"c", b!"o1", b!"i1"⟩,
      .addConn ⟨b!"in", b!"c", b!"o1", b!"i1"⟩, .addConn ⟨b!"c", b!"d", b!"o1", b!"i1"⟩, .addConn ⟨b!"c", b!"e", b!"o1", b!"i1"⟩, .delOp b!"d"]).connections =
      [⟨b!"in", b!"c", b!"o1", b!"i1"⟩] ∧
    ((jsTry [.addOp (jsOp b!"Input" b!"in"), .addOp (jsOp b!"Count" b!"c"), .addOp (jsOp b!"Count" b!"d"), .delOp b!"d"]).operators.map fun x => x.id) = [b!"in", b!"c"] ∧
    programSchema.accepts (jsTry [.addOp (jsOp b!"Input" b!"in"), .addOp (jsOp b!"Count" b!"c")]).toPlain = true := by
  decide +kernel

/-- The operators of these programs are written as documented. -/
example : JsValid (jsOp b!"Input" b!"in") ∧ JsValid (jsOp b!"Count" b!"c") := by
  have key : ∀ (t id : Str) (s : Schema), Map.find? opSchemas t = some s → s.accepts (jsOp t id).plain = true → JsValid (jsOp t id) :=
    fun t id s h1 h2 => ⟨(opSchemas_iff (opSchemas_find h1)).1 h2, ⟨_, rfl, rfl⟩⟩
  exact ⟨key _ _ _ rfl (by decide +kernel), key _ _ _ rfl (by decide +kernel)⟩

end Rtbot
