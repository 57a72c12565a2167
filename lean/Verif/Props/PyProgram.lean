import Verif.Lemmas.PyProgram
import Verif.Props.Schema

/-! # C70: programs put together in Python; C71: programs read and written in Python -/

namespace Rtbot
open Spec
variable {V : Type} [Num V]

/-! ## C70: putting programs together -/

omit [Num V] in
/-- C70: `addOperator` accepts exactly the valid operators with a new id, and adds them at the end. -/
theorem C70_operator {p q : PyProgram V} {ops cs : List (Json V)} (hp : WellBuilt p ops cs) (x : Json V) :
    p.addOperator x = .ok q ↔ (∃ t, DocOp x t) ∧ (∀ y ∈ ops, ∀ id, HasId y id → ¬ HasId x id) ∧ q = { p with operators := .arr (ops ++ [x]) } := by
  have hids : ∀ x ∈ ops, ∃ id, HasId x id := by
    intro y hy
    obtain ⟨t, ht⟩ := hp.valid y hy
    obtain ⟨_, h1, id, rfl⟩ := ht.id
    exact ⟨id, h1⟩
  obtain ⟨ids, h1, h2⟩ := pyIds_ok hids
  have hl : pyList p.operators = .ok ops := by rw [hp.listed]; rfl
  unfold PyProgram.addOperator
  rw [hl]
  show ((pyIds ops) >>= fun ids => (pyValid x >>= fun b => _)) = _ ↔ _
  rw [h1]
  show (pyValid x >>= fun b => _) = _ ↔ _
  cases hv : pyValid x with
  | error e =>
    refine ⟨fun h => (by cases h), fun ⟨h, _⟩ => ?_⟩
    rw [pyValid_ok.2 h] at hv
    cases hv
  | ok b =>
    cases b with
    | false =>
      refine ⟨fun h => (by cases h), fun ⟨h, _⟩ => ?_⟩
      rw [pyValid_ok.2 h] at hv
      cases hv
    | true =>
      have hd := pyValid_ok.1 hv
      obtain ⟨t, ht⟩ := hd
      obtain ⟨_, hi, id, rfl⟩ := ht.id
      show (pyItem x b!"id" >>= fun y => _) = _ ↔ _
      rw [pyItem_ok.2 hi]
      show (if pyMem id ids = true then throwExc Exc.runtime else _) = _ ↔ _
      by_cases hm : pyMem id ids = true
      · rw [if_pos hm]
        refine ⟨fun h => (by cases h), fun ⟨_, h, _⟩ => ?_⟩
        obtain ⟨y, hy, hyi⟩ := (h2 id).1 hm
        exact absurd hi (h y hy id hyi)
      · rw [if_neg hm]
        show Except.ok _ = _ ↔ _
        constructor
        · intro h
          cases h
          refine ⟨⟨t, ht⟩, fun y hy id' h3 h4 => hm ((h2 id).2 ⟨y, hy, ?_⟩), rfl⟩
          have := hi.unique h4
          simp only [Json.str.injEq] at this
          exact this ▸ h3
        · rintro ⟨_, _, rfl⟩
          rfl

omit [Num V] in
/-- C70: `addConnection` accepts exactly the connections between operators of the program, and adds them at the end. -/
theorem C70_connection {p q : PyProgram V} {ops cs : List (Json V)} (hp : WellBuilt p ops cs) (src dst out inp : Str) :
    p.addConnection src dst out inp = .ok q ↔ (∃ x ∈ ops, HasId x src) ∧ (∃ x ∈ ops, HasId x dst) ∧ ∃ c, DocConn c ∧ Member c b!"from" (.str src) ∧
      Member c b!"to" (.str dst) ∧ Member c b!"fromPort" (.str out) ∧ Member c b!"toPort" (.str inp) ∧ c = pyConnection src dst out inp ∧
      q = { p with connections := .arr (cs ++ [c]) } := by
  have hids : ∀ x ∈ ops, ∃ id, HasId x id := by
    intro y hy
    obtain ⟨t, ht⟩ := hp.valid y hy
    obtain ⟨_, h1, id, rfl⟩ := ht.id
    exact ⟨id, h1⟩
  obtain ⟨ids, h1, h2⟩ := pyIds_ok hids
  have hl : pyList p.operators = .ok ops := by rw [hp.listed]; rfl
  have hc : pyList p.connections = .ok cs := by rw [hp.wired]; rfl
  unfold PyProgram.addConnection
  rw [hl, hc]
  show ((pyIds ops) >>= fun ids => _) = _ ↔ _
  rw [h1]
  show (if pyMem src ids = true then if pyMem dst ids = true then Except.ok _ else throwExc .runtime else throwExc .runtime) = _ ↔ _
  rw [← h2, ← h2]
  by_cases hs : pyMem src ids = true
  · rw [if_pos hs]
    by_cases ht : pyMem dst ids = true
    · rw [if_pos ht]
      constructor
      · intro h
        cases h
        refine ⟨hs, ht, pyConnection src dst out inp, ⟨?_, ?_, ?_, ?_, ?_⟩, ⟨_, rfl, rfl⟩, ⟨_, rfl, rfl⟩, ⟨_, rfl, rfl⟩, ⟨_, rfl, rfl⟩, rfl, rfl⟩
        · exact ⟨_, ⟨_, rfl, rfl⟩, src, rfl⟩
        · exact ⟨_, ⟨_, rfl, rfl⟩, dst, rfl⟩
        · intro x hx
          cases hx.unique ⟨_, rfl, rfl⟩
          exact ⟨out, rfl⟩
        · intro x hx
          cases hx.unique ⟨_, rfl, rfl⟩
          exact ⟨inp, rfl⟩
        · intro m hm k hk
          cases hm
          simp only [Map.keys, List.map_cons, List.map_nil, List.mem_cons, List.not_mem_nil, or_false] at hk ⊢
          tauto
      · rintro ⟨_, _, c, _, _, _, _, _, rfl, rfl⟩
        rfl
    · rw [if_neg ht]
      exact ⟨fun h => (by cases h), fun h => absurd h.2.1 ht⟩
  · rw [if_neg hs]
    exact ⟨fun h => (by cases h), fun h => absurd h.1 hs⟩

omit [Num V] in
/-- C70: a new program to which no operators and connections are given is well built. -/
theorem C70_new {id : Str} {args : Map (Json V)} {p : PyProgram V} (h : PyProgram.new id args = .ok p) (ho : args.find? b!"operators" = none)
    (hc : args.find? b!"connections" = none) : WellBuilt p [] [] := by
  unfold PyProgram.new at h
  split at h
  · cases h
    refine ⟨?_, ?_, fun x hx => (by cases hx), .nil, fun x hx => (by cases hx)⟩
    · simp only [pyArg, ho, pyOrList]
    · simp only [pyArg, hc, pyOrList]
  · cases h

/-- C70: whatever calls of `addOperator` and `addConnection` are made, and whichever of them fail, a well built program stays well built: its operators are valid and
distinct, and its connections join them. Nothing is lost or reordered, and nothing else changes. -/
theorem C70_edited (es : List (PyEdit V)) : ∀ {p : PyProgram V} {ops cs : List (Json V)}, WellBuilt p ops cs →
    ∃ ops' cs', WellBuilt (edited p es) (ops ++ ops') (cs ++ cs') ∧
      edited p es = { p with operators := .arr (ops ++ ops'), connections := .arr (cs ++ cs') } := by
  induction es with
  | nil =>
    intro p ops cs hp
    refine ⟨[], [], by simpa [edited] using hp, ?_⟩
    obtain ⟨⟩ := p
    have h1 := hp.listed
    have h2 := hp.wired
    simp only [edited, List.append_nil] at *
    rw [h1, h2]
  | cons e es ih =>
    intro p ops cs hp
    cases e with
    | op x =>
      show ∃ ops' cs', WellBuilt (edited (match p.addOperator x with | .ok q => q | .error _ => p) es) _ _ ∧
        edited (match p.addOperator x with | .ok q => q | .error _ => p) es = _
      cases h : p.addOperator x with
      | error e => exact ih hp
      | ok q =>
        obtain ⟨h1, h2, rfl⟩ := (C70_operator hp x).1 h
        have hq : WellBuilt { p with operators := .arr (ops ++ [x]) } (ops ++ [x]) cs := by
          refine ⟨rfl, hp.wired, fun y hy => ?_, ?_, fun c hc => ?_⟩
          · rcases List.mem_append.1 hy with hy | hy
            · exact hp.valid y hy
            · rw [List.mem_singleton.1 hy]
              exact h1
          · rw [List.pairwise_append]
            refine ⟨hp.distinct, List.pairwise_singleton .., fun y hy z hz id hi => ?_⟩
            rw [List.mem_singleton.1 hz]
            exact h2 y hy id hi
          · obtain ⟨g1, f, t, g2, g3, ⟨y, g4, g5⟩, z, g6, g7⟩ := hp.joined c hc
            exact ⟨g1, f, t, g2, g3, ⟨y, List.mem_append_left _ g4, g5⟩, z, List.mem_append_left _ g6, g7⟩
        obtain ⟨ops', cs', g1, g2⟩ := ih hq
        refine ⟨x :: ops', cs', by simpa using g1, ?_⟩
        simpa using g2
    | conn f t o i =>
      show ∃ ops' cs', WellBuilt (edited (match p.addConnection f t o i with | .ok q => q | .error _ => p) es) _ _ ∧
        edited (match p.addConnection f t o i with | .ok q => q | .error _ => p) es = _
      cases h : p.addConnection f t o i with
      | error e => exact ih hp
      | ok q =>
        obtain ⟨h1, h2, c, h3, h4, h5, _, _, _, rfl⟩ := (C70_connection hp f t o i).1 h
        have hq : WellBuilt { p with connections := .arr (cs ++ [c]) } ops (cs ++ [c]) := by
          refine ⟨hp.listed, rfl, hp.valid, hp.distinct, fun d hd => ?_⟩
          rcases List.mem_append.1 hd with hd | hd
          · exact hp.joined d hd
          · rw [List.mem_singleton.1 hd]
            exact ⟨h3, f, t, h4, h5, h1, h2⟩
        obtain ⟨ops', cs', g1, g2⟩ := ih hq
        refine ⟨ops', c :: cs', by simpa using g1, ?_⟩
        simpa using g2

/-- A date is not empty. -/
theorem isDate_truthy {x : Json V} (h : IsDate x) : pyTruthy x = true := by
  obtain ⟨_, _, _, _, _, _, _, _, _, rfl, _⟩ := h
  rfl

/-- C70: a well built program is valid exactly when it has a date, an entry operator that is a text, the version "v1" and texts for the other attributes, if
they have a value that counts as true. -/
theorem C70_valid {p : PyProgram V} {ops cs : List (Json V)} (hp : WellBuilt p ops cs) : p.validate = true ↔
    IsDate p.date ∧ IsText p.entryOperator ∧ p.apiVersion = .str b!"v1" ∧
      ∀ x ∈ [p.title, p.description, p.author, p.license], pyTruthy x = true → IsText x := by
  unfold PyProgram.validate
  rw [programSchema_iff]
  constructor
  · intro h
    obtain ⟨x, h1, h2⟩ := h.entry
    have ht : pyTruthy p.date = true ∧ p.entryOperator = x := by
      rcases (toJson_member ..).1 h1 with ⟨_, h⟩ | ⟨h, _⟩ | ⟨h, _⟩ | ⟨h, _⟩ | ⟨h, _⟩ | ⟨h, _⟩ | ⟨h, _⟩ | ⟨h, _⟩ | ⟨h, _⟩
      · exact h
      all_goals exact absurd h (by decide)
    refine ⟨h.date _ ((toJson_member ..).2 (by simp [ht.1])), by rw [ht.2]; exact h2, h.version _ ((toJson_member ..).2 (by simp)), ?_⟩
    intro y hy htr
    simp only [List.mem_cons, List.not_mem_nil, or_false] at hy
    rcases hy with rfl | rfl | rfl | rfl
    · exact h.texts b!"title" (by simp) _ ((toJson_member ..).2 (by simp [htr]))
    · exact h.texts b!"description" (by simp) _ ((toJson_member ..).2 (by simp [htr]))
    · exact h.texts b!"author" (by simp) _ ((toJson_member ..).2 (by simp [htr]))
    · exact h.texts b!"license" (by simp) _ ((toJson_member ..).2 (by simp [htr]))
  · rintro ⟨hd, he, hv, ht⟩
    have hd' := isDate_truthy hd
    refine ⟨⟨_, (toJson_member ..).2 (by simp [hd']), he⟩, ⟨_, (toJson_member ..).2 (by simp), ops, hp.listed, hp.valid⟩,
      ⟨_, (toJson_member ..).2 (by simp), cs, hp.wired, fun c hc => (hp.joined c hc).1⟩, ?_, ?_, ?_, ?_⟩
    · intro x hx
      have := (toJson_member ..).1 hx
      simp at this
    · intro k hk x hx
      simp only [List.mem_cons, List.not_mem_nil, or_false] at hk
      have := (toJson_member ..).1 hx
      rcases hk with rfl | rfl | rfl | rfl
      · simp at this; exact this.2 ▸ ht p.title (by simp) this.1
      · simp at this; exact this.2 ▸ ht p.description (by simp) this.1
      · simp at this; exact this.2 ▸ ht p.author (by simp) this.1
      · simp at this; exact this.2 ▸ ht p.license (by simp) this.1
    · intro x hx
      have := (toJson_member ..).1 hx
      simp at this
      rw [← this, hv]
    · intro x hx
      have := (toJson_member ..).1 hx
      simp at this
      exact this.2 ▸ hd

/-- An operator of a concrete program. -/
def pyCount (id : Str) : Json V := .obj [(b!"id", .str id), (b!"type", .str b!"Count")]

/-- An attempt to put a program together: a duplicate and a connection to a missing operator fail. -/
def pyAttempt (date : Json V) : PyProgram V :=
  edited { id := b!"1a2b", operators := .arr [], connections := .arr [], entryOperator := .str b!"a", title := .null, description := .null,
           apiVersion := .str b!"v1", date, author := .null, license := .null }
    [.op (pyCount b!"a"), .op (pyCount b!"a"), .conn b!"a" b!"b" b!"o1" b!"i1", .op (pyCount b!"b"), .conn b!"a" b!"b" b!"o1" b!"i1"]

/-- A concrete case: the program is well built, and valid when it has a date. -/
example : WellBuilt (pyAttempt (V := ℚ) (.str b!"2000-01-01")) [pyCount b!"a", pyCount b!"b"] [pyConnection b!"a" b!"b" b!"o1" b!"i1"] ∧
    (pyAttempt (V := ℚ) (.str b!"2000-01-01")).validate = true := by
  obtain ⟨ops, cs, h1, h2⟩ := C70_edited (V := ℚ)
    [.op (pyCount b!"a"), .op (pyCount b!"a"), .conn b!"a" b!"b" b!"o1" b!"i1", .op (pyCount b!"b"), .conn b!"a" b!"b" b!"o1" b!"i1"]
    (p := { id := b!"1a2b", operators := .arr [], connections := .arr [], entryOperator := .str b!"a", title := .null, description := .null,
            apiVersion := .str b!"v1", date := .str b!"2000-01-01", author := .null, license := .null }) (ops := []) (cs := [])
    ⟨rfl, rfl, fun x hx => (by cases hx), .nil, fun x hx => (by cases hx)⟩
  have ho : (pyAttempt (V := ℚ) (.str b!"2000-01-01")).operators = .arr [pyCount b!"a", pyCount b!"b"] := rfl
  have hc : (pyAttempt (V := ℚ) (.str b!"2000-01-01")).connections = .arr [pyConnection b!"a" b!"b" b!"o1" b!"i1"] := rfl
  have h3 := h1.listed.symm.trans ho
  have h4 := h1.wired.symm.trans hc
  simp only [Json.arr.injEq] at h3 h4
  rw [h3, h4] at h1
  exact ⟨h1, by decide +kernel⟩

/-- C70 is violated: a program without a date is not valid, whatever else it consists of, because its entry operator is not written. -/
theorem C70_violated_date (p : PyProgram V) (h : p.date = .null ∨ p.date = .str []) : p.validate = false := by
  rw [Bool.eq_false_iff]
  intro hv
  unfold PyProgram.validate at hv
  rw [programSchema_iff] at hv
  obtain ⟨x, h1, _⟩ := hv.entry
  have := (toJson_member ..).1 h1
  rcases h with h | h <;> simp [h, pyTruthy] at this

/-- The library accepts the same description with the entry operator added. -/
example : (pyAttempt (V := ℚ) .null).validate = false ∧ (match (pyAttempt (V := ℚ) .null).toJson with
    | .obj m => programSchema.accepts (.obj (Map.put m b!"entryOperator" (.str b!"a")))
    | _ => false) = true := by decide +kernel

/-- C70 is violated: the entry operator need not be one of the operators. The program counts as valid, but cannot be created. -/
theorem C70_violated_entry (junk : Junk V) : ∃ p : PyProgram V, WellBuilt p [pyCount b!"a"] [] ∧ p.validate = true ∧
    ∀ P, Prog.initWith junk [] p.toJson ≠ .ok P := by
  have hw : WellBuilt (V := V) { id := b!"1a2b", operators := .arr [pyCount b!"a"], connections := .arr [], entryOperator := .str b!"b", title := .null,
                                 description := .null, apiVersion := .str b!"v1", date := .str b!"2000-01-01", author := .null, license := .null }
      [pyCount b!"a"] [] := by
    refine ⟨rfl, rfl, fun x hx => ?_, List.pairwise_singleton .., fun x hx => (by cases hx)⟩
    rw [List.mem_singleton.1 hx]
    exact ⟨b!"Count", ⟨⟨_, rfl, rfl⟩, ⟨_, ⟨_, rfl, rfl⟩, b!"a", rfl⟩, .plain (by simp)⟩⟩
  refine ⟨_, hw, (C70_valid hw).2 ⟨date_iff.1 rfl, ⟨_, rfl⟩, rfl, fun x hx h => ?_⟩, C46_missing fun e os he hos => Or.inr fun x hx hid => ?_⟩
  · simp only [List.mem_cons, List.not_mem_nil, or_false, or_self] at hx
    rw [hx] at h
    cases h
  · have he := (toJson_member ..).1 he
    have hos := (toJson_member ..).1 hos
    simp at he hos
    subst hos
    rw [List.mem_singleton.1 hx] at hid
    have := hid.unique ⟨_, rfl, rfl⟩
    simp at this
    rw [← he.2] at this
    cases this

end Rtbot
