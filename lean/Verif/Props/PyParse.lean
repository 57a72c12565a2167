import Verif.Props.PyProgram

/-! # C71: programs read and written in Python -/

namespace Rtbot
open Spec
variable {V : Type} [Num V]

/-- The attribute as it comes back: values that count as false are not written. -/
def pyKept (x : Json V) : Json V := if pyTruthy x = true then x else .null

omit [Num V] in
theorem pyArg_eq {args : Map (Json V)} {k : Str} {d x : Json V} (h : args.find? k = some x) : pyArg args k d = x := by
  unfold pyArg
  rw [h]

omit [Num V] in
theorem pyArg_none {args : Map (Json V)} {k : Str} {d : Json V} (h : args.find? k = none) : pyArg args k d = d := by
  unfold pyArg
  rw [h]

/-- What is written can be read as arguments. -/
theorem toJson_args (p : PyProgram V) : ∃ m, p.toJson = .obj m ∧ (∀ k ∈ Map.keys m, k ∈ pyProgramKeys) ∧
    Map.find? m b!"operators" = some p.operators ∧ Map.find? m b!"connections" = some p.connections ∧ Map.find? m b!"apiVersion" = some p.apiVersion ∧
    Map.find? m b!"entryOperator" = (if pyTruthy p.date = true then some p.entryOperator else none) ∧
    Map.find? m b!"date" = (if pyTruthy p.date = true then some p.date else none) ∧
    Map.find? m b!"title" = (if pyTruthy p.title = true then some p.title else none) ∧
    Map.find? m b!"description" = (if pyTruthy p.description = true then some p.description else none) ∧
    Map.find? m b!"author" = (if pyTruthy p.author = true then some p.author else none) ∧
    Map.find? m b!"license" = (if pyTruthy p.license = true then some p.license else none) := by
  refine ⟨_, rfl, fun k hk => ?_, ?_⟩
  · have : Map.find? _ k ≠ none := fun hn => (Map.find?_none_iff ..).1 hn hk
    obtain ⟨x, hx⟩ := Option.ne_none_iff_exists'.1 this
    have hm := (toJson_member p k x).1 ⟨_, rfl, hx⟩
    rcases hm with ⟨rfl, _⟩ | ⟨rfl, _⟩ | ⟨rfl, _⟩ | ⟨rfl, _⟩ | ⟨rfl, _⟩ | ⟨rfl, _⟩ | ⟨rfl, _⟩ | ⟨rfl, _⟩ | ⟨rfl, _⟩ <;> decide
  · simp [find_pySetIf, Map.find?]

/-- C71: a valid program that is written and read again is the same program, except that attributes such as an empty title become `None`. -/
theorem C71_roundtrip {p : PyProgram V} (h : p.validate = true) : pyParse p.id p.toJson =
    .ok { p with title := pyKept p.title, description := pyKept p.description, author := pyKept p.author, license := pyKept p.license } := by
  obtain ⟨m, hm, hk, h1, h2, h3, h4, h5, h6, h7, h8, h9⟩ := toJson_args p
  have hv := h
  unfold PyProgram.validate at hv
  rw [programSchema_iff] at hv
  have hdate : pyTruthy p.date = true := by
    obtain ⟨x, hx, _⟩ := hv.entry
    have := (toJson_member ..).1 hx
    simp at this
    exact this.1
  have hops : ∃ l, p.operators = .arr l := by
    obtain ⟨x, hx, l, hl, _⟩ := hv.operators
    have := (toJson_member ..).1 hx
    simp at this
    exact ⟨l, this.trans hl⟩
  have hcs : ∃ l, p.connections = .arr l := by
    obtain ⟨x, hx, l, hl, _⟩ := hv.connections
    have := (toJson_member ..).1 hx
    simp at this
    exact ⟨l, this.trans hl⟩
  obtain ⟨ops, hops⟩ := hops
  obtain ⟨cs, hcs⟩ := hcs
  have keep : ∀ (k : Str) (x : Json V), Map.find? m k = (if pyTruthy x = true then some x else none) → pyArg m k .null = pyKept x := by
    intro k x hx
    unfold pyArg pyKept
    rw [hx]
    by_cases ht : pyTruthy x = true
    · rw [if_pos ht, if_pos ht]
    · rw [if_neg ht, if_neg ht]
  have hnew : PyProgram.new p.id m =
      .ok { p with title := pyKept p.title, description := pyKept p.description, author := pyKept p.author, license := pyKept p.license } := by
    unfold PyProgram.new
    rw [if_pos (List.all_eq_true.2 fun k hkk => by simpa using hk k hkk)]
    rw [if_pos hdate] at h4 h5
    rw [keep _ _ h6, keep _ _ h7, keep _ _ h8, keep _ _ h9, pyArg_eq h1, pyArg_eq h2, pyArg_eq h3, pyArg_eq h4, pyArg_eq h5, hops, hcs]
    obtain ⟨⟩ := p
    simp only at hops hcs
    subst hops hcs
    rfl
  have hsame : ∀ x : Json V, pyTruthy (pyKept x) = pyTruthy x := by
    intro x
    unfold pyKept
    by_cases hx : pyTruthy x = true
    · rw [if_pos hx]
    · rw [if_neg hx]
      simp only [Bool.not_eq_true] at hx
      rw [hx]
      rfl
  have hset : ∀ (x : Json V) k m, pySetIf (pyKept x) k (pyKept x) m = pySetIf x k x m := by
    intro x k m
    unfold pySetIf
    rw [hsame]
    split
    · next h => unfold pyKept; rw [if_pos h]
    · rfl
  rw [hm]
  show (PyProgram.new p.id m >>= fun q => if q.validate = true then Except.ok q else throwExc Exc.runtime) = _
  rw [hnew]
  show (if PyProgram.validate _ = true then _ else _) = _
  rw [if_pos]
  refine Eq.trans ?_ h
  unfold PyProgram.validate PyProgram.toJson
  simp only [hset]

/-- A concrete case, with an empty title. -/
example : ({ pyAttempt (V := ℚ) (.str b!"2000-01-01") with title := .str [], author := .str b!"me" } : PyProgram ℚ).validate = true := by decide +kernel

/-- C71: a program that was read has the operators, connections, entry operator and date of the description; the texts are those of the description that are
not empty. All members of the description are known, and the program is valid. -/
theorem C71_read {id : Str} {j : Json V} {p : PyProgram V} (h : pyParse id j = .ok p) :
    p.id = id ∧ DocProgram p.toJson ∧
    (∀ x, Member p.toJson b!"entryOperator" x ↔ Member j b!"entryOperator" x) ∧ (∀ x, Member p.toJson b!"date" x ↔ Member j b!"date" x) ∧
    (∀ k ∈ [b!"operators", b!"connections"], ∀ x, Member p.toJson k x ↔ Member j k x ∧ x ≠ .null ∨ x = .arr [] ∧ ∀ y, Member j k y → y = .null) ∧
    (∀ k ∈ [b!"title", b!"description", b!"author", b!"license"], ∀ x, Member p.toJson k x ↔ Member j k x ∧ ∃ s, s ≠ [] ∧ x = .str s) ∧
    ∀ k x, Member j k x → k ∈ [b!"operators", b!"connections", b!"entryOperator", b!"title", b!"description", b!"apiVersion", b!"date", b!"author",
      b!"license"] := by
  cases j with
  | obj args =>
    have h : (PyProgram.new id args >>= fun q => if q.validate = true then Except.ok q else throwExc Exc.runtime) = .ok p := h
    unfold PyProgram.new at h
    split at h
    · next hk =>
      have h : (if PyProgram.validate _ = true then Except.ok _ else throwExc Exc.runtime) = .ok p := h
      split at h
      · next hv =>
        have hp := (Except.ok.inj h).symm
        rw [← hp] at hv
        have hv : p.validate = true := hv
        unfold PyProgram.validate at hv
        rw [programSchema_iff] at hv
        have hdate : pyTruthy p.date = true ∧ IsText p.entryOperator := by
          obtain ⟨x, hx, ht⟩ := hv.entry
          have := (toJson_member ..).1 hx
          simp at this
          exact ⟨this.1, this.2 ▸ ht⟩
        have arg : ∀ (k : Str) (x : Json V), x ≠ .null → (pyArg args k .null = x ↔ Member (.obj args) k x) := by
          intro k x hx
          rw [member_iff]
          unfold pyArg
          cases Map.find? args k with
          | none => simp [eq_comm, hx]
          | some y => simp
        have lst : ∀ (k : Str) (x : Json V), pyOrList (pyArg args k .null) = x ↔
            Member (.obj args) k x ∧ x ≠ .null ∨ x = .arr [] ∧ ∀ y, Member (.obj args) k y → y = .null := by
          intro k x
          simp only [member_iff]
          unfold pyArg
          cases Map.find? args k with
          | none => simp [pyOrList, eq_comm]
          | some y =>
            cases y <;> simp [pyOrList, eq_comm]
            all_goals (rintro rfl; simp)
        have txt : ∀ (k : Str) (x y : Json V), (k ∈ [b!"title", b!"description", b!"author", b!"license"]) → y = pyArg args k .null →
            (∀ x, Member p.toJson k x ↔ pyTruthy y = true ∧ y = x) →
            (Member p.toJson k x ↔ Member (.obj args) k x ∧ ∃ s, s ≠ [] ∧ x = .str s) := by
          intro k x y hkk hy hm
          constructor
          · intro hx
            obtain ⟨s, rfl⟩ := hv.texts k hkk x hx
            obtain ⟨h1, h2⟩ := (hm _).1 hx
            refine ⟨(arg k _ (by simp)).1 (hy ▸ h2), s, ?_, rfl⟩
            rintro rfl
            rw [h2] at h1
            cases h1
          · rintro ⟨hx, s, hs, rfl⟩
            have := (arg k _ (by simp)).2 hx
            refine (hm _).2 ⟨?_, hy.trans this⟩
            rw [hy, this]
            cases s with
            | nil => exact absurd rfl hs
            | cons => rfl
        refine ⟨by rw [hp], hv, fun x => ?_, fun x => ?_, fun k hkk x => ?_, fun k hkk x => ?_, fun k x hx => ?_⟩
        · rw [toJson_member]
          simp only [hdate.1, true_and]
          have : p.entryOperator = pyArg args b!"entryOperator" .null := by rw [hp]
          obtain ⟨s, hs⟩ := hdate.2
          simp
          constructor
          · intro hx
            exact (arg _ _ (by rw [← hx, hs]; simp)).1 (this ▸ hx)
          · intro hx
            rw [hs] at this ⊢
            rw [this]
            unfold pyArg
            rw [member_iff.1 hx]
        · rw [toJson_member]
          have : p.date = pyArg args b!"date" .null := by rw [hp]
          have hne : p.date ≠ .null := fun hc => by rw [hc] at hdate; cases hdate.1
          simp [hdate.1]
          constructor
          · intro hx
            exact (arg _ _ (hx ▸ hne)).1 (this ▸ hx)
          · intro hx
            rw [this]
            unfold pyArg
            rw [member_iff.1 hx]
        · simp only [List.mem_cons, List.not_mem_nil, or_false] at hkk
          rcases hkk with rfl | rfl
          · rw [← lst, toJson_member]
            simp [hp]
          · rw [← lst, toJson_member]
            simp [hp]
        · have hkk' := hkk
          simp only [List.mem_cons, List.not_mem_nil, or_false] at hkk
          rcases hkk with rfl | rfl | rfl | rfl
          · exact txt _ x p.title hkk' (by rw [hp]) fun x => by rw [toJson_member]; simp
          · exact txt _ x p.description hkk' (by rw [hp]) fun x => by rw [toJson_member]; simp
          · exact txt _ x p.author hkk' (by rw [hp]) fun x => by rw [toJson_member]; simp
          · exact txt _ x p.license hkk' (by rw [hp]) fun x => by rw [toJson_member]; simp
        · have := List.all_eq_true.1 hk k ((Map.find?_isSome_iff ..).1 (by rw [member_iff.1 hx]; rfl))
          simpa [pyProgramKeys] using this
      · cases h
    · cases h
  | _ => cases h

/-- C71: every program that follows the documentation, has a date and no output filter can be read.

Missing: programs without a date, and programs with an output filter, see below. -/
theorem C71_accepted_partial {j : Json V} (id : Str) (h : DocProgram j) (hd : ∃ x, Member j b!"date" x)
    (hk : ∀ k x, Member j k x → k ∈ [b!"operators", b!"connections", b!"entryOperator", b!"title", b!"description", b!"apiVersion", b!"date", b!"author",
      b!"license"]) : ∃ p, pyParse id j = .ok p := by
  obtain ⟨_, ⟨args, rfl, _⟩, _⟩ := h.entry
  have mem : ∀ (k : Str) (x : Json V) d, Member (.obj args) k x → pyArg args k d = x := fun k x d hx => pyArg_eq (member_iff.1 hx)
  obtain ⟨p, hp⟩ : ∃ p, PyProgram.new id args = .ok p := by
    refine ⟨_, if_pos (List.all_eq_true.2 fun k hkk => ?_)⟩
    have : Map.find? args k ≠ none := fun hn => (Map.find?_none_iff ..).1 hn hkk
    obtain ⟨x, hx⟩ := Option.ne_none_iff_exists'.1 this
    simpa [pyProgramKeys] using hk k x ⟨_, rfl, hx⟩
  have hp' := hp
  unfold PyProgram.new at hp
  split at hp
  · have hp := (Except.ok.inj hp).symm
    obtain ⟨xd, hxd⟩ := hd
    have hdate : p.date = xd := by rw [hp]; exact mem _ _ _ hxd
    have htr : pyTruthy p.date = true := isDate_truthy (hdate ▸ h.date _ hxd)
    have hv : p.validate = true := by
      unfold PyProgram.validate
      rw [programSchema_iff]
      obtain ⟨xe, he1, he2⟩ := h.entry
      obtain ⟨xo, ho1, lo, rfl, ho2⟩ := h.operators
      obtain ⟨xc, hc1, lc, rfl, hc2⟩ := h.connections
      have txt : ∀ (k : Str) (x y : Json V), k ∈ [b!"title", b!"description", b!"author", b!"license"] → y = pyArg args k .null → pyTruthy y = true →
          y = x → IsText x := by
        rintro k x y hkk hy ht rfl
        cases ha : Map.find? args k with
        | none => rw [hy, pyArg_none ha] at ht; cases ht
        | some z =>
          rw [hy, pyArg_eq ha]
          exact h.texts k hkk z ⟨_, rfl, ha⟩
      refine ⟨⟨p.entryOperator, (toJson_member ..).2 (by simp [htr]), ?_⟩, ⟨p.operators, (toJson_member ..).2 (by simp), lo, ?_, ho2⟩,
        ⟨p.connections, (toJson_member ..).2 (by simp), lc, ?_, hc2⟩, ?_, ?_, ?_, ?_⟩
      · rw [hp]; exact (mem _ _ _ he1) ▸ he2
      · rw [hp]; show pyOrList _ = _; rw [mem _ _ _ ho1]; rfl
      · rw [hp]; show pyOrList _ = _; rw [mem _ _ _ hc1]; rfl
      · intro x hx
        have := (toJson_member ..).1 hx
        simp at this
      · intro k hkk x hx
        have hkk' := hkk
        simp only [List.mem_cons, List.not_mem_nil, or_false] at hkk
        have := (toJson_member ..).1 hx
        rcases hkk with rfl | rfl | rfl | rfl <;> simp at this
        · exact txt _ x p.title hkk' (by rw [hp]) this.1 this.2
        · exact txt _ x p.description hkk' (by rw [hp]) this.1 this.2
        · exact txt _ x p.author hkk' (by rw [hp]) this.1 this.2
        · exact txt _ x p.license hkk' (by rw [hp]) this.1 this.2
      · intro x hx
        have := (toJson_member ..).1 hx
        simp at this
        rw [← this, hp]
        show pyArg args b!"apiVersion" _ = _
        cases ha : Map.find? args b!"apiVersion" with
        | none => exact pyArg_none ha
        | some z => rw [pyArg_eq ha]; exact h.version z ⟨_, rfl, ha⟩
      · intro x hx
        have := (toJson_member ..).1 hx
        simp at this
        rw [← this.2, hdate]
        exact h.date _ hxd
    refine ⟨p, ?_⟩
    show (PyProgram.new id args >>= fun q => if q.validate = true then Except.ok q else throwExc Exc.runtime) = _
    rw [hp']
    show (if p.validate = true then _ else _) = _
    rw [if_pos hv]
  · cases hp

/-- C71 is violated: a program without a date cannot be read, though the documentation does not ask for one. -/
theorem C71_violated_date {j : Json V} (id : Str) (h : ∀ x, ¬ Member j b!"date" x) (p : PyProgram V) : pyParse id j ≠ .ok p := by
  intro hp
  obtain ⟨_, h1, _, h2, _⟩ := C71_read hp
  obtain ⟨x, hx, _⟩ := h1.entry
  have := (toJson_member ..).1 hx
  simp at this
  exact h _ ((h2 p.date).1 ((toJson_member ..).2 (by simp [this.1])))

/-- C71 is violated: a program with an output filter cannot be read. -/
theorem C71_violated_output {j x : Json V} (id : Str) (h : Member j b!"output" x) (p : PyProgram V) : pyParse id j ≠ .ok p := by
  intro hp
  obtain ⟨_, _, _, _, _, _, h1⟩ := C71_read hp
  exact absurd (h1 _ _ h) (by decide)

/-- A documented program with an output filter and one without a date. -/
example : programSchema.accepts (.obj [(b!"connections", .arr []), (b!"date", .str b!"2000-01-01"), (b!"entryOperator", .str b!"a"),
      (b!"operators", .arr [pyCount b!"a"]), (b!"output", .obj [(b!"a", .arr [.str b!"o1"])])] : Json ℚ) = true ∧
    programSchema.accepts (.obj [(b!"connections", .arr []), (b!"entryOperator", .str b!"a"), (b!"operators", .arr [pyCount b!"a"])] : Json ℚ) = true ∧
    (pyParse b!"1a2b" (.obj [(b!"connections", .arr []), (b!"date", .str b!"2000-01-01"), (b!"entryOperator", .str b!"a"),
      (b!"operators", .arr [pyCount b!"a"]), (b!"title", .str b!"t")] : Json ℚ)).isOk = true := by decide +kernel

end Rtbot
