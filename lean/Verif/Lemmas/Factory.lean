import Verif.Lemmas.Program
import Verif.Spec.Factory

set_option linter.unusedSectionVars false

/-! # The registry of programs -/

namespace Rtbot
variable {V : Type} [Num V]
open Spec

/-- Two registries that agree on the program `b` and its buffer. -/
structure SameView (b : Str) (F F' : Factory V) : Prop where
  prog : F'.programs.find? b = F.programs.find? b
  buf : F'.buffered b = F.buffered b

theorem SameView.refl (b : Str) (F : Factory V) : SameView b F F := ⟨rfl, rfl⟩

theorem SameView.trans {b : Str} {F F' F'' : Factory V} (h : SameView b F F') (h' : SameView b F' F'') : SameView b F F'' :=
  ⟨h'.prog.trans h.prog, h'.buf.trans h.buf⟩

theorem SameView.symm {b : Str} {F F' : Factory V} (h : SameView b F F') : SameView b F' F := ⟨h.prog.symm, h.buf.symm⟩

theorem SameView.has {b : Str} {F F' : Factory V} (h : SameView b F F') : F'.programs.has b = F.programs.has b := by
  unfold Map.has
  rw [h.prog]

theorem SameView.buffered {b : Str} {F F' : Factory V} (h : SameView b F F') : F'.buffered b = F.buffered b := h.buf

theorem has_of_find {F : Factory V} {id : Str} {P : Prog V} (h : F.programs.find? id = some P) : F.programs.has id = true := by
  unfold Map.has
  rw [h]
  rfl

theorem processBuffer_eq {F : Factory V} {id : Str} {P : Prog V} (h : F.programs.find? id = some P) (debug : Bool) (fuel : Nat) :
    F.processBuffer debug fuel id = if F.buffered id = [] then .ok [] F else
      match P.answer debug fuel (F.buffered id) with
      | .err e P' => .err e { F with programs := F.programs.put id P' }
      | .ok r P' => .ok r ⟨F.programs.put id P', F.buffer.erase id⟩ := by
  unfold Factory.processBuffer Factory.buffered
  rw [if_pos (has_of_find h)]
  cases hb : F.buffer.find? id with
  | none => simp
  | some x =>
    cases x with
    | nil => simp
    | cons e x =>
      simp only [reduceCtorEq, if_false]
      unfold Factory.processMap
      rw [h]
      dsimp only
      cases P.answer debug fuel (e :: x) <;> rfl

theorem buffered_congr {F F' : Factory V} {id : Str} (h : F'.buffer.find? id = F.buffer.find? id) : F'.buffered id = F.buffered id := by
  unfold Factory.buffered
  rw [h]

theorem buffered_same {F F' : Factory V} (h : F'.buffer = F.buffer) (id : Str) : F'.buffered id = F.buffered id := by
  unfold Factory.buffered
  rw [h]

theorem buffered_erase (ps : Map (Prog V)) (bs : Map (OpMsg V)) (id : Str) : Factory.buffered ⟨ps, bs.erase id⟩ id = [] := by
  unfold Factory.buffered
  rw [Map.find?_erase, if_pos rfl]

theorem state_as {σ α β : Type} (f : α → β) (r : Res σ α) : (r.as f).state = r.state := by cases r <;> rfl

theorem outcome_as {σ α β : Type} (f : α → β) (r : Res σ α) : outcome (r.as f) = (outcome r).map f := by cases r <;> rfl

/-! ## Calls do not touch other programs -/

theorem view_putProg {b id : Str} (h : b ≠ id) (F : Factory V) (P : Prog V) : SameView b F { F with programs := F.programs.put id P } :=
  ⟨Map.find?_put_ne _ _ h, rfl⟩

theorem view_emplace {b id : Str} (h : b ≠ id) (F : Factory V) (P : Prog V) : SameView b F { F with programs := F.programs.emplace id P } := by
  refine ⟨?_, rfl⟩
  dsimp only
  rw [Map.find?_emplace, if_neg h]

theorem view_processMap {b id : Str} (h : b ≠ id) (debug : Bool) (fuel : Nat) (F : Factory V) (msgs : OpMsg V) :
    SameView b F (F.processMap debug fuel id msgs).state := by
  unfold Factory.processMap
  split
  · exact SameView.refl _ _
  · split
    · exact view_putProg h F _
    · exact view_putProg h F _

theorem view_processBuffer {b id : Str} (h : b ≠ id) (debug : Bool) (fuel : Nat) (F : Factory V) :
    SameView b F (F.processBuffer debug fuel id).state := by
  unfold Factory.processBuffer
  split
  · split
    · exact SameView.refl _ _
    · exact SameView.refl _ _
    · rename_i msgs _ _
      have := view_processMap h debug fuel F msgs
      split
      · rename_i hr; rw [hr] at this; exact this
      · rename_i hr
        rw [hr] at this
        exact this.trans ⟨rfl, buffered_congr ((Map.find?_erase _ _ _).trans (if_neg h))⟩
  · exact SameView.refl _ _

theorem view_add {b id : Str} (h : b ≠ id) (F : Factory V) (port : Str) (m : Msg V) : SameView b F (F.add id port m).state := by
  unfold Factory.add
  split
  · exact ⟨rfl, buffered_congr (Map.find?_put_ne _ _ h)⟩
  · exact SameView.refl _ _

theorem view_addAll {b id : Str} (h : b ≠ id) (l : List (UInt64 × V × Str)) : ∀ F : Factory V, SameView b F (F.addAll id l).state := by
  induction l with
  | nil => intro F; exact SameView.refl _ _
  | cons x l ih =>
    intro F
    obtain ⟨t, v, port⟩ := x
    have := view_add h F port ⟨t, v⟩
    unfold Factory.addAll
    split
    · rename_i hr; rw [hr] at this; exact this
    · rename_i hr; rw [hr] at this; exact this.trans (ih _)

theorem view_batch {b id : Str} (h : b ≠ id) (debug : Bool) (fuel : Nat) (F : Factory V) (ts : List UInt64) (vs : List V) (ps : List Str) :
    SameView b F (F.batch debug fuel id ts vs ps).state := by
  have : SameView b F (F.addBatch id ts vs ps).state := by
    unfold Factory.addBatch
    split
    · exact SameView.refl _ _
    · exact view_addAll h _ F
  unfold Factory.batch
  split
  · rename_i hr; rw [hr] at this; exact this
  · rename_i hr; rw [hr] at this; exact this.trans (view_processBuffer h _ _ _)

theorem view_createJson {b id : Str} (h : b ≠ id) (parse : Parser V) (junk : Junk V) (F : Factory V) (json : Str) :
    SameView b F (F.createJson parse junk id json).state := by
  unfold Factory.createJson
  split
  · exact SameView.refl _ _
  · exact SameView.refl _ _
  · exact view_emplace h F _

theorem serve_other (env : Env V) {b : Str} (F : Factory V) (r : Req V) (h : Req.id r ≠ b) : SameView b F (F.serve env r).state := by
  cases r <;> simp only [Req.id] at h <;> have h := fun he => h (Eq.symm he) <;> simp only [Factory.serve, state_as]
  case serialize id =>
    unfold Factory.serialize
    split
    · exact SameView.refl _ _
    · split <;> exact SameView.refl _ _
  case createBytes junk id bytes =>
    unfold Factory.createBytes
    split
    · exact SameView.refl _ _
    · split
      · exact SameView.refl _ _
      · exact view_emplace h F _
  case createJson junk id json => exact view_createJson h _ _ _ _
  case createChecked junk id json =>
    unfold Factory.createChecked
    split
    · exact SameView.refl _ _
    · exact view_createJson h _ _ _ _
  case delete id => exact ⟨(Map.find?_erase _ _ _).trans (if_neg h), rfl⟩
  case add id port m => exact view_add h _ _ _
  case processBuffer d id => exact view_processBuffer h _ _ _
  case processMap d id msgs => exact view_processMap h _ _ _ _
  case batch d id ts vs ps => exact view_batch h _ _ _ _ _ _
  case entryId id => unfold Factory.entryId; split <;> exact SameView.refl _ _
  case entryPorts id =>
    unfold Factory.entryPorts
    split
    · exact SameView.refl _ _
    · split <;> exact SameView.refl _ _
  case outputFilter id => unfold Factory.outputFilter; split <;> exact SameView.refl _ _

/-! ## Calls depend on the program they name only -/

/-- The same outcome, and the registries still agree. -/
structure Agree {α : Type} (b : Str) (r r' : Res (Factory V) α) : Prop where
  out : outcome r' = outcome r
  view : SameView b r.state r'.state

theorem Agree.as {α β : Type} {b : Str} {r r' : Res (Factory V) α} (h : Agree b r r') (f : α → β) : Agree b (r.as f) (r'.as f) :=
  ⟨by rw [outcome_as, outcome_as, h.out], by rw [state_as, state_as]; exact h.view⟩

theorem Agree.ok {α : Type} {b : Str} {a : α} {F F' : Factory V} (h : SameView b F F') : Agree b (.ok a F) (.ok a F') := ⟨rfl, h⟩

theorem Agree.err {α : Type} {b : Str} {e : Err} {F F' : Factory V} (h : SameView b F F') : Agree b (.err e F : Res _ α) (.err e F') := ⟨rfl, h⟩

theorem agree_putProg {b : Str} {F F' : Factory V} (h : SameView b F F') (P : Prog V) :
    SameView b { F with programs := F.programs.put b P } { F' with programs := F'.programs.put b P } :=
  ⟨by simp, h.buf⟩

theorem agree_emplace {b : Str} {F F' : Factory V} (h : SameView b F F') (P : Prog V) :
    SameView b { F with programs := F.programs.emplace b P } { F' with programs := F'.programs.emplace b P } := by
  refine ⟨?_, h.buf⟩
  dsimp only
  rw [Map.find?_emplace, Map.find?_emplace, h.prog]

theorem agree_processMap {b : Str} {F F' : Factory V} (h : SameView b F F') (debug : Bool) (fuel : Nat) (msgs : OpMsg V) :
    Agree b (F.processMap debug fuel b msgs) (F'.processMap debug fuel b msgs) := by
  unfold Factory.processMap
  rw [h.prog]
  split
  · exact .ok h
  · split
    · exact .err (agree_putProg h _)
    · exact .ok (agree_putProg h _)

theorem agree_processBuffer {b : Str} {F F' : Factory V} (h : SameView b F F') (debug : Bool) (fuel : Nat) :
    Agree b (F.processBuffer debug fuel b) (F'.processBuffer debug fuel b) := by
  cases hp : F.programs.find? b with
  | none =>
    have h1 : F.programs.has b = false := by unfold Map.has; rw [hp]; rfl
    unfold Factory.processBuffer
    rw [h.has, h1]
    exact .err h
  | some P =>
    rw [processBuffer_eq hp, processBuffer_eq (h.prog.trans hp), h.buf]
    split
    · exact .ok h
    · split
      · exact .err (agree_putProg h _)
      · exact .ok ⟨by simp, by rw [buffered_erase, buffered_erase]⟩

theorem agree_add {b : Str} {F F' : Factory V} (h : SameView b F F') (port : Str) (m : Msg V) : Agree b (F.add b port m) (F'.add b port m) := by
  unfold Factory.add
  rw [h.has, h.buffered]
  split
  · exact .ok ⟨h.prog, by simp [Factory.buffered]⟩
  · exact .err h

theorem agree_addAll {b : Str} (l : List (UInt64 × V × Str)) : ∀ {F F' : Factory V}, SameView b F F' → Agree b (F.addAll b l) (F'.addAll b l) := by
  induction l with
  | nil => intro F F' h; exact .ok h
  | cons x l ih =>
    intro F F' h
    obtain ⟨t, v, port⟩ := x
    obtain ⟨h1, h2⟩ := agree_add h port ⟨t, v⟩
    unfold Factory.addAll
    cases hx : F.add b port ⟨t, v⟩ <;> cases hy : F'.add b port ⟨t, v⟩ <;> rw [hx, hy] at h1 h2 <;> cases h1
    · exact ih h2
    · exact .err h2

theorem agree_batch {b : Str} {F F' : Factory V} (h : SameView b F F') (debug : Bool) (fuel : Nat) (ts : List UInt64) (vs : List V) (ps : List Str) :
    Agree b (F.batch debug fuel b ts vs ps) (F'.batch debug fuel b ts vs ps) := by
  have : Agree b (F.addBatch b ts vs ps) (F'.addBatch b ts vs ps) := by
    unfold Factory.addBatch
    split
    · exact .err h
    · exact agree_addAll _ h
  obtain ⟨h1, h2⟩ := this
  unfold Factory.batch
  cases hx : F.addBatch b ts vs ps <;> cases hy : F'.addBatch b ts vs ps <;> rw [hx, hy] at h1 h2 <;> cases h1
  · exact agree_processBuffer h2 _ _
  · exact .err h2

theorem agree_createJson {b : Str} {F F' : Factory V} (h : SameView b F F') (parse : Parser V) (junk : Junk V) (json : Str) :
    Agree b (F.createJson parse junk b json) (F'.createJson parse junk b json) := by
  unfold Factory.createJson
  split
  · exact .ok h
  · exact .err h
  · exact .ok (agree_emplace h _)

theorem serve_agree (env : Env V) {F F' : Factory V} (r : Req V) (h : SameView (Req.id r) F F') :
    Agree (Req.id r) (F.serve env r) (F'.serve env r) := by
  cases r <;> simp only [Req.id] at h ⊢ <;> simp only [Factory.serve] <;> apply Agree.as
  case serialize id =>
    unfold Factory.serialize
    rw [h.prog]
    split
    · exact .err h
    · split
      · exact .err h
      · exact .ok h
  case createBytes junk id bytes =>
    unfold Factory.createBytes
    rw [h.has]
    split
    · exact .err h
    · split
      · exact .err h
      · exact .ok (agree_emplace h _)
  case createJson junk id json => exact agree_createJson h _ _ _
  case createChecked junk id json =>
    unfold Factory.createChecked
    split
    · exact .ok h
    · exact agree_createJson h _ _ _
  case delete id =>
    unfold Factory.delete
    rw [h.has]
    refine .ok ⟨?_, h.buf⟩
    dsimp only
    rw [Map.find?_erase, Map.find?_erase, if_pos rfl, if_pos rfl]
  case add id port m => exact agree_add h _ _
  case processBuffer d id => exact agree_processBuffer h _ _
  case processMap d id msgs => exact agree_processMap h _ _ _
  case batch d id ts vs ps => exact agree_batch h _ _ _ _ _
  case entryId id =>
    unfold Factory.entryId
    rw [h.prog]
    split
    · exact .err h
    · exact .ok h
  case entryPorts id =>
    unfold Factory.entryPorts
    rw [h.prog]
    split
    · exact .err h
    · split
      · exact .err h
      · exact .ok h
  case outputFilter id =>
    unfold Factory.outputFilter
    rw [h.prog]
    split
    · exact .err h
    · exact .ok h

/-- Only the program named and its buffer matter. -/
theorem outcomesOf_view (env : Env V) (b : Str) (rs : List (Req V)) : ∀ {F F' : Factory V}, SameView b F F' →
    outcomesOf env b F rs = outcomes env F' (rs.filter fun r => Req.id r = b) := by
  induction rs with
  | nil => intro F F' _; rfl
  | cons r rs ih =>
    intro F F' h
    unfold outcomesOf
    by_cases hb : Req.id r = b
    · subst hb
      have := serve_agree env r h
      rw [if_pos rfl, List.filter_cons_of_pos (by simp), outcomes, this.out, ih this.view]
    · rw [if_neg hb, List.filter_cons_of_neg (by simpa using hb)]
      exact ih ((serve_other env F r hb).symm.trans h)

theorem erase_of_not_has {β : Type} {m : Map β} {k : Str} (h : m.has k = false) : m.erase k = m := by
  unfold Map.erase
  rw [List.filter_eq_self]
  intro e he
  have : k ∉ m.keys := by
    rw [← Map.has_iff, h]
    simp
  simp only [Map.keys, List.mem_map, not_exists, not_and] at this
  simpa using this e he

end Rtbot
