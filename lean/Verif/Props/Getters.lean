import Verif.Props.Factory
import Verif.Props.Schema
import Verif.Lemmas.Memory

set_option linter.unusedSectionVars false

/-! # C67: what the interface tells about a program -/

namespace Rtbot
variable {V : Type} [Num V]
open Spec

theorem created_wf {junk : Junk V} {json : Str} {j : Json V} {P : Prog V} (h : Prog.initWith junk json j = .ok P) : HeapWF P.st.heap := by
  rcases initWith_orderly h with rfl | ⟨m, h1, h2, _⟩
  · exact fun _ _ h => by cases h
  · intro a o ho
    rw [h2] at ho
    have := (h1.made a o ho).begun
    exact ⟨this.data, this.ctrl⟩

/-- The second program is the first one after some calls, as far as the interface tells. -/
structure Recalls (P P' : Prog V) : Prop where
  entry : P'.entry = P.entry
  ops : P'.ops = P.ops
  filter : P'.filter = P.filter
  shape : SameShape P.st.heap P'.st.heap

theorem Recalls.refl (P : Prog V) : Recalls P P := ⟨rfl, rfl, rfl, SameShape.refl _⟩

theorem Recalls.trans {P P' P'' : Prog V} (h : Recalls P P') (h' : Recalls P' P'') : Recalls P P'' :=
  ⟨h'.entry.trans h.entry, h'.ops.trans h.ops, h'.filter.trans h.filter, h.shape.trans h'.shape⟩

theorem Recalls.ports {P P' : Prog V} (h : Recalls P P') : P'.entryPorts = P.entryPorts := by
  unfold Prog.entryPorts
  rw [h.entry, h.ops]
  split
  · rfl
  · cases P.ops.find? P.entry with
    | none => rfl
    | some a =>
      have := h.shape a
      cases h1 : P.st.heap a with
      | none =>
        rw [h1] at this
        cases h2 : P'.st.heap a with
        | none => simp only [h1, h2]
        | some o' => rw [h2] at this; cases this
      | some o =>
        rw [h1] at this
        cases h2 : P'.st.heap a with
        | none => rw [h2] at this; cases this
        | some o' =>
          rw [h2] at this
          have h3 : o'.fresh = o.fresh := Option.some.inj this
          have h4 : freshMap o'.core.dataIn = freshMap o.core.dataIn := congrArg (fun x : Op V => x.core.dataIn) h3
          simp only [h1, h2]
          rw [← keys_freshMap, h4, keys_freshMap]

theorem answer_recalls (debug : Bool) (fuel : Nat) {P : Prog V} (hw : HeapWF P.st.heap) (msgs : OpMsg V) :
    Recalls P (P.answer debug fuel msgs).state := by
  obtain ⟨h1, h2, h3, h4⟩ := answer_frame debug fuel P msgs
  have h5 := (receiveDebug_steps (fuel := fuel) (msgs := msgs) (ctx_any hw) (fun _ _ => trivial)).shape
  refine ⟨h3, h2, h4, ?_⟩
  rw [h1]
  exact h5

/-- The registry still has the program. -/
def Holds (F : Factory V) (id : Str) (P : Prog V) : Prop := ∃ P', F.programs.find? id = some P' ∧ Recalls P P'

theorem holds_same {F F' : Factory V} {id : Str} {P : Prog V} (h : Holds F id P) (he : F'.programs = F.programs) : Holds F' id P := by
  obtain ⟨P', h1, h2⟩ := h
  exact ⟨P', he ▸ h1, h2⟩

theorem holds_processMap {F : Factory V} {id : Str} {P : Prog V} (h : Holds F id P) (hw : HeapWF P.st.heap) (debug : Bool) (fuel : Nat) (msgs : OpMsg V) :
    Holds (F.processMap debug fuel id msgs).state id P := by
  obtain ⟨P', h1, h2⟩ := h
  have h3 := h2.trans (answer_recalls debug fuel (h2.shape.wf hw) msgs)
  unfold Factory.processMap
  rw [h1]
  simp only []
  cases hr : P'.answer debug fuel msgs with
  | ok r Q => rw [hr] at h3; exact ⟨Q, (Map.find?_put ..).trans (if_pos rfl), h3⟩
  | err e Q => rw [hr] at h3; exact ⟨Q, (Map.find?_put ..).trans (if_pos rfl), h3⟩

theorem holds_processBuffer {F : Factory V} {id : Str} {P : Prog V} (h : Holds F id P) (hw : HeapWF P.st.heap) (debug : Bool) (fuel : Nat) :
    Holds (F.processBuffer debug fuel id).state id P := by
  have hm := holds_processMap h hw debug fuel
  unfold Factory.processBuffer
  split
  · split
    · exact h
    · exact h
    · rename_i msgs _ _
      have := hm msgs
      cases hr : F.processMap debug fuel id msgs with
      | ok r Q => rw [hr] at this; exact holds_same this rfl
      | err e Q => rw [hr] at this; exact this
  · exact h

theorem add_programs (F : Factory V) (id port : Str) (m : Msg V) : (F.add id port m).state.programs = F.programs := by
  unfold Factory.add
  split <;> rfl

theorem addAll_programs (id : Str) (l : List (UInt64 × V × Str)) : ∀ F : Factory V, (F.addAll id l).state.programs = F.programs := by
  induction l with
  | nil => intro F; rfl
  | cons x l ih =>
    intro F
    obtain ⟨t, v, p⟩ := x
    unfold Factory.addAll
    have h := add_programs F id p ⟨t, v⟩
    cases hr : F.add id p ⟨t, v⟩ with
    | ok b F' => rw [hr] at h; exact (ih F').trans h
    | err e F' => rw [hr] at h; exact h

/-- A call that does not delete the program leaves it in the registry. -/
theorem serve_holds (env : Env V) {F : Factory V} {id : Str} {P : Prog V} (h : Holds F id P) (hw : HeapWF P.st.heap) (r : Req V) (hr : r ≠ .delete id) :
    Holds (F.serve env r).state id P := by
  by_cases hid : Req.id r = id
  · subst hid
    obtain ⟨P', h1, h2⟩ := h
    by_cases hc : Req.creates r = true
    · rw [C41_untouched env F P' r hc h1]; exact ⟨P', h1, h2⟩
    · have h : Holds F (Req.id r) P := ⟨P', h1, h2⟩
      cases r with
      | createBytes | createJson | createChecked => exact absurd rfl hc
      | delete i => exact absurd rfl hr
      | serialize i =>
        simp only [Factory.serve, state_as, Factory.serialize]
        split
        · exact h
        · split <;> exact h
      | add i port m =>
        simp only [Factory.serve, state_as]
        exact holds_same h (add_programs ..)
      | processBuffer d i => simp only [Factory.serve, state_as]; exact holds_processBuffer h hw d _
      | processMap d i msgs => simp only [Factory.serve, state_as]; exact holds_processMap h hw d _ msgs
      | batch d i ts vs ps =>
        simp only [Factory.serve, state_as, Factory.batch]
        have ha : Holds (F.addBatch i ts vs ps).state i P := by
          unfold Factory.addBatch
          split
          · exact h
          · exact holds_same h (addAll_programs ..)
        cases hb : F.addBatch i ts vs ps with
        | ok u F' => rw [hb] at ha; exact holds_processBuffer ha hw d _
        | err e F' => rw [hb] at ha; exact ha
      | entryId i => simp only [Factory.serve, state_as, Factory.entryId]; split <;> exact h
      | entryPorts i =>
        simp only [Factory.serve, state_as, Factory.entryPorts]
        split
        · exact h
        · split <;> exact h
      | outputFilter i => simp only [Factory.serve, state_as, Factory.outputFilter]; split <;> exact h
  · obtain ⟨P', h1, h2⟩ := h
    exact ⟨P', (serve_other env F r hid).prog.trans h1, h2⟩

theorem served_holds (env : Env V) {id : Str} {P : Prog V} (hw : HeapWF P.st.heap) (rs : List (Req V)) : ∀ {F : Factory V}, Holds F id P →
    (∀ r ∈ rs, r ≠ .delete id) → Holds (served env F rs) id P := by
  induction rs with
  | nil => intro F h _; exact h
  | cons r rs ih =>
    intro F h hr
    exact ih (serve_holds env h hw r (hr r (by simp))) fun x hx => hr x (List.mem_cons_of_mem _ hx)

/-! ## C67 -/

/-- C67: from the creation of a program under a free id on, through any calls but its deletion (calls on other programs, failing calls, further creations
under the same id), the interface tells the entry operator, the ports of the entry operator and the output filter that the program was created with,
and accepts messages for it. -/
theorem C67_told (env : Env V) (junk : Junk V) (id json : Str) (P : Prog V) (hp : Prog.create env.parse junk json = .ok P) (F : Factory V)
    (hn : F.programs.find? id = none) (rs : List (Req V)) (hr : ∀ r ∈ rs, r ≠ .delete id) :
    let F' := served env F (.createJson junk id json :: rs)
    outcome (F'.serve env (.entryId id)) = .ok (.text P.entry) ∧
    outcome (F'.serve env (.entryPorts id)) = P.entryPorts.map .ports ∧
    outcome (F'.serve env (.outputFilter id)) = .ok (.filter P.filter) ∧
    ∀ port m, outcome (F'.serve env (.add id port m)) = .ok (.flag true) := by
  intro F'
  have hw : HeapWF P.st.heap := by
    unfold Prog.create at hp
    cases hj : env.parse json with
    | error e => rw [hj] at hp; cases hp
    | ok j => rw [hj] at hp; exact created_wf hp
  have h0 : Holds (F.serve env (.createJson junk id json)).state id P := by
    have hh : F.programs.has id = false := by unfold Map.has; rw [hn]; rfl
    simp only [Factory.serve, Factory.createJson, hp, Res.as, Res.state]
    refine ⟨P, ?_, Recalls.refl P⟩
    simp only [Map.emplace, hh]
    exact (Map.find?_put ..).trans (if_pos rfl)
  obtain ⟨P', h1, h2⟩ := served_holds env hw rs h0 hr
  have h1 : F'.programs.find? id = some P' := h1
  refine ⟨?_, ?_, ?_, fun port m => ?_⟩
  · simp only [Factory.serve, Factory.entryId, h1, Res.as, outcome, h2.entry]
  · simp only [Factory.serve, Factory.entryPorts, h1, h2.ports]
    cases P.entryPorts <;> rfl
  · simp only [Factory.serve, Factory.outputFilter, h1, Res.as, outcome, h2.filter]
  · simp only [Factory.serve, Factory.add, has_of_find h1, if_true, Res.as, outcome]

/-- C67: what a program is created with is what the description says: it is the program without operators (C46), or its entry operator is the one the
description names, its ports can be asked for, they are the data ports of the entry operator, in lexicographic order without repetition, and there is no
filter if the description has none (C64 tells which one it is otherwise). -/
theorem C67_described {junk : Junk V} {json : Str} {j : Json V} {P : Prog V} (h : Prog.initWith junk json j = .ok P) :
    P = Prog.empty json ∨ Member j b!"entryOperator" (.str P.entry) ∧ (∃ ps a o, P.entryPorts = .ok ps ∧ P.ops.find? P.entry = some a ∧
      P.st.heap a = some o ∧ (∀ p, p ∈ ps ↔ o.core.dataIn.has p = true) ∧ ps.Pairwise fun p q => strLt p q = true) ∧
      ((∀ x, ¬ Member j b!"output" x) → P.filter = []) := by
  rcases C46_entry_partial h with h1 | ⟨h1, h2, a, o, h3, h4, _⟩
  · exact Or.inl h1
  refine Or.inr ⟨h1, ⟨o.core.dataIn.keys, a, o, ?_, h3, h4, fun p => ?_, ?_⟩, fun hx => ?_⟩
  · unfold Prog.entryPorts
    rw [if_neg h2, h3]
    simp only [h4]
  · exact (Map.find?_isSome_iff ..).symm
  · exact (created_wf h a o h4).data
  · exact C64_absent (parse := parsed j) (s := json) (j := j) rfl (P := P) (junk := junk) h hx

/-- A concrete case: the program is asked after a call, a failing creation from bytes, a second creation and calls for another program. -/
example : outcomes sumEnv (served sumEnv Factory.empty
      [.createJson (fun _ => (0, 0)) b!"A" b!"{}", .processMap false b!"A" [(i1, [⟨1, 5⟩])], .createBytes (fun _ => (0, 0)) b!"A" [],
       .createJson (fun _ => (1, 1)) b!"A" b!"{}", .createJson (fun _ => (0, 0)) b!"B" b!"{}", .delete b!"B"])
    [.entryId b!"A", .entryPorts b!"A", .outputFilter b!"A", .add b!"A" i1 ⟨2, 7⟩, .entryId b!"B"] =
    [.ok (.text b!"in"), .ok (.ports [i1]), .ok (.filter [(b!"ma", [o1])]), .ok (.flag true), .error (.exc .runtime)] := by
  decide +kernel

end Rtbot
