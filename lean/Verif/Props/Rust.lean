import Verif.Spec.Rust
import Verif.Lemmas.PyRun

/-! # C75: the registry of the Rust wrapper -/

namespace Rtbot
open Spec
variable {β V : Type}

/-- The state between calls: the mutex is free and the maps are sorted. -/
structure RsSteady (s : Rs β) : Prop where
  free : s.locked = false
  keys : Map.Sorted s.pipelines
  outs : ∀ i m, s.pipelines.find? i = some m → Map.Sorted m

/-- C75: a pipeline is created when there is none between the two keys and the library accepts the program; otherwise an error is returned and no pipeline is added. -/
theorem C75_create (b : Bridge β V) (fresh program i o : Str) (s : Rs β) (hs : RsSteady s) :
    (pipeBetween s i o ≠ none → s.create b fresh program i o = .err (.exc .runtime) s) ∧
    (pipeBetween s i o = none → (b.create fresh program s.lib).1 ≠ [] →
      s.create b fresh program i o = .err (.exc .runtime) { s with lib := (b.create fresh program s.lib).2 }) ∧
    (pipeBetween s i o = none → (b.create fresh program s.lib).1 = [] → ∃ t, s.create b fresh program i o = .ok (.id fresh) t ∧
      t.lib = (b.create fresh program s.lib).2 ∧ RsSteady t ∧ ∀ i' o', pipeBetween t i' o' = if i' = i ∧ o' = o then some fresh else pipeBetween s i' o') := by
  obtain ⟨ps, lk, lib⟩ := s
  have hlk : lk = false := hs.free
  subst hlk
  unfold Rs.create Rs.withLock pipeBetween
  simp only [Bool.false_eq_true, if_false]
  refine ⟨fun h => ?_, fun h hne => ?_, fun h he => ?_⟩
  · obtain ⟨x, hx⟩ := Option.ne_none_iff_exists'.1 h
    rw [hx]
  · rw [h]
    simp only [if_pos hne]
  · rw [h]
    rw [if_neg (not_not.2 he)]
    have hkeys : Map.Sorted ps := hs.keys
    have houts : ∀ i m, ps.find? i = some m → Map.Sorted m := hs.outs
    cases hf : ps.find? i with
    | none =>
      simp only [Map.find?_put_self]
      refine ⟨_, rfl, rfl, ⟨rfl, (hkeys.put _ _).put _ _, fun i' m hm => ?_⟩, fun i' o' => ?_⟩
      · dsimp only at hm
        rw [Map.find?_put] at hm
        split at hm
        · cases hm; exact Map.Sorted.put (m := []) List.Pairwise.nil _ _
        · rw [Map.find?_put] at hm
          split at hm
          · cases hm; exact List.Pairwise.nil
          · exact houts i' m hm
      · dsimp only
        rw [Map.find?_put]
        by_cases hi : i' = i
        · subst hi
          rw [if_pos rfl, hf]
          simp only [Option.bind_some, Option.bind_none, Map.find?_put, true_and]
          rfl
        · rw [if_neg hi, Map.find?_put, if_neg hi, if_neg fun hc => hi hc.1]
    | some outs =>
      simp only [hf]
      refine ⟨_, rfl, rfl, ⟨rfl, hkeys.put _ _, fun i' m hm => ?_⟩, fun i' o' => ?_⟩
      · dsimp only at hm
        rw [Map.find?_put] at hm
        split at hm
        · cases hm; exact (houts i outs hf).put _ _
        · exact houts i' m hm
      · dsimp only
        rw [Map.find?_put]
        by_cases hi : i' = i
        · subst hi
          rw [if_pos rfl, hf]
          simp only [Option.bind_some, Map.find?_put, true_and]
        · rw [if_neg hi, if_neg fun hc => hi hc.1]

/-- C75: deleting removes the pipeline between the two keys and no other one; when there is none, an error is returned and nothing changes. The answer is good when
the library returns the empty text. -/
theorem C75_delete (b : Bridge β V) (i o : Str) (s : Rs β) (hs : RsSteady s) :
    (pipeBetween s i o = none → s.delete b i o = .err (.exc .runtime) s) ∧
    (∀ id, pipeBetween s i o = some id → ∃ t, s.delete b i o = (if (b.delete id s.lib).1 = [] then .ok .deleted t else .err (.exc .runtime) t) ∧
      t.lib = (b.delete id s.lib).2 ∧ RsSteady t ∧ ∀ i' o', pipeBetween t i' o' = if i' = i ∧ o' = o then none else pipeBetween s i' o') := by
  obtain ⟨ps, lk, lib⟩ := s
  have hlk : lk = false := hs.free
  subst hlk
  have hkeys : Map.Sorted ps := hs.keys
  have houts : ∀ i m, ps.find? i = some m → Map.Sorted m := hs.outs
  unfold Rs.delete Rs.withLock pipeBetween
  simp only [Bool.false_eq_true, if_false]
  refine ⟨fun h => ?_, fun id h => ?_⟩
  · cases hf : ps.find? i with
    | none => rfl
    | some outs =>
      rw [hf] at h
      simp only [Option.bind_some] at h
      simp only [h]
  · cases hf : ps.find? i with
    | none => rw [hf] at h; cases h
    | some outs =>
      rw [hf] at h
      simp only [Option.bind_some] at h
      simp only [h]
      refine ⟨⟨ps.put i (outs.erase o), false, (b.delete id lib).2⟩, ?_, rfl, ⟨rfl, hkeys.put _ _, fun i' m hm => ?_⟩, fun i' o' => ?_⟩
      · by_cases he : (b.delete id lib).1 = []
        · rw [if_neg (not_not.2 he), if_pos he]
        · rw [if_pos he, if_neg he]
      · dsimp only at hm
        rw [Map.find?_put] at hm
        split at hm
        · cases hm; exact (houts i outs hf).erase _
        · exact houts i' m hm
      · dsimp only
        rw [Map.find?_put]
        by_cases hi : i' = i
        · subst hi
          rw [if_pos rfl, hf]
          simp only [Option.bind_some, Map.find?_erase, true_and]
        · rw [if_neg hi, if_neg fun hc => hi hc.1]

theorem sendAll_turns (b : Bridge β V) (m : RsMsg V) : ∀ (outs : List (Str × Str)) (r : Map (List (RsMsg V))) (lib : β),
    (∀ k ∈ r.keys, ∀ x ∈ outs, strLt k x.1 = true) → Map.Sorted outs →
    Rs.sendAll b m outs r lib = (r ++ (turns b m outs lib).1, (turns b m outs lib).2) := by
  intro outs
  induction outs with
  | nil => intro r lib _ _; simp [Rs.sendAll, turns]
  | cons e outs ih =>
    obtain ⟨o, id⟩ := e
    intro r lib hk hs
    unfold Rs.sendAll turns
    rw [put_last _ _ _ fun k hkm => hk k hkm (o, id) (by simp)]
    rw [ih _ _ (by
      intro k hkm x hx
      simp only [Map.keys, List.map_append, List.map_cons, List.map_nil, List.mem_append, List.mem_singleton] at hkm
      rcases hkm with hkm | rfl
      · exact hk k hkm x (List.mem_cons_of_mem _ hx)
      · exact hs.head_lt (List.mem_map.2 ⟨x, hx, rfl⟩)) hs.tail]
    simp

/-- C75: a message goes to each pipeline of the input key once, in the order of the output keys, and the answer has for each of these the result of its pipeline. -/
theorem C75_receive (b : Bridge β V) (i : Str) (m : RsMsg V) (s : Rs β) (hs : RsSteady s) :
    ∃ ids : List (Str × Str), (ids.map (·.1)).Pairwise (fun k k' => strLt k k' = true) ∧ (∀ o id, (o, id) ∈ ids ↔ pipeBetween s i o = some id) ∧
      s.receive b i m = .ok (turns b m ids s.lib).1 { s with lib := (turns b m ids s.lib).2 } := by
  obtain ⟨ps, lk, lib⟩ := s
  have hlk : lk = false := hs.free
  subst hlk
  have houts : ∀ i m, ps.find? i = some m → Map.Sorted m := hs.outs
  unfold Rs.receive Rs.withLock pipeBetween
  simp only [Bool.false_eq_true, if_false]
  cases hf : ps.find? i with
  | none => exact ⟨[], List.Pairwise.nil, fun o id => by simp, rfl⟩
  | some outs =>
    have hso := houts i outs hf
    refine ⟨outs, hso, fun o id => ⟨fun h => find_of_mem hso h, fun h => Sync.mem_of_find h⟩, ?_⟩
    dsimp only
    rw [sendAll_turns b m outs [] lib (by intro k hk; cases hk) hso]
    rfl

/-- The registry is steady after any calls of the three methods. -/
theorem called_steady (b : Bridge β V) (s : Rs β) (hs : RsSteady s) (c : RsCall V) : RsSteady (rsCalled b s c) := by
  cases c with
  | create f p i o =>
    obtain ⟨h1, h2, h3⟩ := C75_create b f p i o s hs
    unfold rsCalled
    dsimp only
    by_cases hw : pipeBetween s i o = none
    · by_cases he : (b.create f p s.lib).1 = []
      · obtain ⟨t, ht, _, hst, _⟩ := h3 hw he
        rw [ht]
        exact hst
      · rw [h2 hw he]
        exact ⟨hs.free, hs.keys, hs.outs⟩
    · rw [h1 hw]
      exact hs
  | delete i o =>
    obtain ⟨h1, h2⟩ := C75_delete b i o s hs
    unfold rsCalled
    dsimp only
    cases hw : pipeBetween s i o with
    | none => rw [h1 hw]; exact hs
    | some id =>
      obtain ⟨t, ht, _, hst, _⟩ := h2 id hw
      rw [ht]
      by_cases he : (b.delete id s.lib).1 = []
      · rw [if_pos he]; exact hst
      · rw [if_neg he]; exact hst
  | receive i m =>
    obtain ⟨ids, _, _, h⟩ := C75_receive b i m s hs
    unfold rsCalled
    dsimp only
    rw [h]
    exact ⟨hs.free, hs.keys, hs.outs⟩

/-- C75: after any calls of the three methods, failing ones included, the pipeline between two keys is the one of the last creation that the library accepted when there was none,
unless it was deleted afterwards; and the mutex is free, so that every call returns. -/
theorem C75_session (b : Bridge β V) (lib : β) (cs : List (RsCall V)) (i o : Str) :
    RsSteady (cs.foldl (rsCalled b) (Rs.new lib)) ∧ pipeBetween (cs.foldl (rsCalled b) (Rs.new lib)) i o = lastMade b i o (Rs.new lib) none cs := by
  have key : ∀ (cs : List (RsCall V)) (s : Rs β), RsSteady s →
      RsSteady (cs.foldl (rsCalled b) s) ∧ pipeBetween (cs.foldl (rsCalled b) s) i o = lastMade b i o s (pipeBetween s i o) cs := by
    intro cs
    induction cs with
    | nil => intro s hs; exact ⟨hs, rfl⟩
    | cons c cs ih =>
      intro s hs
      have hs' := called_steady b s hs c
      refine ⟨(ih _ hs').1, (ih _ hs').2.trans ?_⟩
      have hstep : pipeBetween (rsCalled b s c) i o = madeBy b i o s (pipeBetween s i o) c := by
        clear hs'
        cases c with
        | create f p i' o' =>
          obtain ⟨h1, h2, h3⟩ := C75_create b f p i' o' s hs
          unfold rsCalled madeBy
          dsimp only
          by_cases hw : pipeBetween s i' o' = none
          · by_cases he : (b.create f p s.lib).1 = []
            · obtain ⟨t, ht, _, _, h⟩ := h3 hw he
              rw [ht]
              refine (h i o).trans ?_
              by_cases hio : i' = i ∧ o' = o
              · obtain ⟨rfl, rfl⟩ := hio
                rw [if_pos ⟨rfl, rfl⟩, if_pos ⟨rfl, rfl, hw, he⟩]
              · rw [if_neg fun hc => hio ⟨hc.1.symm, hc.2.symm⟩, if_neg fun hc => hio ⟨hc.1, hc.2.1⟩]
            · rw [h2 hw he, if_neg fun hc => he hc.2.2.2]
              rfl
          · rw [h1 hw]
            rw [if_neg]
            · rfl
            · rintro ⟨rfl, rfl, h, _⟩
              exact hw h
        | delete i' o' =>
          obtain ⟨h1, h2⟩ := C75_delete b i' o' s hs
          unfold rsCalled madeBy
          dsimp only
          cases hw : pipeBetween s i' o' with
          | none =>
            rw [h1 hw]
            split
            · next hc => obtain ⟨rfl, rfl⟩ := hc; exact hw
            · rfl
          | some id =>
            obtain ⟨t, ht, _, _, h⟩ := h2 id hw
            rw [ht]
            have : (if (b.delete id s.lib).1 = [] then Res.ok RsOk.deleted t else Res.err (Err.exc Exc.runtime) t).state = t := by split <;> rfl
            rw [this]
            refine (h i o).trans ?_
            by_cases hio : i' = i ∧ o' = o
            · obtain ⟨rfl, rfl⟩ := hio
              rfl
            · rw [if_neg fun hc => hio ⟨hc.1.symm, hc.2.symm⟩, if_neg hio]
        | receive i' m =>
          obtain ⟨ids, _, _, h⟩ := C75_receive b i' m s hs
          unfold rsCalled madeBy
          dsimp only
          rw [h]
          rfl
      rw [hstep]
      rfl
  exact key cs (Rs.new lib) ⟨rfl, List.Pairwise.nil, fun i m h => by cases h⟩

/-- C75: deleting all pipelines of a key that has none returns.

Missing: keys with pipelines, see below. -/
theorem C75_deleteAll_partial (b : Bridge β V) (i : Str) (s : Rs β) (hs : RsSteady s) (h : ∀ o, pipeBetween s i o = none) : s.deleteByInput b i = .ok (.count 0) s := by
  obtain ⟨ps, lk, lib⟩ := s
  have hlk : lk = false := hs.free
  subst hlk
  unfold Rs.deleteByInput Rs.withLock
  simp only [Bool.false_eq_true, if_false]
  unfold pipeBetween at h
  cases hf : ps.find? i with
  | none => rfl
  | some outs =>
    rw [hf] at h
    cases outs with
    | nil => rfl
    | cons e outs =>
      have := h e.1
      simp [Map.find?] at this

/-- C75 is violated: deleting all pipelines of a key that has some never returns, since the mutex is locked twice; afterwards no call returns. -/
theorem C75_violated_deadlock (b : Bridge β V) (i : Str) (s : Rs β) (hs : RsSteady s) {o id : Str} (h : pipeBetween s i o = some id) :
    ∃ t, s.deleteByInput b i = .err .diverge t ∧ (∀ f p i' o', t.create b f p i' o' = .err .diverge t) ∧ (∀ i' o', t.delete b i' o' = .err .diverge t) ∧ ∀ i' m, t.receive b i' m = .err .diverge t := by
  obtain ⟨ps, lk, lib⟩ := s
  have hlk : lk = false := hs.free
  subst hlk
  unfold pipeBetween at h
  cases hf : ps.find? i with
  | none => rw [hf] at h; cases h
  | some outs =>
    rw [hf] at h
    cases outs with
    | nil => cases h
    | cons e outs =>
      refine ⟨⟨ps, true, lib⟩, ?_, fun _ _ _ _ => rfl, fun _ _ => rfl, fun _ _ => rfl⟩
      unfold Rs.deleteByInput
      conv_lhs => unfold Rs.withLock
      simp only [Bool.false_eq_true, if_false, hf, Map.keys, List.map_cons]
      rfl

/-! ## Concrete cases -/

/-- A library that accepts everything and counts the messages of each pipeline. -/
def countingLib : Bridge (Map Nat) Nat where
  create id _ m := ([], m.put id 0)
  delete id m := ([], m.erase id)
  receive id x m := ([⟨x.time, [match m.find? id with | some n => n + 1 | none => 0]⟩], match m.find? id with | some n => m.put id (n + 1) | none => m)

/-- The answer of a call without the state. -/
def rsAnswer {α : Type} (r : Res (Rs (Map Nat)) α) : Except Err α :=
  match r with
  | .ok a _ => .ok a
  | .err e _ => .error e

/-- A registry with two pipelines for one key. -/
def rsTwo : Rs (Map Nat) :=
  [RsCall.create b!"p1" b!"{}" b!"a" b!"x", .create b!"p2" b!"{}" b!"a" b!"w", .create b!"p3" b!"{}" b!"a" b!"x", .receive b!"a" ⟨1, [5]⟩].foldl (rsCalled countingLib) (Rs.new [])

/-- A concrete case: the second pipeline between two keys is refused, both pipelines get the messages, and deleting all of them does not return. -/
example : pipeBetween rsTwo b!"a" b!"x" = some b!"p1" ∧ pipeBetween rsTwo b!"a" b!"w" = some b!"p2" ∧
    (match rsTwo.receive countingLib b!"a" ⟨2, [6]⟩ with
      | .ok r _ => r.map fun e => (e.1, e.2.map fun m => (m.time, m.values))
      | .err _ _ => []) = [(b!"w", [(2, [2])]), (b!"x", [(2, [2])])] ∧
    rsAnswer (rsTwo.delete countingLib b!"a" b!"x") = .ok .deleted ∧ rsAnswer (rsTwo.deleteByInput countingLib b!"a") = .error .diverge := by
  decide +kernel

end Rtbot
