import Verif.Lemmas.Local
import Verif.Lemmas.Pipeline
import Verif.Spec.Wrap

set_option linter.unusedSectionVars false

/-! # Pipelines at run time -/

namespace Rtbot
variable {V : Type} [Num V]
open Spec

/-! ## Names -/

theorem split2_portName {id p : Str} (h : (58 : UInt8) ∉ id) : split2 (portName id p) = (id, p) := by
  induction id with
  | nil => simp [portName, split2]
  | cons c id ih =>
    have hc : c ≠ 58 := fun e => h (by simp [e])
    have := ih (fun e => h (List.mem_cons_of_mem _ e))
    unfold portName at this ⊢
    simp only [List.cons_append, split2, if_neg hc, this]

theorem portName_plain {id id' p p' : Str} (h : (58 : UInt8) ∉ id) (hp : (58 : UInt8) ∉ p) (e : portName id' p' = portName id p) : id' = id ∧ p' = p := by
  unfold portName at e
  rcases List.append_eq_append_iff.1 e with ⟨a, h1, h2⟩ | ⟨a, h1, h2⟩
  · cases a with
    | nil => simp only [List.nil_append, List.append_nil] at h1 h2; exact ⟨h1.symm, (List.cons.inj h2).2⟩
    | cons c a =>
      obtain ⟨rfl, h2⟩ := List.cons.inj h2
      exact absurd (by rw [h1]; simp) h
  · cases a with
    | nil => simp only [List.nil_append, List.append_nil] at h1 h2; exact ⟨h1, (List.cons.inj h2).2.symm⟩
    | cons c a =>
      have h3 := (List.cons.inj h2).2
      exact absurd (by rw [h3]; simp) hp

/-! ## From inner results to outputs -/

theorem flatten_find {r : ProgMsg V} (hs : r.Sorted) (id p : Str) :
    ((flatten r).find? fun e => decide (e.1 = id ∧ e.2.1 = p)).map (·.2.2) = (r.find? id).bind fun x => x.find? p := by
  have hop : ∀ (id' : Str) (x : OpMsg V), id' ≠ id → (x.map fun (e : Str × PortMsg V) => (id', e.1, e.2)).find? (fun e => decide (e.1 = id ∧ e.2.1 = p)) = none := by
    intro id' x hne
    rw [List.find?_eq_none]
    intro e he
    obtain ⟨e', _, rfl⟩ := List.mem_map.1 he
    simp [hne]
  have hop' : ∀ (x : OpMsg V), ((x.map fun (e : Str × PortMsg V) => (id, e.1, e.2)).find? (fun e => decide (e.1 = id ∧ e.2.1 = p))).map (·.2.2) = x.find? p := by
    intro x
    induction x with
    | nil => rfl
    | cons e x ih =>
      obtain ⟨q, v⟩ := e
      rw [Map.find?_cons, List.map_cons, List.find?_cons]
      by_cases hq : q = p
      · simp [hq]
      · simp only [hq, and_false, decide_false, if_false]
        exact ih
  induction r with
  | nil => rfl
  | cons e r ih =>
    obtain ⟨id', x⟩ := e
    have hcons : flatten ((id', x) :: r) = (x.map fun e => (id', e.1, e.2)) ++ flatten r := by simp [flatten]
    rw [hcons, List.find?_append, Map.find?_cons]
    by_cases hid : id' = id
    · subst hid
      rw [if_pos rfl]
      have hnone : ((flatten r).find? fun e => decide (e.1 = id' ∧ e.2.1 = p)) = none := by
        rw [List.find?_eq_none]
        intro e he
        simp only [flatten, List.mem_flatMap, List.mem_map] at he
        obtain ⟨⟨k, y⟩, hk, e', _, rfl⟩ := he
        have hlt : strLt id' k = true := hs.head_lt (List.mem_map.2 ⟨(k, y), hk, rfl⟩)
        simp only [decide_eq_true_eq, not_and]
        intro hh
        subst hh
        rw [strLt_irrefl] at hlt
        cases hlt
      rw [hnone, Option.or_none, hop' x]
      rfl
    · rw [if_neg hid, hop id' x hid, Option.none_or]
      exact ih hs.tail

theorem listed_find (r : ProgMsg V) (id p : Str) : ((r.find? id).bind fun x => x.find? p).getD [] = listed r id p := by
  unfold listed msgsOn
  cases r.find? id with
  | none => rfl
  | some x => simp only [Option.bind_some]; cases x.find? p <;> rfl

/-- What the run-time needs to know about a pipeline's outputs. -/
structure OutWell (o : Op V) (outs : Map Nat) (pm : Map Str) : Prop where
  name : ∀ k, k ∈ outs.keys → ∃ id p, k = portName id p ∧ (58 : UInt8) ∉ id ∧ (58 : UInt8) ∉ p
  sorted : outs.Sorted
  mapOut : ∀ (n : Nat) k, outs.keys[n]? = some k → pm.find? k = some (oPort (n + 1))
  outIds : ∀ n, n < outs.keys.length → oPort (n + 1) ∈ o.core.outIds

theorem sorted_index {outs : Map Nat} (h : outs.Sorted) {n n' : Nat} {k : Str} (h1 : outs.keys[n]? = some k) (h2 : outs.keys[n']? = some k) : n = n' := by
  have hnd : outs.keys.Nodup := List.Pairwise.imp (fun h => strLt_ne h) h
  obtain ⟨hn, e1⟩ := List.getElem?_eq_some_iff.1 h1
  obtain ⟨hn', e2⟩ := List.getElem?_eq_some_iff.1 h2
  exact (List.Nodup.getElem_inj_iff hnd).1 (e1.trans e2.symm)

theorem pipelineOutput_ok {o : Op V} {outs : Map Nat} {pm : Map Str} (w : OutWell o outs pm) : ∀ (l : List (Str × Str × PortMsg V)) (acc : OpMsg V), acc.Sorted →
    (∀ q ∈ acc.keys, ∃ n, n < outs.keys.length ∧ q = oPort (n + 1)) →
    ∃ out, pipelineOutput outs pm l acc = .ok out ∧ out.Sorted ∧ (∀ q ∈ out.keys, ∃ n, n < outs.keys.length ∧ q = oPort (n + 1)) ∧
      ∀ (n : Nat) id p, outs.keys[n]? = some (portName id p) →
        out.find? (oPort (n + 1)) = (acc.find? (oPort (n + 1))).or ((l.find? fun e => decide (e.1 = id ∧ e.2.1 = p)).map (·.2.2)) := by
  intro l
  induction l with
  | nil => intro acc hs hk; exact ⟨acc, rfl, hs, hk, fun n id p _ => by simp⟩
  | cons e l ih =>
    intro acc hs hk
    obtain ⟨id', p', v⟩ := e
    have hkey : id' ++ [58] ++ p' = portName id' p' := by simp [portName]
    unfold pipelineOutput
    simp only [hkey]
    by_cases hh : outs.has (portName id' p') = true
    · rw [if_pos hh]
      obtain ⟨n', hn', hg⟩ := List.getElem_of_mem ((Map.has_iff _ _).1 hh)
      have hg' : outs.keys[n']? = some (portName id' p') := by rw [List.getElem?_eq_getElem hn', hg]
      rw [w.mapOut n' _ hg']
      dsimp only
      obtain ⟨out, h1, h2, h3, h4⟩ := ih (Map.emplace acc (oPort (n' + 1)) v) (hs.emplace _ _) (by
        intro q hq
        have : (Map.emplace acc (oPort (n' + 1)) v).has q = true := (Map.has_iff _ _).2 hq
        unfold Map.has at this
        rw [Map.find?_emplace] at this
        by_cases hqe : q = oPort (n' + 1)
        · exact ⟨n', hn', hqe⟩
        · refine hk q ((Map.has_iff _ _).1 ?_)
          unfold Map.has
          simpa [hqe, Ne.symm hqe] using this)
      refine ⟨out, h1, h2, h3, fun n id p hn => ?_⟩
      rw [h4 n id p hn, Map.find?_emplace, List.find?_cons]
      by_cases he : portName id' p' = portName id p
      · obtain ⟨id0, p0, e0, hc1, hc2⟩ := w.name (portName id p) (List.mem_of_getElem? hn)
        obtain ⟨rfl, rfl⟩ := portName_plain hc1 hc2 e0
        obtain ⟨rfl, rfl⟩ := portName_plain hc1 hc2 he
        have : n' = n := sorted_index w.sorted hg' hn
        subst this
        cases hf : acc.find? (oPort (n' + 1)) <;> simp
      · have hne : n' ≠ n := by
          rintro rfl
          rw [hg'] at hn
          exact he (Option.some.inj hn)
        have hne' : oPort (n' + 1) ≠ oPort (n + 1) := fun h => hne (by have := oPort_inj h; omega)
        have hnp : ¬ (id' = id ∧ p' = p) := by rintro ⟨rfl, rfl⟩; exact he rfl
        simp [Ne.symm hne', hnp]
    · rw [if_neg hh]
      obtain ⟨out, h1, h2, h3, h4⟩ := ih acc hs hk
      refine ⟨out, h1, h2, h3, fun n id p hn => ?_⟩
      rw [h4 n id p hn, List.find?_cons]
      have hnp : ¬ (id' = id ∧ p' = p) := by
        rintro ⟨rfl, rfl⟩
        exact hh ((Map.has_iff _ _).2 (List.mem_of_getElem? hn))
      simp [hnp]

/-- What a pipeline makes of the report of its inner operators. -/
theorem pipelineOutput_listed {o : Op V} {outs : Map Nat} {pm : Map Str} (w : OutWell o outs pm) {r : ProgMsg V} (hr : r.Sorted) :
    ∃ out, pipelineOutput outs pm (flatten r) [] = .ok out ∧ out.Sorted ∧ (∀ q ∈ out.keys, q ∈ o.core.outIds) ∧
      ∀ (n : Nat) id p, outs.keys[n]? = some (portName id p) → msgsOn (oPort (n + 1)) out = listed r id p := by
  obtain ⟨out, h1, h2, h3, h4⟩ := pipelineOutput_ok w (flatten r) [] .nil (by simp [Map.keys])
  refine ⟨out, h1, h2, fun q hq => ?_, fun n id p hn => ?_⟩
  · obtain ⟨n, hn, rfl⟩ := h3 q hq
    exact w.outIds n hn
  · rw [← listed_find, ← flatten_find hr, msgsOn, h4 n id p hn]
    simp only [Map.find?, Option.none_or]
    cases ((flatten r).find? fun e => decide (e.1 = id ∧ e.2.1 = p)).map (·.2.2) <;> rfl

/-! ## What the pipeline emits -/

theorem emittedBy_append (a : Nat) (p : Str) (l l' : List (Ev V)) : emittedBy a p (l ++ l') = emittedBy a p l ++ emittedBy a p l' := List.filterMap_append

theorem emittedBy_other {a : Nat} {p : Str} {l : List (Ev V)} (h : ∀ e ∈ l, addr e ≠ a) : emittedBy a p l = [] := by
  unfold emittedBy
  rw [List.filterMap_eq_nil_iff]
  intro e he
  cases e with
  | emit d a' id p' m =>
    have : a' ≠ a := h _ he
    simp [this]
  | recv => rfl
  | exec => rfl

theorem actsOf_other {a : Nat} {l : List (Ev V)} (h : ∀ e ∈ l, addr e ≠ a) : actsOf a l = [] := by
  unfold actsOf
  rw [List.filterMap_eq_nil_iff]
  intro e he
  have := h e he
  cases e with
  | emit d a' id p' m => rfl
  | recv f a' p c m => cases c <;> exact if_neg this
  | exec a' c => cases c <;> exact if_neg this

variable {D : Nat → Prop}

/-- What the run-time needs to know about the operators downstream of `a`. -/
structure Down (D : Nat → Prop) (h : Nat → Option (Op V)) (a : Nat) : Prop where
  wf : HeapWF h
  closed : Closed D h
  self : ¬ D a
  conns : ∀ q c, c ∈ connsOf h a q → D c.target

theorem Down.step {s s' : St V} {a : Nat} (d : Down D s.heap a) (st : Steps D s s') : Down D s'.heap a ∧ (∀ b, ¬ D b → s'.heap b = s.heap b) ∧
    ∃ evs, s'.log = s.log ++ evs ∧ actsOf a evs = [] ∧ ∀ q, emittedBy a q evs = [] := by
  obtain ⟨evs, h1, h2, _, h4⟩ := st.trace
  have hb : ∀ b, ¬ D b → s'.heap b = s.heap b := fun b hb => h4 b fun e he hh => hb (hh ▸ h2 e he)
  refine ⟨⟨st.shape.wf d.wf, st.shape.closed d.closed, d.self, fun q c hc => d.conns q c ?_⟩, hb, evs, h1,
    actsOf_other fun e he hh => d.self (hh ▸ h2 e he), fun q => emittedBy_other fun e he hh => d.self (hh ▸ h2 e he)⟩
  rw [connsOf_shape st.shape] at hc
  exact hc

theorem msgs_emitted {a : Nat} {p : Str} : ∀ {ms : PortMsg V} {acc r : ProgMsg V} {s s' : St V}, Run (.msgs a p ms acc) s r s' → Down D s.heap a →
    (∀ b, ¬ D b → s'.heap b = s.heap b) ∧ Down D s'.heap a ∧ ∃ evs, s'.log = s.log ++ evs ∧ actsOf a evs = [] ∧ ∀ q, emittedBy a q evs = if q = p then ms else [] := by
  intro ms
  induction ms with
  | nil =>
    intro acc r s s' h d
    cases h
    exact ⟨fun _ _ => rfl, d, [], by simp, rfl, fun q => by simp [emittedBy]⟩
  | cons m ms ih =>
    intro acc r s s' h d
    have hone : ∀ (id : Str) (n : Nat) q, emittedBy a q [Ev.emit n a id p m] = if q = p then [m] else [] := by
      intro id n q
      by_cases hq : q = p
      · simp [emittedBy, hq]
      · simp [emittedBy, hq, Ne.symm hq]
    cases h with
    | @msgsNone _ _ o _ _ _ _ _ _ ho hc h =>
      obtain ⟨h1, h2, evs, h3, h0, h4⟩ := ih h d
      refine ⟨h1, h2, .emit s.depth a o.core.id p m :: evs, by rw [h3]; simp, h0, fun q => ?_⟩
      rw [show ∀ e : Ev V, e :: evs = [e] ++ evs from fun _ => rfl, emittedBy_append, h4, hone]
      split <;> rfl
    | @msgsSome _ _ o _ _ _ _ cs fuel s1 r1 s2 _ _ ho hc hd h h2 =>
      have d1 : Down D (s.ev (.emit s.depth a o.core.id p m)).heap a := d
      have hcs : ∀ c ∈ cs, D c.target := fun c hcm => d.conns p c (by simp [connsOf, ho, hc, hcm])
      have st1 := deliverAll_steps (S := D) fuel (a, p) m cs (s.ev (.emit s.depth a o.core.id p m)) ⟨d1.wf, d1.closed⟩ hcs
      rw [hd] at st1
      replace st1 : Steps D (s.ev (.emit s.depth a o.core.id p m)) s1 := st1
      obtain ⟨d2, b2, ev2, l2, a2, e2⟩ := d1.step st1
      obtain ⟨d3, b3, ev3, l3, a3, e3⟩ := d2.step (h.steps ⟨d2.wf, d2.closed⟩ hcs)
      obtain ⟨b4, d4, ev4, l4, a4, e4⟩ := ih h2 d3
      refine ⟨fun b hb => ((b4 b hb).trans (b3 b hb)).trans (b2 b hb), d4, Ev.emit s.depth a o.core.id p m :: (ev2 ++ ev3 ++ ev4), ?_, ?_, fun q => ?_⟩
      · rw [l4, l3, l2]
        simp
      · rw [show ∀ (e : Ev V) l, e :: l = [e] ++ l from fun _ _ => rfl, actsOf_append, actsOf_append, actsOf_append, a2, a3, a4]
        rfl
      · rw [show ∀ (e : Ev V) l, e :: l = [e] ++ l from fun _ _ => rfl, emittedBy_append, emittedBy_append, emittedBy_append, hone, e2, e3, e4]
        split <;> rfl

theorem ports_emitted {a : Nat} : ∀ {out : OpMsg V} {acc r : ProgMsg V} {s s' : St V}, out.Sorted → Run (.ports a out acc) s r s' → Down D s.heap a →
    (∀ b, ¬ D b → s'.heap b = s.heap b) ∧ Down D s'.heap a ∧ ∃ evs, s'.log = s.log ++ evs ∧ actsOf a evs = [] ∧ ∀ q, emittedBy a q evs = msgsOn q out := by
  intro out
  induction out with
  | nil =>
    intro acc r s s' _ h d
    cases h
    exact ⟨fun _ _ => rfl, d, [], by simp, rfl, fun q => rfl⟩
  | cons e out ih =>
    intro acc r s s' hs h d
    obtain ⟨p, ms⟩ := e
    cases h with
    | portsCons ho hp h h2 =>
      obtain ⟨b1, d1, ev1, l1, a1, e1⟩ := msgs_emitted h d
      obtain ⟨b2, d2, ev2, l2, a2, e2⟩ := ih hs.tail h2 d1
      refine ⟨fun b hb => (b2 b hb).trans (b1 b hb), d2, ev1 ++ ev2, by rw [l2, l1, List.append_assoc], by rw [actsOf_append, a1, a2]; rfl, fun q => ?_⟩
      rw [emittedBy_append, e1, e2]
      unfold msgsOn
      rw [Map.find?_cons]
      by_cases hq : q = p
      · subst hq
        have hn : Map.find? out q = none := by
          cases hf : Map.find? out q with
          | none => rfl
          | some x =>
            have hlt := hs.head_lt (List.mem_map.2 ⟨_, find?_mem hf, rfl⟩)
            rw [strLt_irrefl] at hlt
            cases hlt
        rw [if_pos rfl, if_pos rfl, hn, List.append_nil]
      · rw [if_neg hq, if_neg (Ne.symm hq), List.nil_append]

/-- Without connections, emitting always succeeds. -/
theorem emitOp_alone {ex : Bool → Nat → M (St V) (ProgMsg V)} {fuel a : Nat} {o : Op V} (hc : o.core.outputs = []) : ∀ (out : OpMsg V), (∀ q ∈ out.keys, q ∈ o.core.outIds) →
    ∀ (s : St V), s.heap a = some o → ∃ r s', emitOp ex fuel a out s = .ok r s' := by
  have hport : ∀ (p : Str) (ms : PortMsg V) (acc : ProgMsg V) (s : St V), s.heap a = some o →
      ∃ r s', M.fold (fun out m => do let r ← emitMsg ex fuel a p m; pure (mergeProg out r)) ms acc s = .ok r s' ∧ s'.heap a = some o := by
    intro p ms
    induction ms with
    | nil => intro acc s ho; exact ⟨acc, s, rfl, ho⟩
    | cons m ms ih =>
      intro acc s ho
      rw [fold_cons, M.bind_def, emitMsg_none ho (by rw [hc]; rfl)]
      exact ih _ _ ho
  have hports : ∀ (out : OpMsg V), (∀ q ∈ out.keys, q ∈ o.core.outIds) → ∀ (acc : ProgMsg V) (s : St V), s.heap a = some o →
      ∃ r s', M.fold (fun out (pm : Str × PortMsg V) => do
        let o ← getOp a
        if o.core.outIds.contains pm.1 then do
          let r ← emitPort ex fuel a pm.1 pm.2
          pure (mergeProg out r)
        else M.throw (.exc .badPort)) out acc s = .ok r s' := by
    intro out
    induction out with
    | nil => intro _ acc s _; exact ⟨acc, s, rfl⟩
    | cons e out ih =>
      intro hk acc s ho
      obtain ⟨p, ms⟩ := e
      obtain ⟨r, s1, h1, h2⟩ := hport p ms [] s ho
      have hp : o.core.outIds.contains p = true := by simpa using hk p (by simp [Map.keys])
      obtain ⟨r', s', h3⟩ := ih (fun q hq => hk q (by simp only [Map.keys, List.map_cons, List.mem_cons] at hq ⊢; exact Or.inr hq)) (mergeProg acc r) s1 h2
      refine ⟨r', s', ?_⟩
      rw [fold_cons]
      simp only [M.bind_def, getOp, ho, hp, if_true, emitPort, h1]
      exact h3
  intro out hk s ho
  exact hports out hk [] s ho

/-! ## One message for a pipeline -/

/-- What the run-time needs to know about a pipeline. -/
structure PipeWell (h : Nat → Option (Op V)) (a : Nat) (o : Op V) (ins outs : Map Nat) (pm : Map Str) (I D : Nat → Prop) : Prop where
  here : h a = some o
  kind : o.kind = .pipeline ins outs pm
  idle : o.core.toProcess = []
  outW : OutWell o outs pm
  down : Down D h a
  closed : Closed I h
  ins : ∀ k t, ins.find? k = some t → I t
  self : ¬ I a
  apart : ∀ b, I b → ¬ D b

theorem PipeWell.same {s s' : St V} {a : Nat} {o : Op V} {ins outs : Map Nat} {pm : Map Str} {I D : Nat → Prop} (w : PipeWell s.heap a o ins outs pm I D)
    (hs : SameShape s.heap s'.heap) (ha : s'.heap a = s.heap a) : PipeWell s'.heap a o ins outs pm I D :=
  ⟨by rw [ha]; exact w.here, w.kind, w.idle, w.outW,
    ⟨hs.wf w.down.wf, hs.closed w.down.closed, w.down.self, fun q c hc => w.down.conns q c (by rw [connsOf_shape hs] at hc; exact hc)⟩,
    hs.closed w.closed, w.ins, w.self, w.apart⟩

theorem steps_outside {S : Nat → Prop} {s s' : St V} (st : Steps S s s') {a : Nat} (ha : ¬ S a) : (∀ b, ¬ S b → s'.heap b = s.heap b) ∧
    ∃ evs, s'.log = s.log ++ evs ∧ ∀ q, emittedBy a q evs = [] := by
  obtain ⟨evs, h1, h2, _, h4⟩ := st.trace
  exact ⟨fun b hb => h4 b fun e he hh => hb (hh ▸ h2 e he), evs, h1, fun q => emittedBy_other fun e he hh => ha (hh ▸ h2 e he)⟩

theorem mergeProg_nil {r : ProgMsg V} (hr : Good r) : mergeProg [] r = r :=
  good_ext (good_merge good_nil hr) hr fun id p => by rw [listed_merge hr, listed_nil, List.nil_append]

theorem feed_pipe {s : St V} {a : Nat} {o : Op V} {ins outs : Map Nat} {pm : Map Str} {I D : Nat → Prop} (w : PipeWell s.heap a o ins outs pm I D)
    {fuel n t : Nat} {id p : Str} (m : Msg V) (hid : (58 : UInt8) ∉ id) (ht : ins.find? (portName id p) = some t)
    (hm : pm.find? (iPort (n + 1)) = some (portName id p)) :
    match feed fuel t p m s with
    | .err e _ => ∃ s', feed (fuel + 1) a (iPort (n + 1)) m s = .err e s'
    | .ok r sd => ∃ s2 out, feed (fuel + 1) a (iPort (n + 1)) m s = (if r = [] then .ok [] s2 else emitOp (exec fuel) fuel a out s2) ∧
        s2.heap = sd.heap ∧ Steps I s sd ∧ out.Sorted ∧ (∀ q ∈ Map.keys out, q ∈ o.core.outIds) ∧
        (∀ (k : Nat) id' p', outs.keys[k]? = some (portName id' p') → msgsOn (oPort (k + 1)) out = listed r id' p') ∧
        ∃ evs, s2.log = s.log ++ evs ∧ ∀ q, emittedBy a q evs = [] := by
  have hI : I t := w.ins _ _ ht
  have hpp : pipelinePort ins pm (iPort (n + 1)) = .ok (portName id p) := by
    unfold pipelinePort
    rw [if_neg (by rintro ⟨h, _⟩; simp [iPort] at h), hm]
  have hsp : (split2 (portName id p)).2 = p := by rw [split2_portName hid]
  have hctx : Ctx I s := ⟨w.down.wf, w.closed⟩
  have hgood : GoodOn I s.heap := goodOn_of w.down.wf w.closed
  let s1 := s.ev (Ev.recv none a (iPort (n + 1)) false m)
  have hctx1 : Ctx I s1 := ⟨w.down.wf, w.closed⟩
  have L1 : Same I Eq (recvData fuel none t m p s) (recvData fuel none t m p s1) := recvData_local fuel none none t m p hI s s1 (fun _ _ => rfl) hgood
  have S1 := recvData_steps I fuel s1 none t m p hctx1 hI
  have S1d := recvData_steps I fuel s none t m p hctx hI
  have hrecv := recvData_pipe (fuel := fuel) (frm := none) (m := m) (p := iPort (n + 1)) w.here w.kind
  rw [hpp] at hrecv
  simp only [ht, hsp] at hrecv
  unfold feed
  rw [M.bind_def, M.bind_def]
  cases hx : recvData fuel none t m p s with
  | err e sd =>
    cases hy : recvData fuel none t m p s1 with
    | ok u s' => rw [hx, hy] at L1; exact L1.elim
    | err e' s' =>
      rw [hx, hy] at L1
      obtain ⟨rfl, _⟩ := L1
      refine ⟨s', ?_⟩
      rw [hrecv, show recvData fuel none t m p (s.ev (Ev.recv none a (iPort (n + 1)) false m)) = _ from hy]
  | ok u sd =>
    cases hy : recvData fuel none t m p s1 with
    | err e' s' => rw [hx, hy] at L1; exact L1.elim
    | ok u' s1' =>
      rw [hx, hy] at L1
      rw [hy] at S1
      rw [hx] at S1d
      replace S1 : Steps I s1 s1' := S1
      replace S1d : Steps I s sd := S1d
      obtain ⟨_, hag, hgd⟩ := L1
      obtain ⟨ho1, ev1, l1, em1⟩ := steps_outside S1 w.self
      obtain ⟨hod, -⟩ := steps_outside S1d w.self
      have ha1 : s1'.heap a = some o := (ho1 a w.self).trans w.here
      -- the pipeline notes its input
      let o' : Op V := { o with core := { o.core with toProcess := setInsert o.core.toProcess (portName id p) } }
      let s3 : St V := s1'.setOp a o'
      have hrecv' : recvData (fuel + 1) none a m (iPort (n + 1)) s = .ok () s3 := by
        rw [hrecv, show recvData fuel none t m p (s.ev (Ev.recv none a (iPort (n + 1)) false m)) = _ from hy]
        simp only [localRun, ha1]
        rfl
      have ha3 : s3.heap a = some o' := by simp [s3, setOp_heap]
      have htp : o'.core.toProcess = [portName id p] := by simp [o', w.idle, setInsert]
      have hk' : o'.kind = .pipeline ins outs pm := w.kind
      have hex := exec_pipe (fuel := fuel) ha3 hk'
      rw [htp, fold_cons] at hex
      simp only [pipelineStep, ht, M.bind_def, fold_nil] at hex
      let s4 : St V := { s3.ev (.exec a false) with depth := s3.depth + 1 }
      have hag4 : AgreeOn I sd s4 := by
        intro b hb
        have hba : b ≠ a := fun h => w.self (h ▸ hb)
        have : s4.heap b = s1'.heap b := by simp [s4, s3, setOp_heap, hba]
        rw [this]
        exact hag b hb
      have L2 := exec_local (V := V) (S := I) fuel false t hI sd s4 hag4 hgd
      have hctxd : Ctx I sd := hctx.step S1d
      have hfr' : o'.fresh = o.fresh := rfl
      have hctx4 : Ctx I s4 := by
        have hsh : SameShape s1'.heap s4.heap := by
          intro b
          by_cases hb : b = a
          · subst hb; simp [s4, s3, setOp_heap, ha1, hfr']
          · simp [s4, s3, setOp_heap, hb]
        have := hctx1.step S1
        exact ⟨hsh.wf this.wf, hsh.closed this.closed⟩
      have S2 := exec_steps I fuel s4 false t hctx4 hI
      have S2d := exec_steps I fuel sd false t hctxd hI
      dsimp only
      rw [hrecv']
      dsimp only
      rw [hex]
      cases hu : exec fuel false t sd with
      | err e se =>
        cases hv : exec fuel false t s4 with
        | ok r s' => rw [hu, hv] at L2; exact L2.elim
        | err e' s' =>
          rw [hu, hv] at L2
          obtain ⟨rfl, _⟩ := L2
          exact ⟨s', rfl⟩
      | ok r se =>
        cases hv : exec fuel false t s4 with
        | err e' s' => rw [hu, hv] at L2; exact L2.elim
        | ok r' s5 =>
          rw [hu, hv] at L2
          rw [hv] at S2
          rw [hu] at S2d
          replace S2 : Steps I s4 s5 := S2
          replace S2d : Steps I sd se := S2d
          obtain ⟨rfl, hag5, _⟩ := L2
          have hgr : Good r := ((exec_run fuel _ _ _ _ _ hu).log hctxd.wf good_nil).2.choose_spec.2.good
          obtain ⟨ho5, ev5, l5, em5⟩ := steps_outside S2 w.self
          obtain ⟨hoe, -⟩ := steps_outside S2d w.self
          have ha5 : s5.heap a = some o' := (ho5 a w.self).trans (by simpa [s4] using ha3)
          obtain ⟨out, g1, g2, g3, g4⟩ := pipelineOutput_listed w.outW hgr.1
          have hclear : clearProcess o' = o := by
            have : clearProcess o' = clearProcess o := rfl
            rw [this]
            unfold clearProcess
            rw [← w.idle]
          refine ⟨St.setOp { s5 with depth := s3.depth } a o, out, ?_, ?_, S1d.trans S2d, g2, g3, g4, Ev.recv none a (iPort (n + 1)) false m :: (ev1 ++ [Ev.exec a false] ++ ev5), ?_, fun q => ?_⟩
          · have hp : ∀ (x : ProgMsg V) (s : St V), (pure x : M (St V) (ProgMsg V)) s = .ok x s := fun _ _ => rfl
            simp only [hp, ha5, mergeProg_nil hgr, hclear, g1]
          · funext b
            rw [setOp_heap]
            by_cases hb : b = a
            · subst hb
              rw [if_pos rfl, hoe b w.self, hod b w.self, w.here]
            · rw [if_neg hb]
              by_cases hib : I b
              · exact (hag5 b hib).symm
              · have e4 : s4.heap b = s1'.heap b := by simp [s4, s3, setOp_heap, hb]
                rw [hoe b hib, hod b hib]
                exact (ho5 b hib).trans (e4.trans (ho1 b hib))
          · simp only [St.setOp]
            rw [l5]
            simp only [s4, s3, St.setOp]
            rw [show (s1'.log ++ [Ev.exec a false] : List (Ev V)) = (s1.log ++ ev1) ++ [Ev.exec a false] from by rw [l1]]
            simp [s1]
          · rw [show ∀ (e : Ev V) l, e :: l = [e] ++ l from fun _ _ => rfl, emittedBy_append, emittedBy_append, emittedBy_append, em1, em5]
            rfl

/-! ## Many messages -/

/-- What the run-time needs to know about a pipeline's inputs. -/
structure InWell (ins : Map Nat) (pm : Map Str) : Prop where
  name : ∀ k, k ∈ ins.keys → ∃ id p, k = portName id p ∧ (58 : UInt8) ∉ id ∧ (58 : UInt8) ∉ p
  mapIn : ∀ (n : Nat) k, ins.keys[n]? = some k → pm.find? (iPort (n + 1)) = some k

theorem feeds_cons (fuel a : Nat) (p : Str) (m : Msg V) (l : List (Nat × Str × Msg V)) (s : St V) :
    feeds fuel ((a, p, m) :: l) s = match feed fuel a p m s with
      | .err e s' => .err e s'
      | .ok r s' => match feeds fuel l s' with
        | .err e s'' => .err e s''
        | .ok rs s'' => .ok (r :: rs) s'' := by
  rw [feeds, M.bind_def]
  cases feed fuel a p m s with
  | err e s' => rfl
  | ok r s' =>
    dsimp only
    rw [M.bind_def]
    cases feeds fuel l s' <;> rfl

theorem feeds_pipe {a : Nat} {o : Op V} {ins outs : Map Nat} {pm : Map Str} {I D : Nat → Prop} (wi : InWell ins pm) (fuel : Nat)
    {l : List (Nat × Msg V)} {dl : List (Nat × Str × Msg V)} (hl : List.Forall₂ (ForInner ins) l dl) : ∀ {s sd : St V},
    PipeWell s.heap a o ins outs pm I D → AgreeOn I s sd →
    (∀ rs s', feeds (fuel + 1) (l.map fun x => (a, iPort (x.1 + 1), x.2)) s = .ok rs s' → ∃ rds sd', feeds fuel dl sd = .ok rds sd' ∧ AgreeOn I s' sd' ∧
      ∃ evs, s'.log = s.log ++ evs ∧ ∀ (k : Nat) id p, outs.keys[k]? = some (portName id p) → emittedBy a (oPort (k + 1)) evs = rds.flatMap fun r => listed r id p) ∧
    (o.core.outputs = [] → (∀ rds sd', feeds fuel dl sd = .ok rds sd' → ∃ rs s', feeds (fuel + 1) (l.map fun x => (a, iPort (x.1 + 1), x.2)) s = .ok rs s') ∧
      ∀ e sd', feeds fuel dl sd = .err e sd' → ∃ s', feeds (fuel + 1) (l.map fun x => (a, iPort (x.1 + 1), x.2)) s = .err e s') := by
  induction hl with
  | nil =>
    intro s sd w hag
    refine ⟨fun rs s' h => ?_, fun _ => ⟨fun rds sd' h => ⟨[], s, rfl⟩, fun e sd' h => by cases h⟩⟩
    cases h
    exact ⟨[], sd, rfl, hag, [], by simp, fun _ _ _ _ => rfl⟩
  | @cons x y l dl hxy _ ih =>
    intro s sd w hag
    obtain ⟨n, m⟩ := x
    obtain ⟨t, p, m'⟩ := y
    obtain ⟨id, h1, h2, h3⟩ := hxy
    dsimp only at h1 h2 h3
    subst h3
    obtain ⟨id0, p0, e0, hc1, hc2⟩ := wi.name (portName id p) (List.mem_of_getElem? h1)
    obtain ⟨rfl, rfl⟩ := portName_plain hc1 hc2 e0
    have hstep := feed_pipe (fuel := fuel) (n := n) w m hc1 h2 (wi.mapIn n _ h1)
    have hloc := feed_local (S := I) fuel t p m (w.ins _ _ h2) s sd hag (goodOn_of w.down.wf w.closed)
    simp only [List.map_cons, feeds_cons]
    cases hx : feed fuel t p m s with
    | err e s1 =>
      rw [hx] at hstep
      obtain ⟨s', hs'⟩ := hstep
      rw [hs']
      cases hy : feed fuel t p m sd with
      | ok r sd1 => rw [hx, hy] at hloc; exact hloc.elim
      | err e' sd1 =>
        rw [hx, hy] at hloc
        obtain ⟨rfl, _⟩ := hloc
        exact ⟨fun rs s' h => (by cases h), fun _ => ⟨fun rds sd' h => (by cases h), fun e sd' h => ⟨s', by cases h; rfl⟩⟩⟩
    | ok r s1 =>
      rw [hx] at hstep
      obtain ⟨s2, out, g1, g2, g3, g4, g5, g6, ev2, g7, g8⟩ := hstep
      cases hy : feed fuel t p m sd with
      | err e' sd1 => rw [hx, hy] at hloc; exact hloc.elim
      | ok r' sd1 =>
        rw [hx, hy] at hloc
        obtain ⟨rfl, hag1, _⟩ := hloc
        have hag2 : AgreeOn I s2 sd1 := fun b hb => by rw [g2]; exact hag1 b hb
        have ha2 : s2.heap a = s.heap a := by rw [g2]; exact (steps_outside g3 w.self).1 a w.self
        have w2 : PipeWell s2.heap a o ins outs pm I D := w.same (by rw [g2]; exact g3.shape) ha2
        dsimp only
        rw [g1]
        -- the state after the emissions
        have hem : ∀ r1 s3, (if r = [] then Res.ok [] s2 else emitOp (exec fuel) fuel a out s2) = .ok r1 s3 →
            PipeWell s3.heap a o ins outs pm I D ∧ AgreeOn I s3 sd1 ∧ ∃ evs, s3.log = s2.log ++ evs ∧ ∀ (k : Nat) id p, outs.keys[k]? = some (portName id p) →
              emittedBy a (oPort (k + 1)) evs = listed r id p := by
          intro r1 s3 hr1
          split at hr1
          · rename_i hnil
            cases hr1
            exact ⟨w2, hag2, [], by simp, fun k id p _ => by rw [hnil]; rfl⟩
          · have hrun := emitOp_run (fun _ _ _ _ _ h => exec_run fuel _ _ _ _ _ h) fuel a out [] s2 r1 s3 hr1
            obtain ⟨b1, d1, evs, l1, _, e1⟩ := ports_emitted g4 hrun w2.down
            refine ⟨w2.same (hrun.shape w2.down.wf) (b1 a w2.down.self), fun b hb => ?_, evs, l1, fun k id p hk => by rw [e1, g6 k id p hk]⟩
            rw [b1 b (w.apart b hb)]
            exact hag2 b hb
        refine ⟨fun rs s' h => ?_, fun halone => ?_⟩
        · cases hz : (if r = [] then Res.ok [] s2 else emitOp (exec fuel) fuel a out s2) with
          | err e s3 => rw [hz] at h; cases h
          | ok r1 s3 =>
            rw [hz] at h
            obtain ⟨w3, hag3, ev3, l3, e3⟩ := hem r1 s3 hz
            dsimp only at h
            cases hz2 : feeds (fuel + 1) (l.map fun x => (a, iPort (x.1 + 1), x.2)) s3 with
            | err e s4 => rw [hz2] at h; cases h
            | ok rs4 s4 =>
              rw [hz2] at h
              cases h
              obtain ⟨rds, sd', k1, k2, ev4, k3, k4⟩ := (ih w3 hag3).1 rs4 _ hz2
              refine ⟨r :: rds, sd', by rw [k1], k2, ev2 ++ ev3 ++ ev4, by rw [k3, l3, g7]; simp, fun k id p hk => ?_⟩
              rw [emittedBy_append, emittedBy_append, g8, e3 k id p hk, k4 k id p hk, List.flatMap_cons]
              rfl
        · have hok : ∃ r1 s3, (if r = [] then Res.ok [] s2 else emitOp (exec fuel) fuel a out s2) = .ok r1 s3 := by
            split
            · exact ⟨_, _, rfl⟩
            · exact emitOp_alone halone out g5 s2 w2.here
          obtain ⟨r1, s3, hz⟩ := hok
          obtain ⟨w3, hag3, _⟩ := hem r1 s3 hz
          obtain ⟨i1, i2⟩ := (ih w3 hag3).2 halone
          rw [hz]
          dsimp only
          refine ⟨fun rds sd' h => ?_, fun e sd' h => ?_⟩
          · cases hz2 : feeds fuel dl sd1 with
            | err e s4 => rw [hz2] at h; cases h
            | ok rs4 s4 =>
              obtain ⟨rs, s', hh⟩ := i1 _ _ hz2
              rw [hh]
              exact ⟨_, _, rfl⟩
          · cases hz2 : feeds fuel dl sd1 with
            | ok rs4 s4 => rw [hz2] at h; cases h
            | err e4 s4 =>
              rw [hz2] at h
              cases h
              obtain ⟨s', hh⟩ := i2 _ _ hz2
              rw [hh]
              exact ⟨_, rfl⟩

end Rtbot
