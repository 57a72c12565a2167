import Verif.Lemmas.Run

/-! # Reports and logs -/

set_option linter.unusedSectionVars false

namespace Rtbot
variable {V : Type} [Num V]
open Spec

/-! ## mergeOutput -/

/-- Sorted, no empty message list. -/
def GoodOp (x : OpMsg V) : Prop := x.Sorted ∧ ∀ p l, x.find? p = some l → l ≠ []

/-- A report without empty entries. -/
def Good (r : ProgMsg V) : Prop := r.Sorted ∧ ∀ id x, r.find? id = some x → GoodOp x ∧ x ≠ []

theorem mergeOp_cons (out : OpMsg V) (p : Str) (ms : PortMsg V) (rest : OpMsg V) :
    mergeOp out ((p, ms) :: rest) = mergeOp (out.put p (msgsOn p out ++ ms)) rest := by
  rw [mergeOp, msgsOn]
  cases out.find? p <;> rfl

theorem mergeOp_find (x : OpMsg V) (hx : x.Sorted) : ∀ (out : OpMsg V) (p : Str),
    (mergeOp out x).find? p = if p ∈ x.keys then some (msgsOn p out ++ msgsOn p x) else out.find? p := by
  induction x with
  | nil => intro out p; simp [mergeOp, Map.keys]
  | cons e x ih =>
    obtain ⟨q, ms⟩ := e
    intro out p
    have hq : q ∉ Map.keys x := fun h => by
      have := hx.head_lt h
      simp [strLt_irrefl] at this
    rw [mergeOp_cons, ih hx.tail]
    by_cases hp : p = q
    · subst hp
      rw [if_neg hq, Map.find?_put, if_pos rfl]
      simp only [Map.keys, List.map_cons, List.mem_cons, true_or, if_true, msgsOn, Map.find?_cons]
    · have h1 : p ∈ Map.keys ((q, ms) :: x) ↔ p ∈ Map.keys x := by simp [Map.keys, hp]
      have h2 : msgsOn p (out.put q (msgsOn q out ++ ms)) = msgsOn p out := by
        simp only [msgsOn, Map.find?_put, if_neg hp]
      have h3 : msgsOn p ((q, ms) :: x) = msgsOn p x := by simp [msgsOn, Map.find?_cons, Ne.symm hp]
      simp only [h1, h2, h3, Map.find?_put, if_neg hp]

theorem mergeOp_sorted (x : OpMsg V) : ∀ (out : OpMsg V), out.Sorted → (mergeOp out x).Sorted := by
  induction x with
  | nil => intro out h; exact h
  | cons e x ih => intro out h; exact ih _ (h.put _ _)

theorem msgsOn_mergeOp {x : OpMsg V} (hx : x.Sorted) (out : OpMsg V) (p : Str) :
    msgsOn p (mergeOp out x) = msgsOn p out ++ msgsOn p x := by
  have := mergeOp_find x hx out p
  by_cases hp : p ∈ x.keys
  · rw [if_pos hp] at this
    rw [msgsOn, this]
  · rw [if_neg hp] at this
    have h2 : msgsOn p x = [] := by simp [msgsOn, (Map.find?_none_iff x p).2 hp]
    rw [h2, List.append_nil, msgsOn, this, ← msgsOn]

/-- The operator entry of a report, empty when absent. -/
def opOf (r : ProgMsg V) (id : Str) : OpMsg V :=
  match r.find? id with
  | some x => x
  | none => []

theorem mergeProg_cons (out : ProgMsg V) (id : Str) (x : OpMsg V) (rest : ProgMsg V) :
    mergeProg out ((id, x) :: rest) = mergeProg (out.put id (mergeOp (opOf out id) x)) rest := by
  rw [mergeProg, opOf]
  cases out.find? id <;> rfl

theorem mergeProg_find (r : ProgMsg V) (hr : r.Sorted) : ∀ (out : ProgMsg V) (id : Str),
    (mergeProg out r).find? id = if id ∈ r.keys then some (mergeOp (opOf out id) (opOf r id)) else out.find? id := by
  induction r with
  | nil => intro out p; simp [mergeProg, Map.keys]
  | cons e r ih =>
    obtain ⟨q, x⟩ := e
    intro out id
    have hq : q ∉ Map.keys r := fun h => by
      have := hr.head_lt h
      simp [strLt_irrefl] at this
    rw [mergeProg_cons, ih hr.tail]
    by_cases hp : id = q
    · subst hp
      rw [if_neg hq, Map.find?_put, if_pos rfl]
      simp only [Map.keys, List.map_cons, List.mem_cons, true_or, if_true, opOf, Map.find?_cons]
    · have h1 : id ∈ Map.keys ((q, x) :: r) ↔ id ∈ Map.keys r := by simp [Map.keys, hp]
      have h2 : ∀ y, opOf (out.put q y) id = opOf out id := by
        intro y; simp only [opOf, Map.find?_put, if_neg hp]
      have h3 : opOf ((q, x) :: r) id = opOf r id := by simp [opOf, Map.find?_cons, Ne.symm hp]
      simp only [h1, h2, h3, Map.find?_put, if_neg hp]

theorem mergeProg_sorted (r : ProgMsg V) : ∀ (out : ProgMsg V), out.Sorted → (mergeProg out r).Sorted := by
  induction r with
  | nil => intro out h; exact h
  | cons e x ih => intro out h; exact ih _ (h.put _ _)

theorem listed_eq (r : ProgMsg V) (id p : Str) : listed r id p = msgsOn p (opOf r id) := by
  unfold listed opOf
  cases r.find? id <;> rfl

theorem Good.op {r : ProgMsg V} (h : Good r) (id : Str) : GoodOp (opOf r id) := by
  unfold opOf
  cases hf : r.find? id with
  | none => exact ⟨Map.Sorted.nil, by simp⟩
  | some x => exact (h.2 id x hf).1

theorem goodOp_merge {out x : OpMsg V} (ho : GoodOp out) (hx : GoodOp x) : GoodOp (mergeOp out x) := by
  refine ⟨mergeOp_sorted x out ho.1, fun p l hl => ?_⟩
  rw [mergeOp_find x hx.1] at hl
  split at hl
  · rename_i hp
    cases hl
    have : ∃ l, x.find? p = some l := Option.isSome_iff_exists.1 ((Map.find?_isSome_iff x p).2 hp)
    obtain ⟨l, h⟩ := this
    have := hx.2 p l h
    simp [msgsOn, h, this]
  · exact ho.2 p l hl

theorem mergeOp_ne_nil {out x : OpMsg V} (hx : GoodOp x) (hn : x ≠ []) : mergeOp out x ≠ [] := by
  obtain ⟨e, x', rfl⟩ := List.exists_cons_of_ne_nil hn
  intro h
  have := mergeOp_find _ hx.1 out e.1
  rw [h] at this
  simp [Map.keys] at this

theorem good_merge {out r : ProgMsg V} (ho : Good out) (hr : Good r) : Good (mergeProg out r) := by
  refine ⟨mergeProg_sorted r out ho.1, fun id x hx => ?_⟩
  rw [mergeProg_find r hr.1] at hx
  split at hx
  · rename_i hid
    cases hx
    refine ⟨goodOp_merge (ho.op id) (hr.op id), mergeOp_ne_nil (hr.op id) ?_⟩
    obtain ⟨y, hy⟩ := Option.isSome_iff_exists.1 ((Map.find?_isSome_iff r id).2 hid)
    simp only [opOf, hy]
    exact (hr.2 id y hy).2
  · exact ho.2 id x hx

theorem listed_merge {out r : ProgMsg V} (hr : Good r) (id p : Str) :
    listed (mergeProg out r) id p = listed out id p ++ listed r id p := by
  simp only [listed_eq]
  have := mergeProg_find r hr.1 out id
  by_cases hid : id ∈ r.keys
  · rw [if_pos hid] at this
    rw [opOf, this, msgsOn_mergeOp (hr.op id).1]
  · rw [if_neg hid] at this
    have h2 : opOf r id = [] := by simp [opOf, (Map.find?_none_iff r id).2 hid]
    have h3 : opOf (mergeProg out r) id = opOf out id := by unfold opOf; rw [this]
    rw [h2, h3]; simp [msgsOn]

theorem goodOp_ext {x y : OpMsg V} (hx : GoodOp x) (hy : GoodOp y) (h : ∀ p, msgsOn p x = msgsOn p y) : x = y := by
  apply Map.Sorted.ext hx.1 hy.1
  intro p
  have := h p
  unfold msgsOn at this
  cases h1 : x.find? p with
  | none =>
    cases h2 : y.find? p with
    | none => rfl
    | some l => simp only [h1, h2] at this; exact absurd this.symm (hy.2 p l h2)
  | some l =>
    cases h2 : y.find? p with
    | none => simp only [h1, h2] at this; exact absurd this (hx.2 p l h1)
    | some l' => simp only [h1, h2] at this; rw [this]

theorem goodOp_ne_nil {x : OpMsg V} (hx : GoodOp x) (hn : x ≠ []) : ∃ p, msgsOn p x ≠ [] := by
  obtain ⟨⟨p, l⟩, x', rfl⟩ := List.exists_cons_of_ne_nil hn
  refine ⟨p, ?_⟩
  have : Map.find? ((p, l) :: x') p = some l := by simp [Map.find?_cons]
  simp only [msgsOn, this]
  exact hx.2 p l this

/-- A report is determined by the message lists it contains. -/
theorem good_ext {r r' : ProgMsg V} (h : Good r) (h' : Good r') (he : ∀ id p, listed r id p = listed r' id p) : r = r' := by
  apply Map.Sorted.ext h.1 h'.1
  intro id
  have hop : opOf r id = opOf r' id := goodOp_ext (h.op id) (h'.op id) fun p => by rw [← listed_eq, ← listed_eq, he]
  unfold opOf at hop
  cases h1 : r.find? id with
  | none =>
    cases h2 : r'.find? id with
    | none => rfl
    | some x => simp only [h1, h2] at hop; exact absurd hop.symm (h'.2 id x h2).2
  | some x =>
    cases h2 : r'.find? id with
    | none => simp only [h1, h2] at hop; exact absurd hop (h.2 id x h1).2
    | some y => simp only [h1, h2] at hop; rw [hop]

theorem good_nil : Good ([] : ProgMsg V) := ⟨Map.Sorted.nil, by simp⟩

theorem good_single (id p : Str) (m : Msg V) : Good [(id, [(p, [m])])] := by
  refine ⟨by simp [Map.Sorted, Map.keys], fun id' x h => ?_⟩
  rw [Map.find?_cons] at h
  split at h
  · cases h
    refine ⟨⟨by simp [Map.Sorted, Map.keys], fun p' l h => ?_⟩, by simp⟩
    rw [Map.find?_cons] at h
    split at h
    · cases h; simp
    · simp at h
  · simp at h

theorem listed_single (id p : Str) (m : Msg V) (id' p' : Str) :
    listed [(id, [(p, [m])])] id' p' = if id = id' ∧ p = p' then [m] else [] := by
  unfold listed msgsOn
  by_cases h : id = id'
  · by_cases h' : p = p' <;> simp [Map.find?_cons, h, h']
  · simp [Map.find?_cons, h]

theorem listed_nil (id p : Str) : listed ([] : ProgMsg V) id p = [] := rfl

/-! ## Shape preservation of runs -/

theorem deliverAll_steps {S : Nat → Prop} (fuel : Nat) (src : Nat × Str) (m : Msg V) (cs : List Conn) (s : St V) (hc : Ctx S s)
    (hS : ∀ c ∈ cs, S c.target) : Steps S s (M.fold (deliver fuel src m) cs () s).state :=
  state_fold (R := Steps S) (Steps.refl S) (fun _ _ _ => Steps.trans) cs () _ fun _ c s' hcm hs =>
    deliver_steps fuel src m c s' (hc.step hs) (hS c hcm)

theorem Run.steps {S : Nat → Prop} {c : Call V} {s s' : St V} {r : ProgMsg V} (h : Run c s r s') :
    Ctx S s → c.starts S → Steps S s s' := by
  induction h with
  | @comp s r s' a o i q ctrl ho hk h ih =>
    intro hc hS
    have hn : ¬ Simple o := by simp [Simple, hk]
    have h1 : Steps S s (s.ev (.exec a ctrl)) := Steps.event s (.exec a ctrl) hS fun o' ho' hs => by
      simp only [addr] at ho'; rw [ho] at ho'; cases ho'; exact absurd hs hn
    exact h1.trans (ih (hc.step h1) (hc.closed a i hS (edge_mem ho (by simp [nexts, hk]))))
  | @pipeCtrl s a o inputs outs pm ho hk =>
    intro hc hS
    exact Steps.event s (.exec a true) hS fun o' ho' hs => by
      simp only [addr] at ho'; rw [ho] at ho'; cases ho'; simp [Simple, hk] at hs
  | @pipeNone s s' a o inputs outs pm o1 ho hk h ho1 ih =>
    intro hc hS
    have hn : ¬ Simple o := by simp [Simple, hk]
    have h1 : Steps S s (s.ev (.exec a false)) := Steps.event s (.exec a false) hS fun o' ho' hs => by
      simp only [addr] at ho'; rw [ho] at ho'; cases ho'; exact absurd hs hn
    have h2 : Steps S (s.ev (.exec a false)) { s.ev (.exec a false) with depth := s.depth + 1 } := Steps.depth S _ _
    have h3 := ih ((hc.step h1).step h2) (fun e he => hc.closed a e.2 hS (edge_mem ho (by
      simp only [nexts, hk, List.mem_append]; exact Or.inr (List.mem_map.2 ⟨e, he, rfl⟩))))
    have h4 : Steps S (s.ev (.exec a false)) { s' with depth := s.depth } := (h2.trans h3).trans (Steps.depth S _ _)
    obtain ⟨o2, ho2, hf⟩ := h4.shape.get (show _ = some o from ho)
    simp only at ho2; rw [ho1] at ho2; cases ho2
    exact Steps.forward (e := .exec a false) h4 hS ho1 (fun h => hn ((simple_of_fresh hf).1 h)) rfl
  | @pipeSome s s' a o inputs outs pm o1 r out r' s'' ho hk h hr ho1 hout h2 ih ih2 =>
    intro hc hS
    have hn : ¬ Simple o := by simp [Simple, hk]
    have h1 : Steps S s (s.ev (.exec a false)) := Steps.event s (.exec a false) hS fun o' ho' hs => by
      simp only [addr] at ho'; rw [ho] at ho'; cases ho'; exact absurd hs hn
    have h2 : Steps S (s.ev (.exec a false)) { s.ev (.exec a false) with depth := s.depth + 1 } := Steps.depth S _ _
    have h3 := ih ((hc.step h1).step h2) (fun e he => hc.closed a e.2 hS (edge_mem ho (by
      simp only [nexts, hk, List.mem_append]; exact Or.inr (List.mem_map.2 ⟨e, he, rfl⟩))))
    have h4 : Steps S (s.ev (.exec a false)) { s' with depth := s.depth } := (h2.trans h3).trans (Steps.depth S _ _)
    obtain ⟨o2, ho2, hf⟩ := h4.shape.get (show _ = some o from ho)
    simp only at ho2; rw [ho1] at ho2; cases ho2
    have h5 := Steps.forward (e := .exec a false) (o' := clearProcess o1) h4 hS ho1 (fun h => hn ((simple_of_fresh hf).1 h)) rfl
    exact h5.trans (ih2 (hc.step h5) hS)
  | @simple s a o ctrl out o' r s' ho hs hx h ih =>
    intro hc hS
    have key := Steps.call (S := S) s (.exec a ctrl) (if ctrl then .execCtrl else .execData) o
      (if ctrl then o.execCtrl else o.execData).state hS (by cases ctrl <;> simp [actOf, addr]) ho
      (by cases ctrl
          · simp only [act, Bool.false_eq_true, if_false]; cases o.execData <;> rfl
          · simp only [act, if_true]; cases o.execCtrl <;> rfl)
      (by cases ctrl
          · exact execData_fresh o
          · exact execCtrl_fresh o)
    rw [hx] at key
    exact key.trans (ih (hc.step key) hS)
  | portsNil => intro _ _; exact Steps.refl S _
  | portsCons ho hp h h2 ih ih2 =>
    intro hc hS
    have h1 := ih hc hS
    exact h1.trans (ih2 (hc.step h1) hS)
  | msgsNil => intro _ _; exact Steps.refl S _
  | @msgsNone s a o p m ms acc r s' ho hcn h ih =>
    intro hc hS
    have h1 : Steps S s (s.ev (.emit s.depth a o.core.id p m)) :=
      Steps.event s (.emit s.depth a o.core.id p m) hS fun _ _ _ => rfl
    exact h1.trans (ih (hc.step h1) hS)
  | @msgsSome s a o p m ms acc cs fuel s1 r s2 r' s3 ho hcn hd h h2 ih ih2 =>
    intro hc hS
    have h1 : Steps S s (s.ev (.emit s.depth a o.core.id p m)) :=
      Steps.event s (.emit s.depth a o.core.id p m) hS fun _ _ _ => rfl
    have hcl : ∀ c ∈ cs, S c.target := fun c hcm => hc.closed a c.target hS (edge_mem ho (by
      simp only [nexts, List.mem_append, List.mem_flatMap]
      exact Or.inl ⟨_, find?_mem hcn, List.mem_map.2 ⟨c, hcm, rfl⟩⟩))
    have h3 := deliverAll_steps fuel (a, p) m cs _ (hc.step h1) hcl
    rw [hd] at h3
    have h4 := h1.trans h3
    have h5 := ih (hc.step h4) hcl
    exact (h4.trans h5).trans (ih2 (hc.step (h4.trans h5)) hS)
  | connsNil => intro _ _; exact Steps.refl S _
  | connsCons ho hp h h2 ih ih2 =>
    intro hc hS
    have h1 := ih hc (hS _ (by simp))
    exact h1.trans (ih2 (hc.step h1) fun c hcm => hS c (by simp [hcm]))
  | connsSkip ho hd hcc h2 ih2 =>
    intro hc hS
    exact ih2 hc fun c hcm => hS c (by simp [hcm])
  | keysNil => intro _ _; exact Steps.refl S _
  | keysCons ht h h2 ih ih2 =>
    intro hc hS
    have h1 := ih hc (hS _ (find?_mem ht))
    exact h1.trans (ih2 (hc.step h1) hS)

/-- Anywhere. -/
def Any : Nat → Prop := fun _ => True

theorem ctx_any {s : St V} (h : HeapWF s.heap) : Ctx Any s := ⟨h, fun _ _ _ _ => trivial⟩

theorem starts_any (c : Call V) : c.starts Any := by
  cases c <;> simp [Call.starts, Any]

theorem Run.shape {c : Call V} {s s' : St V} {r : ProgMsg V} (h : Run c s r s') (hw : HeapWF s.heap) :
    SameShape s.heap s'.heap := (h.steps (ctx_any hw) (starts_any c)).shape

/-! ## Logs of deliveries -/

theorem recvData_log (fuel : Nat) : ∀ (s s' : St V) frm a m p, recvData fuel frm a m p s = .ok () s' →
    s'.depth = s.depth ∧ ∃ evs, s'.log = s.log ++ Ev.recv frm a p false m :: evs ∧
      ∀ e ∈ evs, isRecv e = true ∧ overConn e = false := by
  induction fuel with
  | zero => intro s s' frm a m p h; cases h
  | succ fuel ih =>
    intro s s' frm a m p h
    cases ho : s.heap a with
    | none => rw [recvData_none ho] at h; cases h
    | some o =>
      rcases kind_cases o with ⟨i, q, hk⟩ | ⟨q, hk⟩ | ⟨inputs, outs, pm, hk⟩ | hs
      · rw [recvData_comp ho hk] at h
        obtain ⟨h1, evs, h2, h3⟩ := ih _ _ _ _ _ _ h
        refine ⟨h1, Ev.recv none i p false m :: evs, by simp [h2], ?_⟩
        intro e he
        rcases List.mem_cons.1 he with h | h
        · subst h; exact ⟨rfl, rfl⟩
        · exact h3 e h
      · rw [recvData_comp' ho hk] at h; cases h
      · rw [recvData_pipe ho hk] at h
        split at h
        · cases h
        · split at h
          · cases h
          · split at h
            · cases h
            · rename_i key _ _ t _ _ _ s1 hr
              obtain ⟨h1, evs, h2, h3⟩ := ih _ _ _ _ _ _ hr
              simp only [localRun] at h
              split at h
              · cases h
              · cases h
                refine ⟨h1, Ev.recv none t (split2 key).2 false m :: evs, by simp [St.setOp, h2], ?_⟩
                intro e he
                rcases List.mem_cons.1 he with h | h
                · subst h; exact ⟨rfl, rfl⟩
                · exact h3 e h
      · rw [recvData_simple ho hs] at h
        simp only [localRun, ho] at h
        split at h
        · cases h; exact ⟨rfl, [], rfl, by simp⟩
        · cases h

theorem recvCtrl_log (fuel : Nat) : ∀ (s s' : St V) frm a m p, recvCtrl fuel frm a m p s = .ok () s' →
    s'.depth = s.depth ∧ ∃ evs, s'.log = s.log ++ Ev.recv frm a p true m :: evs ∧
      ∀ e ∈ evs, isRecv e = true ∧ overConn e = false := by
  induction fuel with
  | zero => intro s s' frm a m p h; cases h
  | succ fuel ih =>
    intro s s' frm a m p h
    cases ho : s.heap a with
    | none => rw [recvCtrl_none ho] at h; cases h
    | some o =>
      have other : (∀ i q, o.kind ≠ .composite i q) → s'.depth = s.depth ∧ ∃ evs, s'.log = s.log ++ Ev.recv frm a p true m :: evs ∧
          ∀ e ∈ evs, isRecv e = true ∧ overConn e = false := by
        intro hk
        rw [recvCtrl_other ho hk] at h
        simp only [localRun, ho] at h
        split at h
        · cases h; exact ⟨rfl, [], rfl, by simp⟩
        · cases h
      rcases kind_cases o with ⟨i, q, hk⟩ | ⟨q, hk⟩ | ⟨inputs, outs, pm, hk⟩ | hs
      · rw [recvCtrl_comp ho hk] at h
        obtain ⟨h1, evs, h2, h3⟩ := ih _ _ _ _ _ _ h
        refine ⟨h1, Ev.recv none i p true m :: evs, by simp [h2], ?_⟩
        intro e he
        rcases List.mem_cons.1 he with h | h
        · subst h; exact ⟨rfl, rfl⟩
        · exact h3 e h
      · rw [recvCtrl_comp' ho hk] at h; cases h
      · exact other (by simp [hk])
      · exact other (by intro i q hk; simp [Simple, hk] at hs)

theorem delivery_shape {h h' : Nat → Option (Op V)} (hs : SameShape h h') (a : Nat) (p : Str) (m : Msg V) (c : Conn) :
    delivery h' a p m c = delivery h a p m c := by
  unfold delivery
  cases ho : h c.target with
  | none =>
    have := hs c.target
    rw [ho] at this
    simp only [Option.map_none, Option.map_eq_none_iff] at this
    rw [this]
  | some t =>
    obtain ⟨t', ht', hf⟩ := hs.get ho
    rw [ht']
    simp only [isData_of_fresh hf, isCtrl_of_fresh hf]

theorem connsOf_shape {h h' : Nat → Option (Op V)} (hs : SameShape h h') (a : Nat) (p : Str) : connsOf h' a p = connsOf h a p := by
  unfold connsOf
  cases ho : h a with
  | none =>
    have := hs a
    rw [ho] at this
    simp only [Option.map_none, Option.map_eq_none_iff] at this
    rw [this]
  | some t =>
    obtain ⟨t', ht', hf⟩ := hs.get ho
    rw [ht']
    simp only [outputs_of_fresh hf]

theorem deliveries_shape {h h' : Nat → Option (Op V)} (hs : SameShape h h') (e : Ev V) : deliveries h' e = deliveries h e := by
  cases e with
  | emit d a id p m =>
    simp only [deliveries, connsOf_shape hs]
    congr 1
    funext c
    exact delivery_shape hs a p m c
  | _ => rfl

theorem deliverAll_log (fuel a : Nat) (p : Str) (m : Msg V) (cs : List Conn) : ∀ (s s' : St V), HeapWF s.heap →
    M.fold (deliver fuel (a, p) m) cs () s = .ok () s' →
    s'.depth = s.depth ∧ ∃ evs, s'.log = s.log ++ evs ∧ (∀ e ∈ evs, isRecv e = true) ∧
      evs.filter overConn = cs.filterMap (delivery s.heap a p m) := by
  induction cs with
  | nil => intro s s' _ h; cases h; exact ⟨rfl, [], by simp, by simp, rfl⟩
  | cons c cs ih =>
    intro s s' hw h
    have hst := deliver_steps (S := Any) fuel (a, p) m c s (ctx_any hw) trivial
    rw [fold_cons] at h
    split at h
    case h_2 => cases h
    rename_i s1 h1
    rw [h1] at hst
    have hsh := hst.shape
    simp only [Res.state] at hsh
    obtain ⟨hd, evs, hl, hr, hf⟩ := ih s1 s' (hsh.wf hw) h
    have hdel : cs.filterMap (delivery s1.heap a p m) = cs.filterMap (delivery s.heap a p m) := by
      congr 1; funext c; exact delivery_shape hsh a p m c
    rw [hdel] at hf
    simp only [deliver, M.bind_def, getOp] at h1
    cases ho : s.heap c.target with
    | none => rw [ho] at h1; cases h1
    | some t =>
      rw [ho] at h1
      dsimp only at h1
      have glue : ∀ ctrl evs1, s1.depth = s.depth → s1.log = s.log ++ Ev.recv (some (a, p)) c.target c.port ctrl m :: evs1 →
          (∀ e ∈ evs1, isRecv e = true ∧ overConn e = false) →
          delivery s.heap a p m c = some (.recv (some (a, p)) c.target c.port ctrl m) →
          s'.depth = s.depth ∧ ∃ evs, s'.log = s.log ++ evs ∧ (∀ e ∈ evs, isRecv e = true) ∧
            evs.filter overConn = (c :: cs).filterMap (delivery s.heap a p m) := by
        intro ctrl evs1 g1 g2 g3 g4
        refine ⟨hd.trans g1, Ev.recv (some (a, p)) c.target c.port ctrl m :: evs1 ++ evs, by simp [hl, g2], ?_, ?_⟩
        · intro e he
          simp only [List.cons_append, List.mem_cons, List.mem_append] at he
          rcases he with h | h | h
          · subst h; rfl
          · exact (g3 e h).1
          · exact hr e h
        · have : evs1.filter overConn = [] := by
            rw [List.filter_eq_nil_iff]; intro e he; simp [(g3 e he).2]
          rw [List.filterMap_cons_some g4, List.filter_append, hf, List.filter_cons, this]
          simp [overConn]
      by_cases hdt : t.core.isData c.port = true
      · rw [if_pos hdt] at h1
        obtain ⟨g1, evs1, g2, g3⟩ := recvData_log fuel _ _ _ _ _ _ h1
        exact glue false evs1 g1 g2 g3 (by simp [delivery, ho, hdt])
      · rw [if_neg hdt] at h1
        by_cases hct : t.core.isCtrl c.port = true
        · rw [if_pos hct] at h1
          obtain ⟨g1, evs1, g2, g3⟩ := recvCtrl_log fuel _ _ _ _ _ _ h1
          exact glue true evs1 g1 g2 g3 (by simp [delivery, ho, hdt, hct])
        · rw [if_neg hct] at h1
          cases h1
          refine ⟨hd, evs, hl, hr, ?_⟩
          rw [hf, List.filterMap_cons_none (by simp [delivery, ho, hdt, hct])]

/-! ## The log of a run -/

theorem emitted_append (d : Nat) (id p : Str) (l l' : List (Ev V)) :
    emitted d id p (l ++ l') = emitted d id p l ++ emitted d id p l' := List.filterMap_append

theorem startsWith_append {ds l : List (Ev V)} (h : StartsWith ds l) (l' : List (Ev V)) : StartsWith ds (l ++ l') := by
  obtain ⟨b, r, h1, h2, h3⟩ := h
  exact ⟨b, r ++ l', by rw [h1, List.append_assoc], h2, h3⟩

theorem orderly_append {h : Nat → Option (Op V)} {l l' : List (Ev V)} (h1 : Orderly h l) (h2 : Orderly h l') :
    Orderly h (l ++ l') := by
  induction l with
  | nil => exact h2
  | cons e l ih =>
    exact ⟨fun d a id p m he => startsWith_append (h1.1 d a id p m he) l', ih h1.2⟩

theorem orderly_recv {h : Nat → Option (Op V)} {l : List (Ev V)} (hl : ∀ e ∈ l, isRecv e = true) : Orderly h l := by
  induction l with
  | nil => trivial
  | cons e l ih =>
    refine ⟨fun d a id p m he => ?_, ih fun e he => hl e (by simp [he])⟩
    have := hl e (by simp)
    subst he; cases this

theorem flatMap_deliveries_recv {h : Nat → Option (Op V)} {l : List (Ev V)} (hl : ∀ e ∈ l, isRecv e = true) :
    l.flatMap (deliveries h) = [] := by
  rw [List.flatMap_eq_nil_iff]
  intro e he
  have := hl e he
  cases e with
  | recv => rfl
  | emit => cases this
  | exec => rfl

theorem emitted_recv {l : List (Ev V)} (hl : ∀ e ∈ l, isRecv e = true) (d : Nat) (id p : Str) : emitted d id p l = [] := by
  unfold emitted
  rw [List.filterMap_eq_nil_iff]
  intro e he
  have := hl e he
  cases e with
  | recv => rfl
  | emit => cases this
  | exec => rfl

/-- What the log of a run at depth `d` in heap `h` looks like, when it turns the report `acc` into `r`. -/
structure Logged (h : Nat → Option (Op V)) (d : Nat) (acc r : ProgMsg V) (evs : List (Ev V)) : Prop where
  good : Good r
  report : ∀ id p, listed r id p = listed acc id p ++ emitted d id p evs
  deeper : ∀ d' id p, d' < d → emitted d' id p evs = []
  complete : evs.filter overConn = evs.flatMap (deliveries h)
  orderly : Orderly h evs

/-- The accumulated report of a loop. -/
def Call.acc : Call V → ProgMsg V
  | .exec _ _ => []
  | .ports _ _ acc => acc
  | .msgs _ _ _ acc => acc
  | .conns _ acc => acc
  | .keys _ _ acc => acc

theorem Logged.nil {h : Nat → Option (Op V)} {d : Nat} {acc : ProgMsg V} (hg : Good acc) : Logged h d acc acc [] :=
  ⟨hg, by simp [emitted], by simp [emitted], rfl, trivial⟩

/-- First a run from the empty report, its result merged, then the rest. -/
theorem Logged.merge {h h' : Nat → Option (Op V)} {d : Nat} {acc r r' : ProgMsg V} {evs evs' : List (Ev V)}
    (h1 : Logged h d [] r evs) (hs : SameShape h h') (h2 : Logged h' d (mergeProg acc r) r' evs') :
    Logged h d acc r' (evs ++ evs') := by
  have hdel : deliveries h' = deliveries h := by funext e; exact deliveries_shape hs e
  refine ⟨h2.good, ?_, ?_, ?_, ?_⟩
  · intro id p
    rw [h2.report, listed_merge h1.good, h1.report, listed_nil, List.nil_append, emitted_append, List.append_assoc]
  · intro d' id p hd
    rw [emitted_append, h1.deeper d' id p hd, h2.deeper d' id p hd]; rfl
  · rw [List.filter_append, List.flatMap_append, h1.complete, h2.complete, hdel]
  · refine orderly_append h1.orderly ?_
    have := h2.orderly
    have horb : ∀ l, Orderly h' l → Orderly h l := by
      intro l
      induction l with
      | nil => intro _; trivial
      | cons e l ih =>
        intro hl
        exact ⟨fun d a id p m he => by rw [← hdel]; exact hl.1 d a id p m he, ih hl.2⟩
    exact horb _ this

/-- A preceding event that is neither an emission nor a delivery. -/
theorem Logged.exec {h : Nat → Option (Op V)} {d : Nat} {acc r : ProgMsg V} {evs : List (Ev V)} (a : Nat) (ctrl : Bool)
    (hl : Logged h d acc r evs) : Logged h d acc r (.exec a ctrl :: evs) :=
  ⟨hl.good, hl.report, hl.deeper, by
    rw [List.filter_cons_of_neg (by simp [overConn]), List.flatMap_cons, ← hl.complete]; rfl,
    And.intro (fun _ _ _ _ _ h => by cases h) hl.orderly⟩

/-- The same log read in a heap of the same shape. -/
theorem Logged.shape {h h' : Nat → Option (Op V)} {d : Nat} {acc r : ProgMsg V} {evs : List (Ev V)} (hs : SameShape h h')
    (_hg : Good acc) (hl : Logged h' d acc r evs) : Logged h d acc r evs := by
  have := Logged.merge (acc := acc) (Logged.nil (h := h) (d := d) good_nil) hs (by
    have : mergeProg acc [] = acc := rfl
    rw [this]; exact hl)
  simpa using this

theorem Run.log {c : Call V} {s s' : St V} {r : ProgMsg V} (h : Run c s r s') :
    HeapWF s.heap → Good c.acc → s'.depth = s.depth ∧ ∃ evs, s'.log = s.log ++ evs ∧ Logged s.heap s.depth c.acc r evs := by
  induction h with
  | @comp s r s' a o i q ctrl ho hk h ih =>
    intro hw hg
    obtain ⟨hd, evs, hl, hL⟩ := ih hw good_nil
    exact ⟨hd, _, by rw [hl]; simp, hL.exec a ctrl⟩
  | @pipeCtrl s a o inputs outs pm ho hk =>
    intro hw hg
    exact ⟨rfl, [.exec a true], rfl, (Logged.nil good_nil).exec a true⟩
  | @pipeNone s s' a o inputs outs pm o1 ho hk h ho1 ih =>
    intro hw hg
    obtain ⟨hd, evs, hl, hL⟩ := ih hw good_nil
    refine ⟨rfl, .exec a false :: evs, by simp [St.setOp, hl], ?_⟩
    refine Logged.exec a false ⟨good_nil, ?_, ?_, hL.complete, hL.orderly⟩
    · intro id p; rw [hL.deeper _ _ _ (Nat.lt_succ_self _)]; rfl
    · intro d' id p hd'; exact hL.deeper _ _ _ (Nat.lt_succ_of_lt hd')
  | @pipeSome s s' a o inputs outs pm o1 r out r' s'' ho hk h hr ho1 hout h2 ih ih2 =>
    intro hw hg
    obtain ⟨hd, evs, hl, hL⟩ := ih hw good_nil
    have hsh : SameShape s.heap s'.heap := h.shape hw
    have hsh2 : SameShape s.heap (St.setOp { s' with depth := s.depth } a (clearProcess o1)).heap := by
      refine hsh.trans fun b => ?_
      rw [setOp_heap]
      split
      · rename_i hb; subst hb; rw [ho1]; rfl
      · rfl
    obtain ⟨hd2, evs2, hl2, hL2⟩ := ih2 (hsh2.wf hw) good_nil
    refine ⟨hd2, .exec a false :: (evs ++ evs2), by simp [hl2, St.setOp, hl], ?_⟩
    refine Logged.exec a false (Logged.merge (r := []) ⟨good_nil, ?_, ?_, hL.complete, hL.orderly⟩ hsh2 hL2)
    · intro id p; rw [hL.deeper _ _ _ (Nat.lt_succ_self _)]; rfl
    · intro d' id p hd'; exact hL.deeper _ _ _ (Nat.lt_succ_of_lt hd')
  | @simple s a o ctrl out o' r s' ho hs hx h ih =>
    intro hw hg
    have hsh : SameShape s.heap (St.setOp (s.ev (.exec a ctrl)) a o').heap := by
      intro b
      rw [setOp_heap]
      split
      · rename_i hb; subst hb; rw [ho]
        have : o'.fresh = o.fresh := by
          cases ctrl
          · have := execData_fresh o
            simp only [Bool.false_eq_true, if_false] at hx
            rw [hx] at this; exact this
          · have := execCtrl_fresh o
            simp only [if_true] at hx
            rw [hx] at this; exact this
        simp [this]
      · rfl
    obtain ⟨hd, evs, hl, hL⟩ := ih (hsh.wf hw) good_nil
    exact ⟨hd, .exec a ctrl :: evs, by simp [hl, St.setOp], (hL.shape hsh good_nil).exec a ctrl⟩
  | portsNil => intro _ hg; exact ⟨rfl, [], by simp, Logged.nil hg⟩
  | portsCons ho hp h h2 ih ih2 =>
    intro hw hg
    obtain ⟨hd, evs, hl, hL⟩ := ih hw good_nil
    obtain ⟨hd2, evs2, hl2, hL2⟩ := ih2 ((h.shape hw).wf hw) (good_merge hg hL.good)
    rw [hd] at hL2
    exact ⟨hd2.trans hd, evs ++ evs2, by rw [hl2, hl, List.append_assoc], hL.merge (h.shape hw) hL2⟩
  | msgsNil => intro _ hg; exact ⟨rfl, [], by simp, Logged.nil hg⟩
  | @msgsNone s a o p m ms acc r s' ho hcn h ih =>
    intro hw hg
    obtain ⟨hd, evs, hl, hL⟩ := ih hw (good_merge hg (good_single _ _ _))
    refine ⟨hd, .emit s.depth a o.core.id p m :: evs, by simp [hl], ?_⟩
    have h1 : Logged s.heap s.depth [] [(o.core.id, [(p, [m])])] [.emit s.depth a o.core.id p m] := by
      have hde : deliveries s.heap (.emit s.depth a o.core.id p m) = [] := by simp [deliveries, connsOf, ho, hcn]
      refine ⟨good_single _ _ _, ?_, ?_, ?_, ?_⟩
      · intro id q
        rw [listed_single, listed_nil, List.nil_append]
        simp only [emitted, List.filterMap_cons, List.filterMap_nil, true_and]
        split <;> simp_all
      · intro d' id q hd'
        simp [emitted, Nat.ne_of_gt hd']
      · rw [List.flatMap_cons, hde]; rfl
      · exact ⟨fun _ _ _ _ _ _ => by rw [hde]; exact ⟨[], [], rfl, by simp, rfl⟩, trivial⟩
    exact Logged.merge h1 (SameShape.refl _) hL
  | @msgsSome s a o p m ms acc cs fuel s1 r s2 r' s3 ho hcn hdl h h2 ih ih2 =>
    intro hw hg
    have hw1 : SameShape s.heap s1.heap := by
      have := deliverAll_steps fuel (a, p) m cs (s.ev (.emit s.depth a o.core.id p m)) (ctx_any hw) (fun _ _ => trivial)
      rw [hdl] at this
      exact this.shape
    obtain ⟨hd0, evs0, hl0, hr0, hf0⟩ := deliverAll_log fuel a p m cs (s.ev (.emit s.depth a o.core.id p m)) _ hw hdl
    obtain ⟨hd, evs, hl, hL⟩ := ih (hw1.wf hw) (good_single _ _ _)
    obtain ⟨hd2, evs2, hl2, hL2⟩ := ih2 ((h.shape (hw1.wf hw)).wf (hw1.wf hw)) (good_merge hg hL.good)
    rw [hd, hd0] at hL2
    rw [hd0] at hL
    refine ⟨by rw [hd2, hd, hd0], .emit s.depth a o.core.id p m :: evs0 ++ evs ++ evs2, by
      rw [hl2, hl, hl0]; simp, ?_⟩
    refine Logged.merge (r := r) ?_ (hw1.trans (h.shape (hw1.wf hw))) hL2
    have hde : deliveries s.heap (.emit s.depth a o.core.id p m) = cs.filterMap (delivery s.heap a p m) := by
      simp [deliveries, connsOf, ho, hcn]
    have hL := hL.shape hw1 (good_single _ _ _)
    refine ⟨hL.good, ?_, ?_, ?_, ?_⟩
    · intro id q
      rw [hL.report, listed_single, listed_nil, List.nil_append, emitted_append]
      congr 1
      have : emitted s.depth id q (Ev.emit s.depth a o.core.id p m :: evs0) =
          emitted s.depth id q [Ev.emit s.depth a o.core.id p m] ++ emitted s.depth id q evs0 := emitted_append _ _ _ [_] _
      rw [this, emitted_recv hr0, List.append_nil]
      simp only [emitted, List.filterMap_cons, List.filterMap_nil, true_and]
      split <;> simp_all
    · intro d' id q hd'
      have : emitted d' id q (Ev.emit s.depth a o.core.id p m :: evs0) =
          emitted d' id q [Ev.emit s.depth a o.core.id p m] ++ emitted d' id q evs0 := emitted_append _ _ _ [_] _
      rw [emitted_append, this, emitted_recv hr0, List.append_nil, hL.deeper d' id q hd']
      simp [emitted, Nat.ne_of_gt hd']
    · rw [List.filter_append, List.flatMap_append, hL.complete, List.filter_cons_of_neg (by simp [overConn]), List.flatMap_cons,
        hf0, hde, flatMap_deliveries_recv hr0]
      simp
    · have hb : Orderly s.heap (Ev.emit s.depth a o.core.id p m :: evs0) :=
        ⟨fun _ _ _ _ _ _ => ⟨evs0, [], by simp, hr0, by rw [hf0, hde]⟩, orderly_recv hr0⟩
      exact orderly_append hb hL.orderly
  | connsNil => intro _ hg; exact ⟨rfl, [], by simp, Logged.nil hg⟩
  | connsCons ho hp h h2 ih ih2 =>
    intro hw hg
    obtain ⟨hd, evs, hl, hL⟩ := ih hw good_nil
    obtain ⟨hd2, evs2, hl2, hL2⟩ := ih2 ((h.shape hw).wf hw) (good_merge hg hL.good)
    rw [hd] at hL2
    exact ⟨hd2.trans hd, evs ++ evs2, by rw [hl2, hl, List.append_assoc], hL.merge (h.shape hw) hL2⟩
  | connsSkip ho hdd hcc h2 ih2 =>
    intro hw hg
    exact ih2 hw hg
  | keysNil => intro _ hg; exact ⟨rfl, [], by simp, Logged.nil hg⟩
  | keysCons ht h h2 ih ih2 =>
    intro hw hg
    obtain ⟨hd, evs, hl, hL⟩ := ih hw good_nil
    obtain ⟨hd2, evs2, hl2, hL2⟩ := ih2 ((h.shape hw).wf hw) (good_merge hg hL.good)
    rw [hd] at hL2
    exact ⟨hd2.trans hd, evs ++ evs2, by rw [hl2, hl, List.append_assoc], hL.merge (h.shape hw) hL2⟩

end Rtbot
