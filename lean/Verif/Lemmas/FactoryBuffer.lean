import Verif.Lemmas.Factory

set_option linter.unusedSectionVars false

/-! # The message buffers and batches -/

namespace Rtbot
variable {V : Type} [Num V]
open Spec

theorem msgsOn_push (x : OpMsg V) (p : Str) (m : Msg V) (q : Str) :
    msgsOn q (pushMsg x p m) = if q = p then msgsOn q x ++ [m] else msgsOn q x := by
  unfold pushMsg msgsOn
  by_cases h : q = p
  · subst h
    rw [if_pos rfl]
    cases hx : x.find? q <;> simp
  · rw [if_neg h]
    cases hx : x.find? p <;> simp only [Map.find?_put_ne _ _ h]

theorem goodOp_push {x : OpMsg V} (hx : GoodOp x) (p : Str) (m : Msg V) : GoodOp (pushMsg x p m) := by
  have key : ∀ l : List (Msg V), l ≠ [] → GoodOp (x.put p l) := fun l hl =>
    ⟨hx.1.put _ _, fun q l' h => by
      rw [Map.find?_put] at h
      split at h
      · cases h; exact hl
      · exact hx.2 q l' h⟩
  unfold pushMsg
  split
  · exact key _ (by simp)
  · exact key _ (by simp)

/-- The buffer after a batch. -/
def queue (x : OpMsg V) (l : List (UInt64 × V × Str)) : OpMsg V := l.foldl (fun x e => pushMsg x e.2.2 ⟨e.1, e.2.1⟩) x

theorem msgsOn_queue (q : Str) (l : List (UInt64 × V × Str)) : ∀ x : OpMsg V,
    msgsOn q (queue x l) = msgsOn q x ++ (l.filter fun e => e.2.2 = q).map fun e => ⟨e.1, e.2.1⟩ := by
  induction l with
  | nil => intro x; simp [queue]
  | cons e l ih =>
    intro x
    have : queue x (e :: l) = queue (pushMsg x e.2.2 ⟨e.1, e.2.1⟩) l := rfl
    rw [this, ih, msgsOn_push]
    by_cases h : e.2.2 = q
    · rw [if_pos h.symm, List.filter_cons_of_pos (by simpa using h)]
      simp
    · rw [if_neg (fun h' => h h'.symm), List.filter_cons_of_neg (by simpa using h)]

theorem goodOp_queue (l : List (UInt64 × V × Str)) : ∀ x : OpMsg V, GoodOp x → GoodOp (queue x l) := by
  induction l with
  | nil => intro x h; exact h
  | cons e l ih => intro x h; exact ih _ (goodOp_push h _ _)

theorem addAll_has {id : Str} (l : List (UInt64 × V × Str)) : ∀ F : Factory V, F.programs.has id = true →
    ∃ F', F.addAll id l = .ok () F' ∧ F'.programs = F.programs ∧ F'.buffered id = queue (F.buffered id) l ∧
      ∀ b, b ≠ id → F'.buffer.find? b = F.buffer.find? b := by
  induction l with
  | nil => intro F _; exact ⟨F, rfl, rfl, rfl, fun _ _ => rfl⟩
  | cons e l ih =>
    intro F h
    obtain ⟨t, v, port⟩ := e
    obtain ⟨F', h1, h2, h3, h4⟩ := ih { F with buffer := F.buffer.put id (pushMsg (F.buffered id) port ⟨t, v⟩) } h
    refine ⟨F', ?_, h2, ?_, fun b hb => (h4 b hb).trans (Map.find?_put_ne _ _ hb)⟩
    · unfold Factory.addAll
      rw [show F.add id port ⟨t, v⟩ = .ok true { F with buffer := F.buffer.put id (pushMsg (F.buffered id) port ⟨t, v⟩) } from by
        unfold Factory.add; rw [if_pos h]]
      exact h1
    · rw [h3]
      have : Factory.buffered { F with buffer := F.buffer.put id (pushMsg (F.buffered id) port ⟨t, v⟩) } id =
          pushMsg (F.buffered id) port ⟨t, v⟩ := by
        rw [Factory.buffered]
        simp
      rw [this]
      rfl

theorem addAll_not {id : Str} {F : Factory V} (h : F.programs.has id = false) :
    ∀ l : List (UInt64 × V × Str), l ≠ [] → F.addAll id l = .err (.exc .runtime) F := by
  intro l hl
  cases l with
  | nil => exact absurd rfl hl
  | cons e l =>
    obtain ⟨t, v, port⟩ := e
    unfold Factory.addAll Factory.add
    simp [h]

theorem addBatch_eq {id : Str} {F : Factory V} {ts : List UInt64} {vs : List V} {ps : List Str} (h1 : ts.length = vs.length)
    (h2 : vs.length = ps.length) : F.addBatch id ts vs ps = F.addAll id (ts.zip (vs.zip ps)) := by
  unfold Factory.addBatch
  rw [if_neg (by omega)]

/-! ## The buffers along a history -/

/-- Every buffer is in order and without empty entries. -/
def BuffersGood (F : Factory V) : Prop := ∀ id, GoodOp (F.buffered id)

theorem buffersGood_empty : BuffersGood (Factory.empty : Factory V) := fun _ => ⟨Map.Sorted.nil, fun p l h => by cases h⟩

theorem goodOp_nil : GoodOp ([] : OpMsg V) := ⟨Map.Sorted.nil, fun p l h => by cases h⟩

theorem processMap_buffer (debug : Bool) (fuel : Nat) (F : Factory V) (id : Str) (msgs : OpMsg V) :
    (F.processMap debug fuel id msgs).state.buffer = F.buffer := by
  unfold Factory.processMap
  split
  · rfl
  · split <;> rfl

theorem createJson_buffer (parse : Parser V) (junk : Junk V) (F : Factory V) (id json : Str) :
    (F.createJson parse junk id json).state.buffer = F.buffer := by
  unfold Factory.createJson
  split <;> rfl

/-- What successful or failed processing leaves in the buffer. -/
theorem processBuffer_buffered (debug : Bool) (fuel : Nat) (F : Factory V) (id : Str) :
    (F.processBuffer debug fuel id).state.buffered id = if worked (F.processBuffer debug fuel id) then [] else F.buffered id := by
  cases h : F.programs.find? id with
  | none =>
    have : F.programs.has id = false := by unfold Map.has; rw [h]; rfl
    unfold Factory.processBuffer
    rw [this]
    rfl
  | some P =>
    rw [processBuffer_eq h]
    split
    · rename_i hb
      exact hb
    · cases P.answer debug fuel (F.buffered id) with
      | ok r P' => exact buffered_erase _ _ _
      | err e P' => rfl

theorem worked_as {σ α β : Type} (f : α → β) (r : Res σ α) : worked (r.as f) = worked r := by cases r <;> rfl

theorem isSome_has {β : Type} (m : Map β) (id : Str) : (m.find? id).isSome = m.has id := rfl

theorem batch_buffered (debug : Bool) (fuel : Nat) (F : Factory V) (id : Str) (ts : List UInt64) (vs : List V) (ps : List Str) :
    (F.batch debug fuel id ts vs ps).state.buffered id =
      if F.programs.has id = true ∧ ts.length = vs.length ∧ vs.length = ps.length then
        if worked (F.batch debug fuel id ts vs ps) then [] else queue (F.buffered id) (ts.zip (vs.zip ps))
      else F.buffered id := by
  unfold Factory.batch
  by_cases hl : ts.length = vs.length ∧ vs.length = ps.length
  · rw [addBatch_eq hl.1 hl.2]
    cases hh : F.programs.has id with
    | false =>
      rw [if_neg (by simp)]
      cases hz : ts.zip (vs.zip ps) with
      | nil =>
        show (F.processBuffer debug fuel id).state.buffered id = _
        unfold Factory.processBuffer
        rw [hh]
        rfl
      | cons e l =>
        rw [addAll_not hh _ (by simp)]
        rfl
    | true =>
      rw [if_pos ⟨rfl, hl⟩]
      obtain ⟨F', h1, h2, h3, _⟩ := addAll_has (ts.zip (vs.zip ps)) F hh
      rw [h1]
      dsimp only
      rw [processBuffer_buffered, h3]
  · rw [if_neg (fun h => hl h.2)]
    unfold Factory.addBatch
    rw [if_pos (by omega)]
    rfl

/-- One call more. -/
theorem serve_waiting (env : Env V) (F : Factory V) (r : Req V) (id port : Str) :
    msgsOn port ((F.serve env r).state.buffered id) = waitingStep env id port F (msgsOn port (F.buffered id)) r := by
  by_cases hid : Req.id r = id
  case neg =>
    rw [(serve_other env F r hid).buffered]
    cases r <;> simp only [waitingStep] <;> rw [if_neg (fun h => hid h.1)]
  subst hid
  cases r <;> simp only [Req.id, Factory.serve, state_as, waitingStep, worked_as, true_and]
  case serialize id =>
    unfold Factory.serialize
    split
    · rfl
    · split <;> rfl
  case createBytes junk id bytes =>
    unfold Factory.createBytes
    split
    · rfl
    · split <;> rfl
  case createJson junk id json => rw [buffered_same (createJson_buffer ..)]
  case createChecked junk id json =>
    unfold Factory.createChecked
    split
    · rfl
    · rw [buffered_same (createJson_buffer ..)]
  case delete id => rfl
  case add id p m =>
    unfold Factory.add
    rw [isSome_has]
    cases hh : F.programs.has id with
    | false => simp [Res.state]
    | true =>
      simp only [if_true, Res.state, and_true]
      rw [show Factory.buffered { F with buffer := F.buffer.put id (pushMsg (F.buffered id) p m) } id = pushMsg (F.buffered id) p m from by
        rw [Factory.buffered]; simp, msgsOn_push]
      by_cases h : port = p
      · rw [if_pos h, if_pos h.symm]
      · rw [if_neg h, if_neg (fun h' => h h'.symm)]
  case processBuffer d id =>
    rw [processBuffer_buffered]
    split <;> rfl
  case processMap d id msgs => rw [buffered_same (processMap_buffer ..)]
  case batch d id ts vs ps =>
    rw [batch_buffered, isSome_has]
    split
    · split
      · rfl
      · rw [msgsOn_queue]
    · rfl
  case entryId id => unfold Factory.entryId; split <;> rfl
  case entryPorts id =>
    unfold Factory.entryPorts
    split
    · rfl
    · split <;> rfl
  case outputFilter id => unfold Factory.outputFilter; split <;> rfl

theorem serve_good (env : Env V) {F : Factory V} (r : Req V) (h : BuffersGood F) : BuffersGood (F.serve env r).state := by
  intro id
  by_cases hid : Req.id r = id
  case neg => rw [(serve_other env F r hid).buffered]; exact h id
  have keep : ∀ {F' : Factory V}, F'.buffer = F.buffer → GoodOp (F'.buffered id) := fun hb => by
    rw [buffered_same hb]; exact h id
  subst hid
  cases r <;> simp only [Req.id, Factory.serve, state_as] at keep ⊢
  case serialize id =>
    apply keep
    unfold Factory.serialize
    split
    · rfl
    · split <;> rfl
  case createBytes junk id bytes =>
    apply keep
    unfold Factory.createBytes
    split
    · rfl
    · split <;> rfl
  case createJson junk id json => exact keep (createJson_buffer ..)
  case createChecked junk id json =>
    apply keep
    unfold Factory.createChecked
    split
    · rfl
    · exact createJson_buffer ..
  case delete id => exact keep rfl
  case add id p m =>
    unfold Factory.add
    split
    · simp only [Res.state]
      rw [show Factory.buffered { F with buffer := F.buffer.put id (pushMsg (F.buffered id) p m) } id = pushMsg (F.buffered id) p m from by
        rw [Factory.buffered]; simp]
      exact goodOp_push (h id) _ _
    · exact h id
  case processBuffer d id =>
    rw [processBuffer_buffered]
    split
    · exact goodOp_nil
    · exact h id
  case processMap d id msgs => exact keep (processMap_buffer ..)
  case batch d id ts vs ps =>
    rw [batch_buffered]
    split
    · split
      · exact goodOp_nil
      · exact goodOp_queue _ _ (h id)
    · exact h id
  case entryId id => apply keep; unfold Factory.entryId; split <;> rfl
  case entryPorts id =>
    apply keep
    unfold Factory.entryPorts
    split
    · rfl
    · split <;> rfl
  case outputFilter id => apply keep; unfold Factory.outputFilter; split <;> rfl

theorem served_good (env : Env V) (rs : List (Req V)) : ∀ {F : Factory V}, BuffersGood F → BuffersGood (served env F rs) := by
  induction rs with
  | nil => intro F h; exact h
  | cons r rs ih => intro F h; exact ih (serve_good env r h)

theorem served_waiting (env : Env V) (id port : Str) (rs : List (Req V)) : ∀ F : Factory V,
    msgsOn port ((served env F rs).buffered id) = waiting env id port F (msgsOn port (F.buffered id)) rs := by
  induction rs with
  | nil => intro F; rfl
  | cons r rs ih =>
    intro F
    rw [served, ih, serve_waiting]
    rfl

/-! ## A map of messages is fed port by port -/

/-- The messages of a map, in the order in which they are fed. -/
def unrolled (msgs : OpMsg V) : List (UInt64 × V × Str) := msgs.flatMap fun pm => pm.2.map fun m => (m.time, m.value, pm.1)

theorem answer_frame (debug : Bool) (fuel : Nat) (P : Prog V) (msgs : OpMsg V) :
    (P.answer debug fuel msgs).state.st = (P.receiveDebug fuel msgs).state.st ∧ (P.answer debug fuel msgs).state.ops = P.ops ∧
    (P.answer debug fuel msgs).state.entry = P.entry ∧ (P.answer debug fuel msgs).state.filter = P.filter := by
  have h := receiveDebug_frame (fuel := fuel) (P := P) (msgs := msgs)
  unfold Prog.answer
  cases debug with
  | true => exact ⟨rfl, h.2⟩
  | false =>
    simp only [Bool.false_eq_true, if_false]
    unfold Prog.receive
    cases hr : P.receiveDebug fuel msgs with
    | ok r P' => rw [hr] at h; exact ⟨rfl, h.2⟩
    | err e P' => rw [hr] at h; exact ⟨rfl, h.2⟩

/-- The messages of one port, one by one. -/
theorem feedPort_singly {fuel a : Nat} {p : Str} (ms : PortMsg V) : ∀ (P : Prog V), HeapWF P.st.heap → P.ops.find? P.entry = some a →
    match singly true fuel (ms.map fun m => (m.time, m.value, p)) P with
    | .ok rs P' => ∃ r, feedPort fuel a p ms [] P.st = .ok r P'.st ∧ P' = { P with st := P'.st } ∧ Good r ∧
        ∀ id q, listed r id q = rs.flatMap fun x => listed x id q
    | .err e P' => feedPort fuel a p ms [] P.st = .err e P'.st ∧ P' = { P with st := P'.st } := by
  induction ms with
  | nil => intro P _ _; exact ⟨[], rfl, rfl, good_nil, fun _ _ => rfl⟩
  | cons m ms ih =>
    intro P hw hP
    have h1 : P.answer true fuel [(p, [m])] = match feed fuel a p m P.st with
        | .ok r s => .ok (mergeProg [] r) { P with st := s }
        | .err e s => .err e { P with st := s } := by
      unfold Prog.answer Prog.receiveDebug
      rw [if_pos rfl, hP]
      dsimp only
      rw [feedAll_single, feedPort_cons]
      cases feed fuel a p m P.st <;> rfl
    rw [List.map_cons, singly, h1, feedPort_cons]
    have hst := feed_steps (S := Any) fuel a p m P.st (ctx_any hw) trivial
    cases hf : feed fuel a p m P.st with
    | err e s => exact ⟨rfl, rfl⟩
    | ok r s =>
      rw [hf] at hst
      have hw' : HeapWF s.heap := hst.shape.wf hw
      obtain ⟨_, _, _, hL⟩ := feed_log fuel a p m P.st s r hw hf
      have hg : Good (mergeProg [] r) := good_merge good_nil hL.good
      have := ih { P with st := s } hw' hP
      dsimp only at this ⊢
      rw [feedPort_acc fuel a p ms _ s hw' hg]
      cases hr : singly true fuel (ms.map fun m => (m.time, m.value, p)) { P with st := s } with
      | err e P' =>
        rw [hr] at this
        obtain ⟨g1, g2⟩ := this
        rw [g1]
        refine ⟨rfl, ?_⟩
        rw [g2]
      | ok rs P' =>
        rw [hr] at this
        obtain ⟨r', g1, g2, g3, g4⟩ := this
        rw [g1]
        refine ⟨_, rfl, by rw [g2], good_merge hg g3, fun id q => ?_⟩
        rw [listed_merge g3, g4]
        rfl

theorem singly_append (debug : Bool) (fuel : Nat) (l l' : List (UInt64 × V × Str)) : ∀ P : Prog V,
    singly debug fuel (l ++ l') P = match singly debug fuel l P with
      | .err e P' => .err e P'
      | .ok rs P' =>
        (match singly debug fuel l' P' with
        | .err e P'' => .err e P''
        | .ok rs' P'' => .ok (rs ++ rs') P'') := by
  induction l with
  | nil =>
    intro P
    rw [List.nil_append]
    rw [singly]
    dsimp only
    cases singly debug fuel l' P <;> rfl
  | cons e l ih =>
    intro P
    obtain ⟨t, v, p⟩ := e
    rw [List.cons_append, singly, singly]
    cases P.answer debug fuel [(p, [⟨t, v⟩])] with
    | err e P' => rfl
    | ok r P' =>
      dsimp only
      rw [ih]
      cases singly debug fuel l P' with
      | err e P'' => rfl
      | ok rs P'' =>
        dsimp only
        cases singly debug fuel l' P'' <;> rfl

/-- The whole map, from any accumulated report. -/
theorem feedAll_singly {fuel a : Nat} (msgs : OpMsg V) : ∀ (P : Prog V) (out : ProgMsg V), HeapWF P.st.heap → Good out →
    P.ops.find? P.entry = some a →
    match singly true fuel (unrolled msgs) P with
    | .ok rs P' => ∃ r, M.fold (fun out (pm : Str × PortMsg V) => feedPort fuel a pm.1 pm.2 out) msgs out P.st = .ok r P'.st ∧
        P' = { P with st := P'.st } ∧ Good r ∧ ∀ id q, listed r id q = listed out id q ++ rs.flatMap fun x => listed x id q
    | .err e P' => M.fold (fun out (pm : Str × PortMsg V) => feedPort fuel a pm.1 pm.2 out) msgs out P.st = .err e P'.st ∧
        P' = { P with st := P'.st } := by
  induction msgs with
  | nil => intro P out _ ho _; exact ⟨out, rfl, rfl, ho, fun id q => (List.append_nil _).symm⟩
  | cons pm msgs ih =>
    intro P out hw ho hP
    obtain ⟨p, ms⟩ := pm
    have hu : unrolled ((p, ms) :: msgs) = (ms.map fun m => (m.time, m.value, p)) ++ unrolled msgs := rfl
    have hst := feedPort_steps (S := Any) fuel a p ms [] P.st (ctx_any hw) trivial
    have h1 := feedPort_singly (fuel := fuel) (p := p) ms P hw hP
    rw [hu, singly_append, fold_cons]
    dsimp only
    rw [feedPort_acc fuel a p ms out P.st hw ho]
    cases hr : singly true fuel (ms.map fun m => (m.time, m.value, p)) P with
    | err e P' =>
      rw [hr] at h1
      obtain ⟨g1, g2⟩ := h1
      rw [g1]
      exact ⟨rfl, g2⟩
    | ok rs P1 =>
      rw [hr] at h1
      obtain ⟨r, g1, g2, g3, g4⟩ := h1
      rw [g1] at hst ⊢
      have hw' : HeapWF P1.st.heap := hst.shape.wf hw
      have hP' : P1.ops.find? P1.entry = some a := by rw [g2]; exact hP
      have := ih P1 (mergeProg out r) hw' (good_merge ho g3) hP'
      dsimp only at this ⊢
      cases hr2 : singly true fuel (unrolled msgs) P1 with
      | err e P' =>
        rw [hr2] at this
        obtain ⟨k1, k2⟩ := this
        exact ⟨k1, by rw [k2, g2]⟩
      | ok rs' P' =>
        rw [hr2] at this
        obtain ⟨r', k1, k2, k3, k4⟩ := this
        refine ⟨r', k1, by rw [k2, g2], k3, fun id q => ?_⟩
        rw [k4, listed_merge g3, g4, List.flatMap_append, List.append_assoc]

theorem receiveDebug_singly {fuel : Nat} {msgs : OpMsg V} (hu : unrolled msgs ≠ []) (P : Prog V) (hw : HeapWF P.st.heap) :
    match singly true fuel (unrolled msgs) P with
    | .ok rs P' => ∃ r, P.receiveDebug fuel msgs = .ok r P' ∧ ∀ id q, listed r id q = rs.flatMap fun x => listed x id q
    | .err e P' => P.receiveDebug fuel msgs = .err e P' := by
  cases hP : P.ops.find? P.entry with
  | none =>
    have hd : ∀ m, P.receiveDebug fuel m = .err (.exc .runtime) P := fun m => by unfold Prog.receiveDebug; rw [hP]
    cases hl : unrolled msgs with
    | nil => exact absurd hl hu
    | cons e l =>
      obtain ⟨t, v, p⟩ := e
      have : singly true fuel ((t, v, p) :: l) P = .err (.exc .runtime) P := by
        rw [singly, Prog.answer, if_pos rfl, hd]
      rw [this]
      exact hd msgs
  | some a =>
    have := feedAll_singly (fuel := fuel) msgs P [] hw good_nil hP
    cases hr : singly true fuel (unrolled msgs) P with
    | err e P' =>
      rw [hr] at this
      obtain ⟨g1, g2⟩ := this
      show P.receiveDebug fuel msgs = _
      unfold Prog.receiveDebug feedAll
      rw [hP]
      dsimp only
      rw [g1]
      dsimp only
      rw [← g2]
    | ok rs P' =>
      rw [hr] at this
      obtain ⟨r, g1, g2, _, g4⟩ := this
      refine ⟨r, ?_, fun id q => by rw [g4, listed_nil, List.nil_append]⟩
      unfold Prog.receiveDebug feedAll
      rw [hP]
      dsimp only
      rw [g1]
      dsimp only
      rw [← g2]

/-! ## The order in which a buffer is fed -/

theorem portOrder_unique (l : List (UInt64 × V × Str)) : ∀ l' : List (UInt64 × V × Str), PortOrder l → PortOrder l' →
    (∀ q, (l.filter fun e => e.2.2 = q) = l'.filter fun e => e.2.2 = q) → l = l' := by
  induction l with
  | nil =>
    intro l' _ _ h
    cases l' with
    | nil => rfl
    | cons e l' =>
      have := h e.2.2
      rw [List.filter_cons_of_pos (by simp)] at this
      cases this
  | cons e l ih =>
    intro l' h1 h2 h
    cases l' with
    | nil =>
      have := h e.2.2
      rw [List.filter_cons_of_pos (by simp)] at this
      cases this
    | cons e' l' =>
      have hpos : ∀ (x : UInt64 × V × Str) (k : List (UInt64 × V × Str)), (x :: k).filter (fun e => e.2.2 = x.2.2) ≠ [] := by
        intro x k
        rw [List.filter_cons_of_pos (by simp)]
        simp
      have hlt : ∀ (x y : UInt64 × V × Str) (k : List (UInt64 × V × Str)), PortOrder (y :: k) → strLt x.2.2 y.2.2 = true →
          (y :: k).filter (fun e => e.2.2 = x.2.2) = [] := by
        intro x y k hk hxy
        rw [List.filter_eq_nil_iff]
        intro z hz hzx
        have hzx : z.2.2 = x.2.2 := by simpa using hzx
        rcases List.mem_cons.1 hz with rfl | hz
        · rw [hzx] at hxy
          exact absurd hxy (by simp [strLt_irrefl])
        · have := (List.pairwise_cons.1 hk).1 z hz
          rw [hzx, hxy] at this
          cases this
      have hee : e.2.2 = e'.2.2 := by
        rcases strLt_total e.2.2 e'.2.2 with hx | hx | hx
        · exact absurd ((h e.2.2).trans (hlt e e' l' h2 hx)) (hpos e l)
        · exact hx
        · exact absurd ((h e'.2.2).symm.trans (hlt e' e l h1 hx)) (hpos e' l')
      have h0 := h e.2.2
      rw [List.filter_cons_of_pos (by simp), List.filter_cons_of_pos (by simp [hee])] at h0
      have he : e = e' := (List.cons.inj h0).1
      subst he
      rw [ih l' (List.pairwise_cons.1 h1).2 (List.pairwise_cons.1 h2).2 fun q => ?_]
      have := h q
      by_cases hq : e.2.2 = q
      · rw [List.filter_cons_of_pos (by simpa using hq), List.filter_cons_of_pos (by simpa using hq)] at this
        exact (List.cons.inj this).2
      · rw [List.filter_cons_of_neg (by simpa using hq), List.filter_cons_of_neg (by simpa using hq)] at this
        exact this

theorem unrolled_port {x : OpMsg V} {e : UInt64 × V × Str} (h : e ∈ unrolled x) : e.2.2 ∈ x.keys := by
  unfold unrolled at h
  rw [List.mem_flatMap] at h
  obtain ⟨pm, h1, h2⟩ := h
  rw [List.mem_map] at h2
  obtain ⟨m, _, rfl⟩ := h2
  exact List.mem_map.2 ⟨pm, h1, rfl⟩

theorem unrolled_order (x : OpMsg V) (h : x.Sorted) : PortOrder (unrolled x) := by
  induction x with
  | nil => exact List.Pairwise.nil
  | cons pm x ih =>
    have hu : unrolled (pm :: x) = (pm.2.map fun m => (m.time, m.value, pm.1)) ++ unrolled x := rfl
    rw [hu, PortOrder, List.pairwise_append]
    refine ⟨?_, ih h.tail, fun a ha b hb => ?_⟩
    · rw [List.pairwise_map]
      induction pm.2 with
      | nil => exact List.Pairwise.nil
      | cons _ _ ih => exact List.Pairwise.cons (fun _ _ => strLt_irrefl _) ih
    · rw [List.mem_map] at ha
      obtain ⟨m, _, rfl⟩ := ha
      exact strLt_asymm (h.head_lt (unrolled_port hb))

theorem unrolled_filter (q : Str) (x : OpMsg V) (h : x.Sorted) :
    ((unrolled x).filter fun e => e.2.2 = q) = (msgsOn q x).map fun m => (m.time, m.value, q) := by
  induction x with
  | nil => rfl
  | cons pm x ih =>
    have hu : unrolled (pm :: x) = (pm.2.map fun m => (m.time, m.value, pm.1)) ++ unrolled x := rfl
    rw [hu, List.filter_append]
    by_cases hq : pm.1 = q
    · have h1 : ((pm.2.map fun m => (m.time, m.value, pm.1)).filter fun e => e.2.2 = q) = pm.2.map fun m => (m.time, m.value, pm.1) := by
        rw [List.filter_eq_self]
        intro e he
        rw [List.mem_map] at he
        obtain ⟨m, _, rfl⟩ := he
        simpa using hq
      have h2 : ((unrolled x).filter fun e => e.2.2 = q) = [] := by
        rw [List.filter_eq_nil_iff]
        intro e he heq
        have := h.head_lt (unrolled_port he)
        rw [show e.2.2 = q from by simpa using heq, hq] at this
        exact absurd this (by simp [strLt_irrefl])
      rw [h1, h2, List.append_nil]
      subst hq
      unfold msgsOn
      rw [show Map.find? (pm :: x) pm.1 = some pm.2 from by simp [Map.find?]]
    · have h1 : ((pm.2.map fun m => (m.time, m.value, pm.1)).filter fun e => e.2.2 = q) = [] := by
        rw [List.filter_eq_nil_iff]
        intro e he
        rw [List.mem_map] at he
        obtain ⟨m, _, rfl⟩ := he
        simpa using hq
      rw [h1, List.nil_append, ih h.tail]
      unfold msgsOn
      obtain ⟨p, ms⟩ := pm
      rw [Map.find?_cons, if_neg hq]

/-- The order in which the messages of a buffer are fed is the only one that respects the ports and the order of each port. -/
theorem unrolled_unique {x : OpMsg V} (hx : x.Sorted) {l : List (UInt64 × V × Str)} (hl : PortOrder l)
    (h : ∀ q, msgsOn q x = (l.filter fun e => e.2.2 = q).map fun e => ⟨e.1, e.2.1⟩) : unrolled x = l := by
  refine portOrder_unique _ _ (unrolled_order x hx) hl fun q => ?_
  rw [unrolled_filter q x hx, h, List.map_map]
  refine (List.map_congr_left fun e he => ?_).trans (List.map_id _)
  have : e.2.2 = q := by simpa using (List.mem_filter.1 he).2
  simp [← this]

end Rtbot
