import Verif.Lemmas.Report
import Verif.Spec.Program

set_option linter.unusedSectionVars false

/-! # receiveDebug and receive -/

namespace Rtbot
variable {V : Type} [Num V]
open Spec

theorem feed_steps {S : Nat → Prop} (fuel a : Nat) (p : Str) (m : Msg V) (s : St V) (hc : Ctx S s) (hS : S a) :
    Steps S s (feed fuel a p m s).state := by
  unfold feed
  refine state_bind (R := Steps S) (fun _ _ _ => Steps.trans) (recvData_steps S fuel s none a m p hc hS) fun _ s' _ hs => ?_
  exact exec_steps S fuel s' false a (hc.step hs) hS

theorem feedPort_steps {S : Nat → Prop} (fuel a : Nat) (p : Str) (ms : PortMsg V) (out : ProgMsg V) (s : St V) (hc : Ctx S s) (hS : S a) :
    Steps S s (feedPort fuel a p ms out s).state :=
  state_fold (R := Steps S) (Steps.refl S) (fun _ _ _ => Steps.trans) ms out s fun _ m s' _ hs =>
    state_bind (R := Steps S) (fun _ _ _ => Steps.trans) (feed_steps fuel a p m s' (hc.step hs) hS) fun _ s'' _ _ => Steps.refl S s''

theorem feedAll_steps {S : Nat → Prop} (fuel a : Nat) (msgs : OpMsg V) (s : St V) (hc : Ctx S s) (hS : S a) :
    Steps S s (feedAll fuel a msgs s).state :=
  state_fold (R := Steps S) (Steps.refl S) (fun _ _ _ => Steps.trans) msgs [] s fun out pm s' _ hs =>
    feedPort_steps fuel a pm.1 pm.2 out s' (hc.step hs) hS

/-! ## Logs -/

theorem Logged.recv {h : Nat → Option (Op V)} {d : Nat} {acc r : ProgMsg V} {evs l : List (Ev V)}
    (hr : ∀ e ∈ l, isRecv e = true ∧ overConn e = false) (hl : Logged h d acc r evs) : Logged h d acc r (l ++ evs) := by
  have hr1 : ∀ e ∈ l, isRecv e = true := fun e he => (hr e he).1
  refine ⟨hl.good, ?_, ?_, ?_, ?_⟩
  · intro id p; rw [emitted_append, emitted_recv hr1, List.nil_append, hl.report]
  · intro d' id p hd; rw [emitted_append, emitted_recv hr1, List.nil_append, hl.deeper d' id p hd]
  · have : l.filter overConn = [] := by rw [List.filter_eq_nil_iff]; intro e he; simp [(hr e he).2]
    rw [List.filter_append, List.flatMap_append, this, flatMap_deliveries_recv hr1, hl.complete]
  · exact orderly_append (orderly_recv hr1) hl.orderly

theorem feed_log (fuel a : Nat) (p : Str) (m : Msg V) (s s' : St V) (r : ProgMsg V) (hw : HeapWF s.heap)
    (h : feed fuel a p m s = .ok r s') :
    s'.depth = s.depth ∧ ∃ evs, s'.log = s.log ++ evs ∧ Logged s.heap s.depth [] r evs := by
  unfold feed at h
  obtain ⟨_, s1, h1, h2⟩ := M.bind_ok.1 h
  have hst := recvData_steps Any fuel s none a m p (ctx_any hw) trivial
  rw [h1] at hst
  have hsh : SameShape s.heap s1.heap := hst.shape
  obtain ⟨hd, evs, hl, hr⟩ := recvData_log fuel _ _ _ _ _ _ h1
  obtain ⟨hd2, evs2, hl2, hL⟩ := (exec_run fuel _ _ _ _ _ h2).log (hsh.wf hw) good_nil
  rw [hd] at hL
  refine ⟨hd2.trans hd, Ev.recv none a p false m :: evs ++ evs2, by rw [hl2, hl]; simp, ?_⟩
  refine Logged.recv ?_ (hL.shape hsh good_nil)
  intro e he
  rcases List.mem_cons.1 he with h | h
  · subst h; exact ⟨rfl, rfl⟩
  · exact hr e h

theorem merge_if (out r : ProgMsg V) [Decidable (r = [])] : (if r = [] then out else mergeProg out r) = mergeProg out r := by
  split
  · rename_i h; subst h; rfl
  · rfl

theorem feedPort_log (fuel a : Nat) (p : Str) (ms : PortMsg V) : ∀ (out r : ProgMsg V) (s s' : St V), HeapWF s.heap → Good out →
    feedPort fuel a p ms out s = .ok r s' →
    s'.depth = s.depth ∧ ∃ evs, s'.log = s.log ++ evs ∧ Logged s.heap s.depth out r evs := by
  induction ms with
  | nil => intro out r s s' hw hg h; cases h; exact ⟨rfl, [], by simp, Logged.nil hg⟩
  | cons m ms ih =>
    intro out r s s' hw hg h
    unfold feedPort at h
    rw [fold_cons] at h
    split at h
    case h_2 => cases h
    rename_i out1 s1 h1
    rw [M.bind_def] at h1
    split at h1
    case h_2 => cases h1
    rename_i r1 s1' hf
    rw [merge_if] at h1
    cases h1
    have hst := feed_steps (S := Any) fuel a p m s (ctx_any hw) trivial
    rw [hf] at hst
    have hsh : SameShape s.heap s1.heap := hst.shape
    obtain ⟨hd, evs, hl, hL⟩ := feed_log fuel a p m s s1 r1 hw hf
    obtain ⟨hd2, evs2, hl2, hL2⟩ := ih _ _ _ _ (hsh.wf hw) (good_merge hg hL.good) h
    rw [hd] at hL2
    exact ⟨hd2.trans hd, evs ++ evs2, by rw [hl2, hl, List.append_assoc], hL.merge hsh hL2⟩

theorem Logged.chain {h h' : Nat → Option (Op V)} {d : Nat} {acc r r' : ProgMsg V} {evs evs' : List (Ev V)}
    (h1 : Logged h d acc r evs) (hs : SameShape h h') (h2 : Logged h' d r r' evs') : Logged h d acc r' (evs ++ evs') := by
  have h2' := h2.shape hs h1.good
  refine ⟨h2.good, ?_, ?_, ?_, orderly_append h1.orderly h2'.orderly⟩
  · intro id p; rw [h2.report, h1.report, emitted_append, List.append_assoc]
  · intro d' id p hd; rw [emitted_append, h1.deeper d' id p hd, h2.deeper d' id p hd]; rfl
  · rw [List.filter_append, List.flatMap_append, h1.complete, h2'.complete]

theorem feedAll_log (fuel a : Nat) (msgs : OpMsg V) : ∀ (out r : ProgMsg V) (s s' : St V), HeapWF s.heap → Good out →
    M.fold (fun out (pm : Str × PortMsg V) => feedPort fuel a pm.1 pm.2 out) msgs out s = .ok r s' →
    s'.depth = s.depth ∧ ∃ evs, s'.log = s.log ++ evs ∧ Logged s.heap s.depth out r evs := by
  induction msgs with
  | nil => intro out r s s' hw hg h; cases h; exact ⟨rfl, [], by simp, Logged.nil hg⟩
  | cons pm msgs ih =>
    intro out r s s' hw hg h
    rw [fold_cons] at h
    split at h
    case h_2 => cases h
    rename_i out1 s1 h1
    have hst := feedPort_steps (S := Any) fuel a pm.1 pm.2 out s (ctx_any hw) trivial
    rw [h1] at hst
    have hsh : SameShape s.heap s1.heap := hst.shape
    obtain ⟨hd, evs, hl, hL⟩ := feedPort_log fuel a _ _ _ _ _ _ hw hg h1
    obtain ⟨hd2, evs2, hl2, hL2⟩ := ih _ _ _ _ (hsh.wf hw) hL.good h
    rw [hd] at hL2
    exact ⟨hd2.trans hd, evs ++ evs2, by rw [hl2, hl, List.append_assoc], hL.chain hsh hL2⟩

theorem receiveDebug_log {fuel : Nat} {P P' : Prog V} {msgs : OpMsg V} {r : ProgMsg V} (hw : HeapWF P.st.heap)
    (h : P.receiveDebug fuel msgs = .ok r P') :
    P'.st.depth = P.st.depth ∧ ∃ evs, P'.st.log = P.st.log ++ evs ∧ Logged P.st.heap P.st.depth [] r evs := by
  unfold Prog.receiveDebug at h
  split at h
  · cases h
  · split at h
    · rename_i hf; cases h; exact feedAll_log fuel _ _ _ _ _ _ hw good_nil hf
    · cases h

theorem receiveDebug_frame {fuel : Nat} {P : Prog V} {msgs : OpMsg V} :
    (P.receiveDebug fuel msgs).state.json = P.json ∧ (P.receiveDebug fuel msgs).state.ops = P.ops ∧
    (P.receiveDebug fuel msgs).state.entry = P.entry ∧ (P.receiveDebug fuel msgs).state.filter = P.filter := by
  unfold Prog.receiveDebug
  split
  · exact ⟨rfl, rfl, rfl, rfl⟩
  · split <;> exact ⟨rfl, rfl, rfl, rfl⟩

theorem receiveDebug_steps {S : Nat → Prop} {fuel : Nat} {P : Prog V} {msgs : OpMsg V} (hc : Ctx S P.st)
    (hS : ∀ a, P.ops.find? P.entry = some a → S a) : Steps S P.st (P.receiveDebug fuel msgs).state.st := by
  unfold Prog.receiveDebug
  split
  · exact Steps.refl S _
  · rename_i a ha
    have := feedAll_steps fuel a msgs P.st hc (hS a ha)
    split
    · rename_i hf; rw [hf] at this; exact this
    · rename_i hf; rw [hf] at this; exact this

/-! ## Batches -/

theorem fold_append {σ α β : Type} (f : β → α → M σ β) (l l' : List α) (b : β) (s : σ) :
    M.fold f (l ++ l') b s = match M.fold f l b s with
      | .ok b' s' => M.fold f l' b' s'
      | .err e s' => .err e s' := by
  induction l generalizing b s with
  | nil => rfl
  | cons x l ih =>
    rw [List.cons_append, fold_cons, fold_cons]
    cases f b x s with
    | ok b' s' => exact ih b' s'
    | err e s' => rfl

theorem merge_assoc {a b c : ProgMsg V} (ha : Good a) (hb : Good b) (hc : Good c) :
    mergeProg (mergeProg a b) c = mergeProg a (mergeProg b c) := by
  apply good_ext (good_merge (good_merge ha hb) hc) (good_merge ha (good_merge hb hc))
  intro id p
  rw [listed_merge hc, listed_merge hb, listed_merge (good_merge hb hc), listed_merge hc, List.append_assoc]

theorem merge_nil_left {r : ProgMsg V} (h : Good r) : mergeProg [] r = r := by
  apply good_ext (good_merge good_nil h) h
  intro id p
  rw [listed_merge h, listed_nil, List.nil_append]

theorem feedPort_cons (fuel a : Nat) (p : Str) (m : Msg V) (ms : PortMsg V) (out : ProgMsg V) (s : St V) :
    feedPort fuel a p (m :: ms) out s = match feed fuel a p m s with
      | .ok r s' => feedPort fuel a p ms (mergeProg out r) s'
      | .err e s' => .err e s' := by
  unfold feedPort
  rw [fold_cons, M.bind_def]
  cases feed fuel a p m s with
  | err e s' => rfl
  | ok r s' =>
    have : (pure (if r = [] then out else mergeProg out r) : M (St V) (ProgMsg V)) s' = .ok (mergeProg out r) s' := by
      rw [merge_if]; rfl
    simp only [this]

/-- The accumulator is only prefixed. -/
theorem feedPort_acc (fuel a : Nat) (p : Str) (ms : PortMsg V) : ∀ (out : ProgMsg V) (s : St V), HeapWF s.heap → Good out →
    feedPort fuel a p ms out s = match feedPort fuel a p ms [] s with
      | .ok r s' => .ok (mergeProg out r) s'
      | .err e s' => .err e s' := by
  induction ms with
  | nil => intro out s _ _; rfl
  | cons m ms ih =>
    intro out s hw hg
    have hst := feed_steps (S := Any) fuel a p m s (ctx_any hw) trivial
    rw [feedPort_cons, feedPort_cons]
    cases hf : feed fuel a p m s with
    | err e s' => rfl
    | ok r s1 =>
      rw [hf] at hst
      have hsh : SameShape s.heap s1.heap := hst.shape
      obtain ⟨_, evs, _, hL⟩ := feed_log fuel a p m s s1 r hw hf
      simp only []
      rw [ih _ s1 (hsh.wf hw) (good_merge hg hL.good), ih _ s1 (hsh.wf hw) (good_merge good_nil hL.good)]
      cases hr : feedPort fuel a p ms [] s1 with
      | err e s' => rfl
      | ok r' s2 =>
        obtain ⟨_, _, _, hL2⟩ := feedPort_log fuel a p ms [] r' s1 s2 (hsh.wf hw) good_nil hr
        simp only []
        rw [merge_assoc hg hL.good hL2.good, merge_assoc good_nil hL.good hL2.good, merge_nil_left (good_merge hL.good hL2.good)]

theorem feedPort_append (fuel a : Nat) (p : Str) (ms ms' : PortMsg V) (s : St V) (hw : HeapWF s.heap) :
    feedPort fuel a p (ms ++ ms') [] s = match feedPort fuel a p ms [] s with
      | .ok r s' =>
        (match feedPort fuel a p ms' [] s' with
        | .ok r' s'' => .ok (mergeProg r r') s''
        | .err e s'' => .err e s'')
      | .err e s' => .err e s' := by
  have h1 : feedPort fuel a p (ms ++ ms') [] s = match feedPort fuel a p ms [] s with
      | .ok r s' => feedPort fuel a p ms' r s'
      | .err e s' => .err e s' := by
    unfold feedPort
    rw [fold_append]
    cases M.fold (fun out m => do
      let r ← feed fuel a p m
      pure (if r = [] then out else mergeProg out r)) ms [] s <;> rfl
  rw [h1]
  split
  · rename_i r s' hr
    have hst := feedPort_steps (S := Any) fuel a p ms [] s (ctx_any hw) trivial
    rw [hr] at hst
    obtain ⟨_, _, _, hL⟩ := feedPort_log fuel a p ms [] r s s' hw good_nil hr
    exact feedPort_acc fuel a p ms' r s' (hst.shape.wf hw) hL.good
  · rfl

theorem feedAll_single (fuel a : Nat) (p : Str) (ms : PortMsg V) (s : St V) :
    feedAll fuel a [(p, ms)] s = feedPort fuel a p ms [] s := by
  simp only [feedAll, fold_cons, fold_nil]
  cases feedPort fuel a p ms [] s <;> rfl

theorem receiveDebug_append (fuel : Nat) (P : Prog V) (p : Str) (ms ms' : PortMsg V) (hw : HeapWF P.st.heap) :
    P.receiveDebug fuel [(p, ms ++ ms')] = match P.receiveDebug fuel [(p, ms)] with
      | .ok r P' =>
        (match P'.receiveDebug fuel [(p, ms')] with
        | .ok r' P'' => .ok (mergeProg r r') P''
        | .err e P'' => .err e P'')
      | .err e P' => .err e P' := by
  unfold Prog.receiveDebug
  cases hf : P.ops.find? P.entry with
  | none => rfl
  | some a =>
    simp only [feedAll_single, feedPort_append fuel a p ms ms' P.st hw]
    cases h1 : feedPort fuel a p ms [] P.st with
    | err e s => rfl
    | ok r s1 =>
      simp only [hf]
      cases h2 : feedPort fuel a p ms' [] s1 <;> rfl

/-! ## The output filter -/

theorem good_port {id p : Str} {ms : PortMsg V} (h : ms ≠ []) : Good [(id, [(p, ms)])] := by
  refine ⟨by simp [Map.Sorted, Map.keys], fun id' x hx => ?_⟩
  rw [Map.find?_cons] at hx
  split at hx
  · cases hx
    refine ⟨⟨by simp [Map.Sorted, Map.keys], fun p' l hl => ?_⟩, by simp⟩
    rw [Map.find?_cons] at hl
    split at hl
    · cases hl; exact h
    · cases hl
  · cases hx

theorem listed_port (id p : Str) (ms : PortMsg V) (id' p' : Str) :
    listed [(id, [(p, ms)])] id' p' = if id = id' ∧ p = p' then ms else [] := by
  unfold listed msgsOn
  by_cases h : id = id'
  · by_cases h' : p = p' <;> simp [Map.find?_cons, h, h']
  · simp [Map.find?_cons, h]

theorem filterPorts_cons (id : Str) (x : OpMsg V) (p : Str) (ps : List Str) (out : ProgMsg V) (ho : Good out) :
    filterPorts id x (p :: ps) out = match x.find? p with
      | none => filterPorts id x ps out
      | some ms => filterPorts id x ps (mergeProg out [(id, [(p, ms)])]) := by
  rw [filterPorts]
  cases x.find? p with
  | none => rfl
  | some ms =>
    simp only []
    have : mergeProg out [(id, [(p, ms)])] = out.put id (mergeOp (opOf out id) [(p, ms)]) := by rw [mergeProg_cons]; rfl
    rw [this, opOf]
    cases h : out.find? id with
    | some y => rfl
    | none =>
      simp only []
      congr 1
      apply Map.Sorted.ext (Map.Sorted.emplace ho.1 _ _) (Map.Sorted.put ho.1 _ _)
      intro k
      rw [Map.find?_emplace, Map.find?_put]
      by_cases hk : k = id
      · subst hk; rw [if_pos rfl, if_pos rfl, h]; rfl
      · rw [if_neg hk, if_neg hk]

theorem filterPorts_listed (id : Str) (x : OpMsg V) (hx : GoodOp x) (ps : List Str) : ∀ (out : ProgMsg V), Good out →
    Good (filterPorts id x ps out) ∧ ∀ id' p, listed (filterPorts id x ps out) id' p =
      listed out id' p ++ if id = id' then (List.replicate (ps.count p) (msgsOn p x)).flatten else [] := by
  induction ps with
  | nil => intro out ho; exact ⟨ho, fun id' p => by rw [filterPorts]; simp⟩
  | cons q ps ih =>
    intro out ho
    rw [filterPorts_cons _ _ _ _ _ ho]
    cases hq : x.find? q with
    | none =>
      refine ⟨(ih out ho).1, fun id' p => ?_⟩
      simp only []
      rw [(ih out ho).2]
      by_cases hqp : q = p
      · have : msgsOn p x = [] := by unfold msgsOn; rw [← hqp, hq]
        simp [this]
      · rw [List.count_cons_of_ne hqp]
    | some ms =>
      have hg := good_port (id := id) (p := q) (hx.2 q ms hq)
      simp only []
      obtain ⟨h1, h2⟩ := ih _ (good_merge ho hg)
      refine ⟨h1, fun id' p => ?_⟩
      rw [h2, listed_merge hg, listed_port, List.append_assoc]
      congr 1
      by_cases hid : id = id'
      · by_cases hqp : q = p
        · have : msgsOn p x = ms := by unfold msgsOn; rw [← hqp, hq]
          subst hqp
          simp [hid, this, List.replicate_succ]
        · rw [List.count_cons_of_ne hqp]; simp [hid, hqp]
      · simp [hid]

theorem filterReport_listed (r : ProgMsg V) (hr : Good r) (f : Map (List Str)) : f.Sorted → ∀ (out : ProgMsg V), Good out →
    Good (filterReport r f out) ∧ ∀ id p, listed (filterReport r f out) id p =
      listed out id p ++ match f.find? id with
        | none => []
        | some ps => (List.replicate (ps.count p) (listed r id p)).flatten := by
  induction f with
  | nil => intro _ out ho; exact ⟨ho, fun id p => by rw [filterReport]; simp⟩
  | cons e f ih =>
    intro hf out ho
    obtain ⟨i, ps⟩ := e
    have hfi : Map.find? f i = none := by
      rw [Map.find?_none_iff]
      intro h
      exact strLt_ne (hf.head_lt h) rfl
    rw [filterReport]
    cases hi : r.find? i with
    | none =>
      simp only []
      obtain ⟨h1, h2⟩ := ih hf.tail out ho
      refine ⟨h1, fun id p => ?_⟩
      rw [h2]
      congr 1
      rw [Map.find?_cons]
      by_cases hid : i = id
      · subst hid
        have : listed r i p = [] := by unfold listed; rw [hi]
        simp [hfi, this]
      · simp [hid]
    | some x =>
      simp only []
      obtain ⟨g1, g2⟩ := filterPorts_listed i x ((hr.2 i x hi).1) ps out ho
      obtain ⟨h1, h2⟩ := ih hf.tail _ g1
      refine ⟨h1, fun id p => ?_⟩
      rw [h2, g2, List.append_assoc]
      congr 1
      rw [Map.find?_cons]
      by_cases hid : i = id
      · subst hid
        have : listed r i p = msgsOn p x := by unfold listed; rw [hi]
        simp [hfi, this]
      · simp [hid]

end Rtbot
