import Verif.Lemmas.ComposeOut
import Verif.Lemmas.Pipeline

/-! # Which operators emit, and on which ports -/

set_option linter.unusedSectionVars false

namespace Rtbot
variable {V : Type} [Num V]
open Spec

/-- A set of operators closed under connections, without Composites. -/
structure Own (T : Nat → Prop) (h : Nat → Option (Op V)) : Prop where
  conns : ∀ a o p cs, T a → h a = some o → o.core.outputs.find? p = some cs → ∀ c ∈ cs, T c.target
  whole : ∀ a o, T a → h a = some o → ∀ i q, o.kind ≠ .composite i q

/-- All emissions are by operators, on ports of theirs; those at depth `d0` by operators of the set. -/
def Declared (h : Nat → Option (Op V)) (T : Nat → Prop) (d0 : Nat) (evs : List (Ev V)) : Prop :=
  ∀ d a id p m, Ev.emit d a id p m ∈ evs → (∃ o, h a = some o ∧ o.core.id = id ∧ p ∈ o.core.outIds) ∧ (d = d0 → T a)

variable {h0 : Nat → Option (Op V)} {T : Nat → Prop} {d0 : Nat}

theorem Declared.nil : Declared h0 T d0 [] := fun _ _ _ _ _ h => by cases h

theorem Declared.append {l l' : List (Ev V)} (h : Declared h0 T d0 l) (h' : Declared h0 T d0 l') : Declared h0 T d0 (l ++ l') := by
  intro d a id p m he
  rcases List.mem_append.1 he with he | he
  · exact h d a id p m he
  · exact h' d a id p m he

theorem Declared.recv {l : List (Ev V)} (h : ∀ e ∈ l, isRecv e = true) : Declared h0 T d0 l := by
  intro d a id p m he
  have := h _ he
  cases this

theorem Declared.exec (a : Nat) (ctrl : Bool) : Declared h0 T d0 [(Ev.exec a ctrl : Ev V)] := by
  intro d a' id p m he
  simp at he

/-- What a part of an execution may rely on. -/
def Ready (T : Nat → Prop) (d0 : Nat) (s : St V) : Call V → Prop
  | .exec _ a => s.depth = d0 → T a
  | .ports a _ _ => s.depth = d0 → T a
  | .msgs a p _ _ => (s.depth = d0 → T a) ∧ ∃ o, s.heap a = some o ∧ p ∈ o.core.outIds
  | .conns cs _ => s.depth = d0 → ∀ c ∈ cs, T c.target
  | .keys _ _ _ => d0 < s.depth

/-- What an execution achieves. -/
def Told (h0 : Nat → Option (Op V)) (T : Nat → Prop) (d0 : Nat) (s s' : St V) : Prop :=
  s'.depth = s.depth ∧ ∃ evs, s'.log = s.log ++ evs ∧ Declared h0 T d0 evs

theorem Told.refl (s : St V) : Told h0 T d0 s s := ⟨rfl, [], by simp, Declared.nil⟩

theorem Told.trans {s s' s'' : St V} (h : Told h0 T d0 s s') (h' : Told h0 T d0 s' s'') : Told h0 T d0 s s'' := by
  obtain ⟨d1, e1, l1, g1⟩ := h
  obtain ⟨d2, e2, l2, g2⟩ := h'
  exact ⟨d2.trans d1, e1 ++ e2, by rw [l2, l1, List.append_assoc], g1.append g2⟩

theorem told_exec (s : St V) (a : Nat) (ctrl : Bool) : Told h0 T d0 s (s.ev (.exec a ctrl)) := ⟨rfl, _, rfl, Declared.exec a ctrl⟩

theorem shape_op {h h' : Nat → Option (Op V)} (hs : SameShape h h') {a : Nat} {o : Op V} (ho : h' a = some o) :
    ∃ o', h a = some o' ∧ o'.core.id = o.core.id ∧ o'.core.outIds = o.core.outIds ∧ o'.core.outputs = o.core.outputs ∧
      ∀ i q, o.kind = .composite i q → o'.kind = .composite i q := by
  obtain ⟨o', h1, h2⟩ := hs.get' ho
  refine ⟨o', h1, congrArg (fun x => x.core.id) h2, outIds_of_fresh h2, congrArg (fun x => x.core.outputs) h2, fun i q hk => ?_⟩
  have h3 : o'.kind.fresh = o.kind.fresh := congrArg (fun x => x.kind) h2
  rw [hk] at h3
  cases hk' : o'.kind <;> rw [hk'] at h3 <;> first | exact h3 | cases h3

theorem Run.declared (hwf : HeapWF h0) (ho : Own T h0) {c : Call V} {s s' : St V} {r : ProgMsg V} (h : Run c s r s') : SameShape h0 s.heap → d0 ≤ s.depth →
    Ready T d0 s c → Told h0 T d0 s s' := by
  have said : ∀ {s : St V} {a : Nat} {o : Op V} {p : Str} (m : Msg V), SameShape h0 s.heap → s.heap a = some o → p ∈ o.core.outIds → (s.depth = d0 → T a) →
      Declared h0 T d0 [Ev.emit s.depth a o.core.id p m] := by
    intro s a o p m hs ha hp ht d a' id p' m' he
    simp only [List.mem_singleton, Ev.emit.injEq] at he
    obtain ⟨rfl, rfl, rfl, rfl, rfl⟩ := he
    obtain ⟨o', g1, g2, g3, _⟩ := shape_op hs ha
    exact ⟨⟨o', g1, g2, g3 ▸ hp⟩, ht⟩
  have still : ∀ {s s1 : St V} {a : Nat} {p : Str}, SameShape s.heap s1.heap → (∃ o, s.heap a = some o ∧ p ∈ o.core.outIds) →
      ∃ o, s1.heap a = some o ∧ p ∈ o.core.outIds := by
    rintro s s1 a p hs ⟨o, h1, h2⟩
    obtain ⟨o', g1, g2⟩ := hs.get h1
    exact ⟨o', g1, by rw [outIds_of_fresh g2]; exact h2⟩
  induction h with
  | @comp s r s' a o i q ctrl ha hk h ih =>
    intro hs hd hr
    refine (told_exec s a ctrl).trans (ih hs hd fun he => ?_)
    obtain ⟨o', g1, _, _, _, g2⟩ := shape_op hs ha
    exact absurd (g2 _ _ hk) (ho.whole a o' (hr he) g1 _ _)
  | pipeCtrl => intro hs hd hr; exact told_exec _ _ _
  | @pipeNone s s' a o inputs outs pm o1 ha hk h ho1 ih =>
    intro hs hd hr
    obtain ⟨_, e, g1, g2⟩ := ih hs (by show d0 ≤ s.depth + 1; omega) (by show d0 < s.depth + 1; omega)
    exact ⟨rfl, [.exec a false] ++ e, by
      show s'.log = _
      rw [g1]
      show (s.log ++ [.exec a false]) ++ e = _
      rw [List.append_assoc], (Declared.exec a false).append g2⟩
  | @pipeSome s s' a o inputs outs pm o1 r out r' s'' ha hk h hr1 ho1 hout h2 ih ih2 =>
    intro hs hd hr
    have hw : HeapWF s.heap := hs.wf hwf
    have hsh : SameShape s.heap s'.heap := h.shape (s := { s.ev (.exec a false) with depth := s.depth + 1 }) hw
    obtain ⟨_, e, g1, g2⟩ := ih hs (by show d0 ≤ s.depth + 1; omega) (by show d0 < s.depth + 1; omega)
    refine Told.trans (s' := St.setOp { s' with depth := s.depth } a (clearProcess o1)) ⟨rfl, [.exec a false] ++ e, by
      show s'.log = _
      rw [g1]
      show (s.log ++ [.exec a false]) ++ e = _
      rw [List.append_assoc], (Declared.exec a false).append g2⟩ (ih2 ?_ hd hr)
    exact (hs.trans hsh).trans (setOp_shape (s := { s' with depth := s.depth }) ho1 rfl)
  | @simple s x o ctrl out o' r s' ha hsim hx h ih =>
    intro hs hd hr
    have hsh : SameShape s.heap (St.setOp (s.ev (.exec x ctrl)) x o').heap := setOp_shape (s := s.ev (.exec x ctrl)) ha (execWith_fresh hx)
    exact Told.trans (s' := St.setOp (s.ev (.exec x ctrl)) x o') (told_exec s x ctrl) (ih (hs.trans hsh) hd hr)
  | portsNil => intro _ _ _; exact Told.refl _
  | @portsCons s a o p ms rest acc r s1 r' s2 ha hp h h2 ih ih2 =>
    intro hs hd hr
    have hsh := h.shape (hs.wf hwf)
    have g := ih hs hd ⟨hr, o, ha, by simpa using hp⟩
    exact g.trans (ih2 (hs.trans hsh) (by rw [g.1]; exact hd) (fun he => hr (by rw [← g.1]; exact he)))
  | msgsNil => intro _ _ _; exact Told.refl _
  | @msgsNone s a o p m ms acc r s' ha hcn h ih =>
    intro hs hd hr
    obtain ⟨h1, o', h2, h3⟩ := hr
    rw [ha] at h2; cases h2
    exact Told.trans (s' := s.ev (.emit s.depth a o.core.id p m)) ⟨rfl, _, rfl, said m hs ha h3 h1⟩ (ih hs hd ⟨h1, o, ha, h3⟩)
  | @msgsSome s a o p m ms acc cs fuel s1 r s2 r' s3 ha hcn hdl h h2 ih ih2 =>
    intro hs hd hr
    obtain ⟨h1, o', h4, h3⟩ := hr
    rw [ha] at h4; cases h4
    have hw : HeapWF s.heap := hs.wf hwf
    have hst0 := deliverAll_steps (S := Any) fuel (a, p) m cs (s.ev (.emit s.depth a o.core.id p m)) (ctx_any hw) (fun _ _ => trivial)
    rw [hdl] at hst0
    have hw1 : SameShape s.heap s1.heap := hst0.shape
    obtain ⟨hd0, evs0, hl0, hr0, _⟩ := deliverAll_log fuel a p m cs (s.ev (.emit s.depth a o.core.id p m)) _ hw hdl
    have hd0 : s1.depth = s.depth := hd0
    have hsh2 := h.shape (hw1.wf hw)
    have g0 : Told h0 T d0 s s1 :=
      ⟨hd0, [.emit s.depth a o.core.id p m] ++ evs0, by rw [hl0]; simp [St.ev], (said m hs ha h3 h1).append (.recv hr0)⟩
    have g1 := ih (hs.trans hw1) (by rw [hd0]; exact hd) fun he c hc => by
      obtain ⟨o', k1, _, _, k2, _⟩ := shape_op hs ha
      exact ho.conns a o' p cs (h1 (by rw [← hd0]; exact he)) k1 (k2 ▸ hcn) c hc
    have hd2 : s2.depth = s.depth := g1.1.trans hd0
    exact (g0.trans g1).trans (ih2 ((hs.trans hw1).trans hsh2) (by rw [hd2]; exact hd)
      ⟨fun he => h1 (by rw [← hd2]; exact he), still (hw1.trans hsh2) ⟨o, ha, h3⟩⟩)
  | connsNil => intro _ _ _; exact Told.refl _
  | @connsCons s c cs t acc ctrl r s1 r' s2 ha hp h h2 ih ih2 =>
    intro hs hd hr
    have hsh := h.shape (hs.wf hwf)
    have g := ih hs hd fun he => hr he c (by simp)
    exact g.trans (ih2 (hs.trans hsh) (by rw [g.1]; exact hd) fun he c' hc => hr (by rw [← g.1]; exact he) c' (List.mem_cons_of_mem _ hc))
  | connsSkip ha hdd hcc h2 ih2 => intro hs hd hr; exact ih2 hs hd fun he c' hc => hr he c' (List.mem_cons_of_mem _ hc)
  | keysNil => intro _ _ _; exact Told.refl _
  | keysCons ht h h2 ih ih2 =>
    intro hs hd hr
    have hr : d0 < _ := hr
    have hsh := h.shape (hs.wf hwf)
    have g := ih hs hd fun he => by omega
    exact g.trans (ih2 (hs.trans hsh) (by rw [g.1]; exact hd) (by show d0 < _; rw [g.1]; exact hr))

/-- A call emits only through the operators of the program, on their ports. -/
theorem receiveDebug_declared {fuel : Nat} {P P' : Prog V} {msgs : OpMsg V} {r : ProgMsg V} (hw : HeapWF P.st.heap) (ho : Own T P.st.heap)
    (ha : ∀ a, P.ops.find? P.entry = some a → T a) (h : P.receiveDebug fuel msgs = .ok r P') : Told P.st.heap T P.st.depth P.st P'.st := by
  unfold Prog.receiveDebug at h
  split at h
  · cases h
  rename_i a hf
  split at h
  case h_2 => cases h
  rename_i r' s' hfa
  cases h
  have key : SameShape P.st.heap s'.heap ∧ Told P.st.heap T P.st.depth P.st s' := by
    have := fold_rel (R := fun s s' : St V => SameShape P.st.heap s.heap → s.depth = P.st.depth → SameShape P.st.heap s'.heap ∧ Told P.st.heap T P.st.depth s s')
      (fun s h1 _ => ⟨h1, Told.refl s⟩) (fun s s1 s2 h1 h2 g1 g2 => by
        obtain ⟨k1, k2⟩ := h1 g1 g2
        obtain ⟨k3, k4⟩ := h2 k1 (k2.1.trans g2)
        exact ⟨k3, k2.trans k4⟩) msgs (fun y pm _ s y' s' h => ?_) _ _ _ _ hfa
    · exact this (SameShape.refl _) rfl
    refine fold_rel (R := fun s s' : St V => SameShape P.st.heap s.heap → s.depth = P.st.depth → SameShape P.st.heap s'.heap ∧ Told P.st.heap T P.st.depth s s')
      (fun s h1 _ => ⟨h1, Told.refl s⟩) (fun s s1 s2 h1 h2 g1 g2 => by
        obtain ⟨k1, k2⟩ := h1 g1 g2
        obtain ⟨k3, k4⟩ := h2 k1 (k2.1.trans g2)
        exact ⟨k3, k2.trans k4⟩) pm.2 (fun y m _ s y' s' h => ?_) _ _ _ _ h
    simp only [bind, M.bind] at h
    split at h
    case h_2 => cases h
    rename_i r s1 h1; cases h
    intro hs hd
    obtain ⟨s2, h2, h3⟩ := feed_ok h1
    have st := recvData_steps Any fuel s none a m pm.1 (ctx_any (hs.wf hw)) trivial
    rw [h2] at st
    have hsh : SameShape s.heap s2.heap := st.shape
    obtain ⟨hd2, evs0, hl0, hi0⟩ := recvData_log fuel _ _ _ _ _ _ h2
    have hrun := exec_run fuel _ _ _ _ _ h3
    have g := hrun.declared (d0 := P.st.depth) hw ho (hs.trans hsh) (by rw [hd2, hd]) (fun _ => ha a hf)
    refine ⟨(hs.trans hsh).trans (hrun.shape ((hs.trans hsh).wf hw)), Told.trans ⟨hd2, Ev.recv none a pm.1 false m :: evs0, hl0, .recv ?_⟩ g⟩
    intro e he
    rcases List.mem_cons.1 he with h | h
    · subst h; rfl
    · exact (hi0 e h).1
  exact key.2

/-- The operators listed in the table of a created program. -/
theorem created_owns {junk : Junk V} {json : Str} {j : Json V} {P : Prog V} (h : Prog.initWith junk json j = .ok P) :
    Own (fun a => ∃ id, P.ops.find? id = some a) P.st.heap ∧
    ∀ id a, P.ops.find? id = some a → ∃ o, P.st.heap a = some o ∧ o.core.id = id ∧ Neat o := by
  rcases initWith_wired h with rfl | ⟨os, cs, ws, m, _, _, h1, _, h2, h3, h4, _⟩
  · exact ⟨⟨fun a o p cs ⟨id, hi⟩ => (by cases hi), fun a o ⟨id, hi⟩ => (by cases hi)⟩, fun id a hi => by cases hi⟩
  have hl : ∀ id a, P.ops.find? id = some a → ∃ o, P.st.heap a = some o ∧ o.core.id = id ∧ Neat o := fun id a hi => by
    obtain ⟨_, o, g⟩ := h2.listed id a hi
    exact ⟨o, by rw [h1]; exact g⟩
  refine ⟨⟨fun a o p cs ⟨id, hi⟩ ho hf c hc => ?_, fun a o ⟨id, hi⟩ ho => ?_⟩, hl⟩
  · have : c ∈ connsOf P.st.heap a p := by unfold connsOf; rw [ho]; simp only [hf]; exact hc
    rw [h4 id a p hi] at this
    obtain ⟨w, hw, hwc⟩ := List.mem_filterMap.1 this
    split at hwc
    case isFalse => cases hwc
    cases hwc
    have : ∀ {js : List (Json V)} {l : List Cable}, List.Forall₂ (Asks P.ops P.st.heap) js l → w ∈ l → ∃ k, P.ops.find? k = some w.conn.target := by
      intro js l hl hm
      induction hl with
      | nil => cases hm
      | cons hx _ ih =>
        rcases List.mem_cons.1 hm with rfl | hm
        · obtain ⟨k, _, hk⟩ := hx.dst
          exact ⟨k, hk⟩
        · exact ih hm
    exact this h3 hw
  · obtain ⟨o', g1, _, g2⟩ := hl id a hi
    rw [ho] at g1
    cases g1
    exact g2.whole

end Rtbot
