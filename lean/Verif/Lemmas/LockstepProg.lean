import Verif.Lemmas.LockstepRun
import Verif.Props.Program
import Verif.Props.ProgramOrder
import Verif.Props.Compose

/-! # Operators in step: calls of a program -/

set_option linter.unusedSectionVars false

namespace Rtbot
open Spec
variable {V : Type} [Num V]

namespace Lockstep
variable {s0 : St V} {E : List (Ev V)} {c x : Nat} {pc : Str} {D : Nat → Prop}

/-- The relation between the states around calls. -/
def BRel (s0 : St V) (E : List (Ev V)) (D : Nat → Prop) (c : Nat) (pc : Str) (s s' : St V) : Prop :=
  ∀ evs, At s0 s evs → ∃ evs', At s0 s' evs' ∧ evs <+: evs' ∧ (evs' <+: E → LkB s0.heap D c pc evs → LkB s0.heap D c pc evs')

theorem BRel.refl (s : St V) : BRel s0 E D c pc s s := fun evs h => ⟨evs, h, List.prefix_refl _, fun _ h => h⟩

theorem BRel.trans (s s' s'' : St V) (h : BRel s0 E D c pc s s') (h' : BRel s0 E D c pc s' s'') : BRel s0 E D c pc s s'' := by
  intro evs hat
  obtain ⟨e1, k1, k2, k3⟩ := h evs hat
  obtain ⟨e2, q1, q2, q3⟩ := h' e1 k1
  exact ⟨e2, q1, k2.trans q2, fun hE hl => q3 hE (k3 (q2.trans hE) hl)⟩

theorem feed_b (hS : Scene s0 E c pc D) (hf : Fine s0.heap s0) (hx : ¬ D x) {fuel : Nat} {port : Str} {m : Msg V} {s s' : St V} {r : ProgMsg V}
    (h : feed fuel x port m s = .ok r s') : BRel s0 E D c pc s s' := by
  intro evs hat
  obtain ⟨s1, h1, h2⟩ := feed_ok h
  have hfs := hat.fine hf
  have st := recvData_steps Any fuel s none x m port (ctx_any hfs.wf) trivial
  obtain ⟨_, hl⟩ := FlowOrder.recvData_only fuel none x m port hfs
  rw [h1] at st hl
  change Steps Any s s1 at st
  obtain ⟨evs1, hat1⟩ := hat.next st
  have hrun := exec_run fuel _ _ _ _ _ h2
  have st2 := run_any hrun (hat1.fine hf)
  obtain ⟨evs2, hat2⟩ := hat1.next st2
  refine ⟨evs2, hat2, (hat.pre hat1 st).trans (hat1.pre hat2 st2), fun hE hb => modeB hS hf hrun _ _ hat1 hat2 hE hx ?_⟩
  rcases hl with hl | hl
  · have : evs1 = evs := log_cancel hat1.log (by rw [show s1.log = s.log from hl]; exact hat.log)
    rw [this]; exact hb
  · have : evs1 = evs ++ [.recv none x port false m] :=
      log_cancel hat1.log (by rw [show s1.log = s.log ++ [.recv none x port false m] from hl, hat.log, List.append_assoc])
    rw [this]
    refine hb.skip fun b hD => ?_
    have : x ≠ b := fun e => hx (e ▸ hD)
    simp [actOf, this]

theorem feedAll_b (hS : Scene s0 E c pc D) (hf : Fine s0.heap s0) (hx : ¬ D x) {fuel : Nat} {msgs : OpMsg V} {s s' : St V} {r : ProgMsg V}
    (h : feedAll fuel x msgs s = .ok r s') : BRel s0 E D c pc s s' := by
  refine fold_rel BRel.refl BRel.trans msgs (fun y pm _ s y' s' h => ?_) _ _ _ _ h
  refine fold_rel BRel.refl BRel.trans pm.2 (fun y m _ s y' s' h => ?_) _ _ _ _ h
  simp only [bind, M.bind] at h
  split at h
  · rename_i r s1 h1; cases h; exact feed_b hS hf hx h1
  · cases h

theorem debugRun_b (hS : Scene s0 E c pc D) (hf : Fine s0.heap s0) (hx : ¬ D x) {fuel : Nat} (calls : List (OpMsg V)) : ∀ {P P' : Prog V} {rs},
    P.ops.find? P.entry = some x → debugRun fuel calls P = .ok rs P' → BRel s0 E D c pc P.st P'.st := by
  induction calls with
  | nil => intro P P' rs _ h; cases h; exact BRel.refl _
  | cons msgs calls ih =>
    intro P P' rs he h
    simp only [debugRun] at h
    split at h
    · cases h
    · rename_i r P1 h1
      split at h
      · cases h
      · rename_i rs' P2 h2
        cases h
        have hfr := receiveDebug_frame (fuel := fuel) (P := P) (msgs := msgs)
        rw [h1] at hfr
        have he1 : P1.ops.find? P1.entry = some x := by rw [show P1.ops = P.ops from hfr.2.1, show P1.entry = P.entry from hfr.2.2.1, he]
        refine BRel.trans _ _ _ ?_ (ih he1 h2)
        unfold Prog.receiveDebug at h1
        rw [he] at h1
        dsimp only at h1
        split at h1
        · rename_i r' s' hfa; cases h1; exact feedAll_b hS hf hx hfa
        · cases h1

/-- Successful calls are calls. -/
theorem debugRun_after {fuel : Nat} (calls : List (OpMsg V)) : ∀ {P P' : Prog V} {rs}, debugRun fuel calls P = .ok rs P' → afterCalls fuel P (calls.map .receiveDebug) = P' := by
  induction calls with
  | nil => intro P P' rs h; cases h; rfl
  | cons msgs calls ih =>
    intro P P' rs h
    simp only [debugRun] at h
    split at h
    · cases h
    · rename_i r P1 h1
      split at h
      · cases h
      · rename_i rs' P2 h2
        cases h
        rw [List.map_cons, afterCalls_cons]
        have : (Feed.receiveDebug msgs).on fuel P = .ok r P1 := h1
        rw [this]
        exact ih h2

theorem debugRun_complete {fuel : Nat} (calls : List (OpMsg V)) : ∀ {P P' : Prog V} {rs}, HeapWF P.st.heap → debugRun fuel calls P = .ok rs P' →
    ∃ evs, P'.st.log = P.st.log ++ evs ∧ evs.filter overConn = evs.flatMap (deliveries P.st.heap) := by
  induction calls with
  | nil => intro P P' rs _ h; cases h; exact ⟨[], by simp, rfl⟩
  | cons msgs calls ih =>
    intro P P' rs hw h
    simp only [debugRun] at h
    split at h
    · cases h
    · rename_i r P1 h1
      split at h
      · cases h
      · rename_i rs' P2 h2
        cases h
        obtain ⟨_, evs, hl, hL⟩ := receiveDebug_log hw h1
        have st := receiveDebug_steps (S := Any) (fuel := fuel) (msgs := msgs) (ctx_any hw) (fun _ _ => trivial)
        rw [h1] at st
        change Steps Any P.st P1.st at st
        obtain ⟨evs2, hl2, hc2⟩ := ih (P := P1) (st.shape.wf hw) h2
        have hdel : deliveries P1.st.heap = deliveries P.st.heap := by funext e; exact deliveries_shape st.shape e
        rw [hdel] at hc2
        exact ⟨evs ++ evs2, by rw [hl2, hl, List.append_assoc], by rw [List.filter_append, List.flatMap_append, hL.complete, hc2]⟩

/-- With all deliveries made, an operator receives on a data port what is emitted at the other end of its connection. -/
theorem arrives {h0 : Nat → Option (Op V)} {evs : List (Ev V)} {d : Nat} (hone : OneInto h0 x) (hF : FlowOrder.Facts h0 x d evs) (hcomp : evs.filter overConn = evs.flatMap (deliveries h0))
    {a b : Nat} {p q : Str} {o : Op V} (hc : (⟨b, q⟩ : Conn) ∈ connsOf h0 a p) (ho : h0 b = some o) (hq : o.core.dataIn.has q = true)
    (hdata : ∀ act ∈ actsOf b evs, DataOnly o.core.dataIn.keys act) : sentTo q (actsOf b evs) = emittedBy a p evs := by
  have hbx : b ≠ x := hone.entry a p _ hc
  have h1 : sentTo q (actsOf b evs) = deliveredFrom a p b q evs := by
    unfold sentTo actsOf deliveredFrom
    rw [List.filterMap_filterMap]
    refine List.filterMap_congr fun e he => ?_
    cases e with
    | emit => rfl
    | exec a' c => cases c <;> by_cases hab : a' = b <;> simp [actOf, hab]
    | recv frm a' q' ctrl m =>
      by_cases hab : a' = b
      · subst hab
        cases frm with
        | none => exact absurd (hF.ext _ _ _ _ he).1 hbx
        | some src =>
          obtain ⟨a1, p1⟩ := src
          obtain ⟨k1, k2⟩ := hF.src _ _ _ _ _ _ he
          cases ctrl with
          | true =>
            have : Act.recvCtrl q' m ∈ actsOf a' evs := by
              unfold actsOf
              rw [List.mem_filterMap]
              exact ⟨_, he, by simp [actOf]⟩
            exact (hdata _ this).elim
          | false =>
            simp only [actOf, if_true, Option.bind_some]
            by_cases hq' : q' = q
            · subst hq'
              obtain ⟨rfl, rfl⟩ := hone.sole _ _ _ _ _ hc k1
              simp
            · simp [hq']
      · cases ctrl <;> cases frm <;> simp [actOf, hab]
  rw [h1, deliveredFrom_filter, hcomp]
  have hcount : ((connsOf h0 a p).countP fun c => decide (c.target = b ∧ c.port = q)) = 1 := by
    have h2 : ((connsOf h0 a p).countP fun c => decide (c.target = b ∧ c.port = q)) = (connsOf h0 a p).count ⟨b, q⟩ := by
      unfold List.count
      refine List.countP_congr fun c _ => ?_
      cases c
      simp
    rw [h2]
    exact List.count_eq_one_of_mem (hone.once a p) hc
  clear hcomp h1 hF hdata
  induction evs with
  | nil => rfl
  | cons e evs ih =>
    rw [List.flatMap_cons, deliveredFrom_append, ih]
    have : emittedBy a p (e :: evs) = emittedBy a p [e] ++ emittedBy a p evs := by
      unfold emittedBy; rw [← List.filterMap_append]; rfl
    rw [this]
    congr 1
    cases e with
    | recv frm a' p' c m => rfl
    | exec a' c => rfl
    | emit d a' id p' m =>
      simp only [deliveries]
      rw [delivered_one ho (Or.inl hq)]
      by_cases hh : a' = a ∧ p' = p
      · obtain ⟨rfl, rfl⟩ := hh
        rw [if_pos ⟨rfl, rfl⟩, hcount]
        simp [emittedBy]
      · simp [emittedBy, hh]

/-- All there is to know about a part of a program that is driven by one stream, after successful calls. -/
theorem clocked_run {P P' : Prog V} (hops : ∀ b o, P.st.heap b = some o → Connected o) (hac : Acyclic P.st.heap) {x : Nat} {ox : Op V}
    (hx : P.ops.find? P.entry = some x) (hox : P.st.heap x = some ox) (hone : OneInto P.st.heap x) (hclk : Clocked P.st.heap c pc D) (hDx : ¬ D x)
    {fuel : Nat} {calls : List (OpMsg V)} {rs : List (ProgMsg V)} (h : debugRun fuel calls P = .ok rs P')
    (hin : ∀ p, ox.core.dataIn.has p = true → Increasing (givenTo (ox.core.dataIn.length == 1) p (calls.map .receiveDebug)))
    (hcond : ∀ evs, P'.st.log = P.st.log ++ evs → ∀ b o, P.st.heap b = some o → OrderCond o.kind (actsOf b evs)) :
    ∃ evs, P'.st.log = P.st.log ++ evs ∧ (∀ b p, Increasing (emittedBy b p evs)) ∧
      (∀ b o, D b → P.st.heap b = some o → ExecOk o (actsOf b evs) ∧ (∀ a ∈ actsOf b evs, DataOnly o.core.dataIn.keys a) ∧ (∃ t, InStep (actsOf b evs) t false) ∧
        (∀ q ∈ o.core.dataIn.keys, Increasing (sentTo q (actsOf b evs))) ∧
        ∀ a p q, (⟨b, q⟩ : Conn) ∈ connsOf P.st.heap a p → sentTo q (actsOf b evs) = emittedBy a p evs) := by
  have hafter := debugRun_after calls h
  have hf := fine_start hops
  obtain ⟨⟨evs, h1, hincr⟩, _⟩ := C82_order_cond hops hac hx hox hone fuel (calls.map .receiveDebug) hin (by rw [hafter]; exact hcond)
  rw [hafter] at h1
  obtain ⟨st, _, evs', k1, hF, _, _⟩ := FlowOrder.calls_rel hac hone fuel (calls.map .receiveDebug) P hx hf
  rw [hafter] at k1 st
  cases log_cancel h1 k1
  have harr : ∀ b o q, D b → P.st.heap b = some o → q ∈ o.core.dataIn.keys → Increasing (sentTo q (actsOf b evs)) := by
    intro b o q hD ho hq
    have hq' : o.core.dataIn.has q = true := by rw [← Map.find?_isSome_iff] at hq; exact hq
    have hbx : b ≠ x := fun e => hDx (e ▸ hD)
    have hsub : (sentTo q (actsOf b evs)).Sublist (addressed (o.core.dataIn.length == 1) q (actsOf b evs)) := by
      unfold sentTo addressed
      refine FlowOrder.sublist_filterMap fun a _ m hm => ?_
      cases a with
      | recvData q' m' =>
        dsimp only at hm ⊢
        split at hm
        · next he => rw [if_pos (Or.inl he)]; exact hm
        · cases hm
      | _ => cases hm
    rcases FlowOrder.data_arrives hone hF ho hbx hq' with e | ⟨a, p, _, hs⟩
    · rw [e] at hsub
      rw [List.sublist_nil.1 hsub]
      exact List.Pairwise.nil
    · exact (hincr a p).sublist (hsub.trans hs)
  have hS : Scene P.st evs c pc D := ⟨hops, hac, hclk, harr, hincr c pc⟩
  obtain ⟨evs', q1, _, q3⟩ := debugRun_b hS hf hDx calls hx h [] ⟨by simp, Steps.refl _ _⟩
  cases log_cancel h1 q1.log
  obtain ⟨t, hl, _⟩ := q3 (List.prefix_refl _) ⟨0, fun b o _ _ => ⟨fun pre post e => by simp [actsOf] at e, fun a ha => by simp [actsOf] at ha, false, .start 0, fun h => by cases h⟩, Or.inl rfl⟩
  obtain ⟨evs', k1, hcomp⟩ := debugRun_complete calls hf.wf h
  cases log_cancel h1 k1
  refine ⟨evs, h1, hincr, fun b o hD ho => ?_⟩
  obtain ⟨l1, l2, pend, l3, l4⟩ := hl b o hD ho
  have : pend = false := by
    cases pend with
    | false => rfl
    | true => exact (l4 rfl).elim
  subst this
  refine ⟨l1, l2, ⟨t, l3⟩, fun q hq => harr b o q hD ho hq, fun a p q hc => ?_⟩
  obtain ⟨_, o', e1, e2⟩ := hclk.source a p _ hc hD
  dsimp only at e1 e2
  rw [ho] at e1; cases e1
  exact arrives hone hF hcomp hc ho e2 l2

end Lockstep
end Rtbot
