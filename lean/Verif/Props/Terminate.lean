import Verif.Lemmas.Fuel
import Verif.Lemmas.LocalEnd
import Verif.Props.Program

set_option linter.unusedSectionVars false

/-! # C28: calls on acyclic programs terminate

In the model a call that does not terminate is one that ends with `diverge` for every amount of fuel. -/

namespace Rtbot
variable {V : Type} [Num V]
open Spec

theorem going_start {P : Prog V} {n : Nat} (hw : HeapWF P.st.heap) (he : StepsEnd P.st.heap) (hn : ∀ a b, Edge P.st.heap a b → b < n)
    (hac : Acyclic P.st.heap) : Going (downCount P.st.heap n) P.st P.st :=
  ⟨hw, he, fun _ _ h => downCount_lt hn hac h, .refl _ _⟩

/-- C28: with finitely many operators, no cycle and operators whose own steps end, a call of `receiveDebug` or `receive` returns or
throws in every state: from a bound on, more fuel makes no difference, and the result is never `diverge`. -/
theorem C28_terminates {P : Prog V} {n : Nat} (hw : HeapWF P.st.heap) (he : StepsEnd P.st.heap)
    (hn : ∀ a b, Edge P.st.heap a b → b < n) (hac : Acyclic P.st.heap) (msgs : OpMsg V) :
    (∀ P', P.receiveDebug (n + 1) msgs ≠ .err .diverge P') ∧ (∀ P', P.receive (n + 1) msgs ≠ .err .diverge P') ∧
    ∀ fuel, n < fuel → P.receiveDebug fuel msgs = P.receiveDebug (n + 1) msgs ∧ P.receive fuel msgs = P.receive (n + 1) msgs := by
  have h1 : ND (P.receiveDebug (n + 1) msgs) :=
    receiveDebug_nd (going_start hw he hn hac) fun a _ => Nat.lt_succ_of_le (downCount_le _ _ _)
  refine ⟨h1, ?_, fun fuel hf => ⟨receiveDebug_fuel hf P msgs h1, receive_fuel hf P msgs h1⟩⟩
  intro P' h
  unfold Prog.receive at h
  cases hd : P.receiveDebug (n + 1) msgs with
  | ok r Q => rw [hd] at h; cases h
  | err e Q => rw [hd] at h; cases h; exact h1 _ hd

theorem results_app (o : Op V) (as bs : List (Act V)) : results o (as ++ bs) = results o as ++ results (after o as) bs := by
  induction as generalizing o with
  | nil => rfl
  | cons a as ih => simp only [List.cons_append, results, after]; rw [ih]

/-- The program after a call, successful or not, meets the hypotheses of `C28_terminates` again, so all further calls terminate. -/
theorem C28_again {P : Prog V} {n : Nat} (hw : HeapWF P.st.heap) (he : StepsEnd P.st.heap) (hn : ∀ a b, Edge P.st.heap a b → b < n)
    (hac : Acyclic P.st.heap) (fuel : Nat) (msgs : OpMsg V) :
    let P' := (P.receiveDebug fuel msgs).state
    HeapWF P'.st.heap ∧ StepsEnd P'.st.heap ∧ (∀ a b, Edge P'.st.heap a b → b < n) ∧ Acyclic P'.st.heap := by
  intro P'
  have st : Steps Any P.st P'.st := receiveDebug_steps (ctx_any hw) fun _ _ => trivial
  have reach : ∀ a b, Reach P'.st.heap a b → Reach P.st.heap a b := by
    intro a b h
    induction h with
    | refl => exact .refl
    | step _ e ih => exact .step ih (st.shape.edge.1 e)
  refine ⟨st.shape.wf hw, ?_, fun a b h => hn a b (st.shape.edge.1 h), fun a b h hr => hac a b (st.shape.edge.1 h) (reach _ _ hr)⟩
  intro b o' ho' hs as r hr
  obtain ⟨o, ho, hf⟩ := st.shape.get' ho'
  obtain ⟨evs, _, _, h3, _⟩ := st.trace
  have hs' : Simple o := (simple_of_fresh hf).2 hs
  have := h3 b o ho hs'
  rw [ho'] at this
  cases this
  exact he b o ho hs' (actsOf b evs ++ as) r (by rw [results_app]; exact List.mem_append_right _ hr)

/-- C28, what can loop inside one operator: only ConstantResampler and an AutoRegressive without coefficients (its maximum buffer
size is 2^64-1). Programs without these satisfy the hypothesis of `C28_terminates` on the operators' own steps. -/
theorem C28_steps {h : Nat → Option (Op V)} (hw : HeapWF h) (hc : ∀ b o dt next ini last, h b = some o → o.kind ≠ .constRes dt next ini last)
    (ha : ∀ b o as e, h b = some o → o.kind = .autoReg as → e ∈ o.core.dataIn → e.2.max ≠ sizeMax) : StepsEnd h := by
  refine steps_end hw fun b o ho _ hl => ?_
  unfold Looping at hl
  split at hl
  · rename_i hk; exact hc b o _ _ _ _ ho hk
  · rename_i as hk
    obtain ⟨e, h1, h2⟩ := hl
    exact ha b o as e ho hk h1 h2
  · exact hl

/-! ### A case -/

theorem diamond_edges (f : Map (List Str)) (a b : Nat) (h : Edge (diamond f).st.heap a b) : a < b ∧ b < 4 := by
  obtain ⟨o, ho, hb⟩ := h
  change heapOf _ a = some o at ho
  unfold heapOf at ho
  match a, ho with
  | 0, ho => cases ho; simp [nexts, wired, Op.newIdentity] at hb; omega
  | 1, ho => cases ho; simp [nexts, wired, Op.newAdd] at hb; omega
  | 2, ho => cases ho; simp [nexts, wired, Op.newScale] at hb; omega
  | 3, ho => cases ho; simp [nexts, Op.newBinary] at hb
  | n + 4, ho => simp at ho

theorem diamond_acyclic (f : Map (List Str)) : Acyclic (diamond f).st.heap := by
  have : ∀ a b, Reach (diamond f).st.heap a b → a ≤ b := by
    intro a b h
    induction h with
    | refl => exact le_refl _
    | step _ e ih => have := diamond_edges f _ _ e; omega
  intro a b h hr
  have := diamond_edges f a b h
  have := this.1
  have := ‹∀ a b, Reach (diamond f).st.heap a b → a ≤ b› b a hr
  omega

/-- The diamond meets all hypotheses: every call on it returns, with fuel 5. -/
example (f : Map (List Str)) (msgs : OpMsg ℚ) : ∀ P', (diamond f).receive 5 msgs ≠ .err .diverge P' := by
  refine (C28_terminates (n := 4) (diamond_wf f) ?_ (fun a b h => (diamond_edges f a b h).2) (diamond_acyclic f) msgs).2.1
  have hm : ∀ b o, (diamond f).st.heap b = some o → o.kind = .identity ∨ o.kind = .add 1 ∨ o.kind = .scale 2 ∨ o.kind = .binary .minus := by
    intro b o ho
    have := List.mem_of_getElem? ho
    simp only [List.mem_cons, List.not_mem_nil, or_false] at this
    rcases this with rfl | rfl | rfl | rfl
    · exact Or.inl rfl
    · exact Or.inr (Or.inl rfl)
    · exact Or.inr (Or.inr (Or.inl rfl))
    · exact Or.inr (Or.inr (Or.inr rfl))
  apply C28_steps (diamond_wf f)
  · intro b o dt next ini last ho
    rcases hm b o ho with h | h | h | h <;> rw [h] <;> exact fun h => by cases h
  · intro b o as e ho hk
    rcases hm b o ho with h | h | h | h <;> rw [h] at hk <;> cases hk

/-- An operator connected to itself. -/
def spin : Prog ℚ := progOf [wired (Op.newIdentity [97]) [(o1, [⟨0, i1⟩])]] []

/-- The operator of `spin` holding the given messages. -/
def spinOp (x : ℚ) (ms : List (Msg ℚ)) (tp : List Str) : Op ℚ :=
  ⟨⟨[97], [(i1, ⟨i1, 1, x, ms⟩)], [], [o1], [(o1, [⟨0, i1⟩])], tp⟩, .identity⟩

theorem spin_recv (fuel : Nat) (src : Option (Nat × Str)) (s : St ℚ) (x : ℚ) {ms : List (Msg ℚ)} (hm : ms = [] ∨ ms = [⟨1, 0⟩])
    (hs : s.heap 0 = some (spinOp x ms [])) :
    (∃ s', recvData fuel src 0 ⟨1, 0⟩ i1 s = .err .diverge s') ∨
    (∃ s' y, recvData fuel src 0 ⟨1, 0⟩ i1 s = .ok () s' ∧ s'.heap 0 = some (spinOp y [⟨1, 0⟩] [i1])) := by
  cases fuel with
  | zero => exact Or.inl ⟨s, rfl⟩
  | succ fuel =>
    refine Or.inr ?_
    have h1 : ∃ y, (spinOp x ms []).recvData ⟨1, 0⟩ i1 = .ok (spinOp y [⟨1, 0⟩] [i1]) := by
      rcases hm with rfl | rfl <;> exact ⟨_, rfl⟩
    obtain ⟨y, h1⟩ := h1
    refine ⟨St.setOp { s with log := s.log ++ [.recv src 0 i1 false ⟨1, 0⟩] } 0 (spinOp y [⟨1, 0⟩] [i1]), y, ?_, rfl⟩
    have hk : (spinOp x ms []).kind = .identity := rfl
    simp only [recvData, bind, M.bind, logEv, getOp, hs, hk, localRun, updWith, h1]

theorem spin_exec (fuel : Nat) : ∀ (s : St ℚ) (x : ℚ), s.heap 0 = some (spinOp x [⟨1, 0⟩] [i1]) →
    ∃ s', exec fuel false 0 s = .err .diverge s' := by
  induction fuel with
  | zero => intro s _ _; exact ⟨s, rfl⟩
  | succ fuel ih =>
    intro s x hs
    have h1 : (spinOp x [⟨1, 0⟩] [i1]).execData = .ok [(o1, [⟨1, 0⟩])] (spinOp x [⟨1, 0⟩] []) := rfl
    have hk : (spinOp x [⟨1, 0⟩] [i1]).kind = .identity := rfl
    have ho : (spinOp x [⟨1, 0⟩] []).core.outputs.find? o1 = some [⟨0, i1⟩] := rfl
    have hc : (spinOp x [⟨1, 0⟩] []).core.outIds.contains o1 = true := rfl
    have hd : ∀ tp, (spinOp x [⟨1, 0⟩] tp).core.isData i1 = true := fun _ => rfl
    have hg : ∀ t : St ℚ, (t.setOp 0 (spinOp x [⟨1, 0⟩] [])).heap 0 = some (spinOp x [⟨1, 0⟩] []) := fun _ => rfl
    simp only [exec, bind, M.bind, logEv, getOp, hs, hk, localRun, h1, Bool.false_eq_true, if_false, emitOp, M.fold, hg, hc, if_true,
      emitPort, emitMsg, M.get, ho, deliver, hd]
    generalize hS : St.mk (St.setOp (St.mk s.heap s.depth (s.log ++ [Ev.exec 0 false])) 0 _).heap _ _ = S
    have hS' : S.heap 0 = some (spinOp x [⟨1, 0⟩] []) := by rw [← hS]; rfl
    rcases spin_recv fuel (some (0, o1)) S x (Or.inr rfl) hS' with ⟨s', h⟩ | ⟨s', y, h, hy⟩
    · simp only [h]
      exact ⟨_, rfl⟩
    · have hd' : (spinOp y [⟨1, 0⟩] [i1]).core.isData i1 = true := rfl
      obtain ⟨t, ht⟩ := ih s' y hy
      simp only [h, M.pure, trigger, bind, M.bind, getOp, hy, hd', if_true, ht]
      exact ⟨_, rfl⟩

/-- Without acyclicity the claim fails: an operator connected to itself runs for ever. -/
example (fuel : Nat) : ∃ P', spin.receiveDebug fuel [(i1, [⟨1, 0⟩])] = .err .diverge P' := by
  unfold Prog.receiveDebug
  have ha : spin.ops.find? spin.entry = some 0 := rfl
  have h0 : spin.st.heap 0 = some (spinOp 0 [] []) := rfl
  simp only [ha, feedAll, feedPort, M.fold, feed, bind, M.bind]
  rcases spin_recv fuel none spin.st 0 (Or.inl rfl) h0 with ⟨s', h⟩ | ⟨s', y, h, hy⟩
  · simp only [h]
    exact ⟨_, rfl⟩
  · obtain ⟨t, ht⟩ := spin_exec fuel s' y hy
    simp only [h, ht]
    exact ⟨_, rfl⟩

end Rtbot
