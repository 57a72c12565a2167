import Verif.Lemmas.Demux

/-! # Demultiplexer with complete instructions -/

set_option linter.unusedSectionVars false

namespace Rtbot
open Spec
variable {V : Type} [Num V]

namespace Demux
open Sync

/-- The streams meant for a demultiplexer: increasing, with an instruction for every data message on every control port. -/
structure Streams (n : Nat) (ds : List (Msg V)) (cs : Nat → List (Msg V)) : Prop where
  inc : Increasing ds
  cinc : ∀ k, 1 ≤ k → k ≤ n → Increasing (cs k)
  instr : ∀ k, 1 ≤ k → k ≤ n → ∀ m ∈ ds, ∃ c ∈ cs k, c.time = m.time ∧ isInstruction c.value = true

/-- Data: handled `H`, buffered `D`, to come `F`. Instructions: gone `X`, buffered `C`, to come `G`. -/
structure Good (n : Nat) (o : Op V) (ds : List (Msg V)) (cs : Nat → List (Msg V)) (H D F : List (Msg V)) (X C G : Nat → List (Msg V)) : Prop where
  is : Is n o D C
  data : ds = H ++ D ++ F
  ctrl : ∀ k, 1 ≤ k → k ≤ n → cs k = X k ++ C k ++ G k
  old : ∀ k, 1 ≤ k → k ≤ n → ∀ x ∈ X k, ∀ m ∈ D ++ F, x.time < m.time
  done : ∀ k, 1 ≤ k → k ≤ n → ∀ m ∈ H, ∃ c ∈ X k, c.time = m.time

theorem selects_iff {l : List (Msg V)} (hl : Increasing l) {c : Msg V} (hc : c ∈ l) : selects l c.time = Num.eq c.value (Num.ofNat 1) := by
  by_cases h : Num.eq c.value (Num.ofNat 1) = true
  · rw [h]
    unfold selects
    rw [List.any_eq_true]
    exact ⟨c, hc, by simp [h]⟩
  · rw [Bool.not_eq_true] at h
    rw [h]
    unfold selects
    rw [List.any_eq_false]
    intro x hx hcon
    rw [Bool.and_eq_true] at hcon
    have := inc_inj hl hx hc (by simpa using hcon.1)
    rw [this, h] at hcon
    simp at hcon

theorem good_fine {n : Nat} {o : Op V} {ds : List (Msg V)} {cs : Nat → List (Msg V)} {H D F : List (Msg V)} {X C G : Nat → List (Msg V)}
    (hs : Streams n ds cs) (h : Good n o ds cs H D F X C G) {m : Msg V} {ms : List (Msg V)} (hD : D = m :: ms) {k : Nat} (k1 : 1 ≤ k) (k2 : k ≤ n) :
    Fine m.time (C k) := by
  intro c rest hc
  obtain ⟨c', h1, h2, h3⟩ := hs.instr k k1 k2 m (by rw [h.data, hD]; simp)
  have hinc := hs.cinc k k1 k2
  rw [h.ctrl k k1 k2] at hinc h1
  have hge := dropT_head hc
  have hcC : c ∈ C k := dropT_sub c (by rw [hc]; simp)
  obtain ⟨hXC, hG, hXG⟩ := inc_append hinc
  obtain ⟨hX, hCi, _⟩ := inc_append hXC
  rcases List.mem_append.1 h1 with h1 | h1
  · rcases List.mem_append.1 h1 with h1 | h1
    · have := h.old k k1 k2 c' h1 m (by rw [hD]; simp)
      rw [h2] at this; exact absurd this (UInt64.lt_irrefl _)
    · -- c' is buffered, hence the first message not older
      obtain ⟨d, hd1, hd2⟩ := dropT_split m.time (C k)
      have hc' : c' ∈ dropT m.time (C k) := by
        rw [hd1] at h1
        rcases List.mem_append.1 h1 with h1 | h1
        · have := hd2 c' h1; rw [h2] at this; exact absurd this (UInt64.lt_irrefl _)
        · exact h1
      rw [hc] at hc'
      rcases List.mem_cons.1 hc' with rfl | hc'
      · exact ⟨h2, h3⟩
      · exfalso
        have hdinc : Increasing (dropT m.time (C k)) := by
          rw [hd1] at hCi; exact (inc_append hCi).2.1
        rw [hc] at hdinc
        have := (List.pairwise_cons.1 hdinc).1 c' hc'
        rw [h2] at this
        exact hge this
  · exfalso
    have := hXG c (List.mem_append_right _ hcC) c' h1
    rw [h2] at this
    exact hge this

theorem good_exec {n : Nat} {o : Op V} {ds : List (Msg V)} {cs : Nat → List (Msg V)} {H D F : List (Msg V)} {X C G : Nat → List (Msg V)}
    (hs : Streams n ds cs) (h : Good n o ds cs H D F X C G) :
    (∃ o' X' C', o.execData = .ok [] o' ∧ Good n o' ds cs H D F X' C' G ∧ (∀ k, 1 ≤ k → k ≤ n → X' k ++ C' k = X k ++ C k) ∧
      ∀ m ms, D = m :: ms → ∃ k, 1 ≤ k ∧ k ≤ n ∧ ∀ c ∈ X k ++ C k, c.time < m.time) ∨
    (∃ o' X' C' out m ms, D = m :: ms ∧ o.execData = .ok out o' ∧ Good n o' ds cs (H ++ [m]) ms F X' C' G ∧
      (∀ k, 1 ≤ k → k ≤ n → X' k ++ C' k = X k ++ C k) ∧
      (∀ k, 1 ≤ k → k ≤ n → msgsOn (oPort k) out = if selects (cs k) m.time then [m] else []) ∧ ∀ q, ¬ IsPort oPort n q → msgsOn q out = []) := by
  have hdinc := hs.inc
  rw [h.data] at hdinc
  rcases exec_cases h.is with ⟨hD, e⟩ | ⟨m, ms, hD, ⟨o', C', ⟨k, k1, k2, hf⟩, _⟩ | ⟨o', _, ⟨k0, k01, k02, hk0⟩, e, e1⟩ | ⟨o', out, e2, e3, e, e1⟩⟩
  · left
    refine ⟨o, X, C, e, h, fun _ _ _ => rfl, ?_⟩
    intro m ms hc; rw [hD] at hc; cases hc
  · exact absurd (good_fine hs h hD k1 k2) hf
  · left
    refine ⟨o', fun k => X k ++ (C k).takeWhile (fun m' => decide (m'.time < m.time)), _, e, ⟨e1, h.data, ?_, ?_, ?_⟩, ?_, ?_⟩
    · intro k k1 k2
      rw [h.ctrl k k1 k2, List.append_assoc (X k) _ (dropT m.time (C k))]
      simp [dropT]
    · intro k k1 k2 x hx y hy
      rcases List.mem_append.1 hx with hx | hx
      · exact h.old k k1 k2 x hx y hy
      · have hall := List.all_takeWhile (l := C k) (p := fun m' => decide (m'.time < m.time))
        rw [List.all_eq_true] at hall
        have hlt : x.time < m.time := by simpa using hall x hx
        rw [hD] at hy
        rcases List.mem_cons.1 hy with rfl | hy
        · exact hlt
        · have h2 := (inc_append (a := H) (b := D ++ F) (by rw [← List.append_assoc]; exact hdinc)).2.1
          rw [hD] at h2
          exact UInt64.lt_trans hlt ((List.pairwise_cons.1 h2).1 y hy)
    · intro k k1 k2 y hy
      obtain ⟨c, h1, h2⟩ := h.done k k1 k2 y hy
      exact ⟨c, List.mem_append_left _ h1, h2⟩
    · intro k _ _
      rw [List.append_assoc]; simp [dropT]
    · intro m' ms' hm'
      rw [hD] at hm'; cases hm'
      refine ⟨k0, k01, k02, ?_⟩
      intro c hc
      rcases List.mem_append.1 hc with hc | hc
      · exact h.old k0 k01 k02 c hc m (by rw [hD]; simp)
      · obtain ⟨d, hd1, hd2⟩ := dropT_split m.time (C k0)
        rw [hk0, List.append_nil] at hd1
        rw [hd1] at hc
        exact hd2 c hc
  · right
    have hsplit : ∀ k, 1 ≤ k → k ≤ n → ∃ d c rest, C k = d ++ c :: rest ∧ dropT m.time (C k) = c :: rest ∧ c.time = m.time ∧ ∀ x ∈ d, x.time < m.time := by
      intro k k1 k2
      obtain ⟨c, rest, q1, q2, _⟩ := e2 k k1 k2
      obtain ⟨d, hd1, hd2⟩ := dropT_split m.time (C k)
      exact ⟨d, c, rest, by rw [← q1]; exact hd1, q1, q2, hd2⟩
    refine ⟨o', fun k => X k ++ (C k).takeWhile (fun m' => decide (m'.time < m.time)) ++ (dropT m.time (C k)).take 1, _, out, m, ms, hD, e,
      ⟨e1, by rw [h.data, hD]; simp, ?_, ?_, ?_⟩, ?_, ?_, e3⟩
    · intro k k1 k2
      obtain ⟨d, c, rest, q1, q2, q3, q4⟩ := hsplit k k1 k2
      have htw : (C k).takeWhile (fun m' => decide (m'.time < m.time)) ++ c :: rest = C k := by
        rw [← q2]; simp [dropT]
      rw [h.ctrl k k1 k2, q2]
      conv => lhs; rw [← htw]
      simp
    · intro k k1 k2 x hx y hy
      have h2 := (inc_append (a := H) (b := D ++ F) (by rw [← List.append_assoc]; exact hdinc)).2.1
      rw [hD] at h2
      have hmy := (List.pairwise_cons.1 h2).1 y hy
      obtain ⟨d, c, rest, q1, q2, q3, q4⟩ := hsplit k k1 k2
      rw [q2] at hx
      rcases List.mem_append.1 hx with hx | hx
      · rcases List.mem_append.1 hx with hx | hx
        · exact h.old k k1 k2 x hx y (by rw [hD]; exact List.mem_cons_of_mem _ hy)
        · have hall := List.all_takeWhile (l := C k) (p := fun m' => decide (m'.time < m.time))
          rw [List.all_eq_true] at hall
          have hlt : x.time < m.time := by simpa using hall x hx
          exact UInt64.lt_trans hlt hmy
      · simp only [List.take_succ_cons, List.take_zero, List.mem_singleton] at hx
        rw [hx, q3]; exact hmy
    · intro k k1 k2 y hy
      rcases List.mem_append.1 hy with hy | hy
      · obtain ⟨c, h1, h2⟩ := h.done k k1 k2 y hy
        exact ⟨c, List.mem_append_left _ (List.mem_append_left _ h1), h2⟩
      · rw [List.mem_singleton] at hy
        obtain ⟨d, c, rest, q1, q2, q3, q4⟩ := hsplit k k1 k2
        exact ⟨c, List.mem_append_right _ (by rw [q2]; simp), by rw [q3, hy]⟩
    · intro k k1 k2
      obtain ⟨d, c, rest, q1, q2, q3, q4⟩ := hsplit k k1 k2
      have htw : (C k).takeWhile (fun m' => decide (m'.time < m.time)) ++ c :: rest = C k := by
        rw [← q2]; simp [dropT]
      simp only [q2]
      conv => rhs; rw [← htw]
      simp
    · intro k k1 k2
      obtain ⟨c, rest, q1, q2, q3, q4⟩ := e2 k k1 k2
      rw [q4, ← q2, selects_iff (hs.cinc k k1 k2)]
      rw [h.ctrl k k1 k2]
      exact List.mem_append_left _ (List.mem_append_right _ (dropT_sub c (by rw [q1]; simp)))

/-- The outputs so far are the routing of the handled messages. -/
def RoutedAll (n : Nat) (cs : Nat → List (Msg V)) (handled : List (Msg V)) (outs : List (OpMsg V)) : Prop :=
  (∀ k, 1 ≤ k → k ≤ n → emittedOn (oPort k) outs = handled.filter fun m => selects (cs k) m.time) ∧
  ∀ q, ¬ IsPort oPort n q → emittedOn q outs = []

theorem RoutedAll.cons_nil {n : Nat} {cs : Nat → List (Msg V)} {h : List (Msg V)} {outs : List (OpMsg V)} (hr : RoutedAll n cs h outs) :
    RoutedAll n cs h ([] :: outs) :=
  ⟨fun k k1 k2 => by rw [emittedOn_cons, hr.1 k k1 k2]; rfl, fun q hq => by rw [emittedOn_cons, hr.2 q hq]; rfl⟩

theorem good_run {n : Nat} {ds : List (Msg V)} {cs : Nat → List (Msg V)} (hs : Streams n ds cs) :
    ∀ (as : List (Act V)) {o : Op V} {H D F : List (Msg V)} {X C G : Nat → List (Msg V)}, Good n o ds cs H D F X C G → (∀ a ∈ as, DemuxCall n a) →
    addressed true i1 as <+: F → (∀ k, 1 ≤ k → k ≤ n → ctrlTo (cPort k) as <+: G k) →
    ∃ outs H' D' F' X' C' G', results o as = outs.map .ok ∧ Good n (after o as) ds cs (H ++ H') D' F' X' C' G' ∧
      H' ++ D' = D ++ addressed true i1 as ∧
      (∀ k, 1 ≤ k → k ≤ n → X' k ++ C' k = X k ++ C k ++ ctrlTo (cPort k) as) ∧ RoutedAll n cs H' outs := by
  intro as
  induction as with
  | nil =>
    intro o H D F X C G h _ _ _
    refine ⟨[], [], D, F, X, C, G, rfl, by simpa [after] using h, by simp [addressed], by simp [ctrlTo], ?_, ?_⟩
    · intro k _ _; rfl
    · intro q _; rfl
  | cons a as ih =>
    intro o H D F X C G h hv hpF hpG
    have hva := hv a (by simp)
    have hv' : ∀ a ∈ as, DemuxCall n a := fun x hx => hv x (List.mem_cons_of_mem _ hx)
    have hE : (a = .execData ∨ a = .execCtrl) → ∃ outs H' D' F' X' C' G', results o (a :: as) = outs.map .ok ∧
        Good n (after o (a :: as)) ds cs (H ++ H') D' F' X' C' G' ∧ H' ++ D' = D ++ addressed true i1 (a :: as) ∧
        (∀ k, 1 ≤ k → k ≤ n → X' k ++ C' k = X k ++ C k ++ ctrlTo (cPort k) (a :: as)) ∧ RoutedAll n cs H' outs := by
      intro ha
      have e1 : addressed true i1 (a :: as) = addressed true i1 as := by rcases ha with rfl | rfl <;> rfl
      have e2 : ∀ k, ctrlTo (cPort k) (a :: as) = ctrlTo (cPort k) as := by rcases ha with rfl | rfl <;> (intro k; rfl)
      rw [e1] at hpF ⊢; simp only [e2] at hpG ⊢
      have hexec : ∀ out o', o.execData = .ok out o' → results o (a :: as) = .ok out :: results o' as ∧ after o (a :: as) = after o' as := by
        intro out o' hx
        have hcx : o.execCtrl = .ok out o' := by rw [exec_eq h.is]; exact hx
        rcases ha with rfl | rfl
        · simp [results, after, act, hx]
        · simp [results, after, act, hcx]
      rcases good_exec hs h with ⟨o', X', C', e, hg, hXC, _⟩ | ⟨o', X', C', out, m, ms, hD, e, hg, hXC, r1, r2⟩
      · obtain ⟨q1, q2⟩ := hexec _ _ e
        obtain ⟨outs, H', D', F', X2, C2, G', p1, p2, p3, p4, p5⟩ := ih hg hv' hpF hpG
        refine ⟨[] :: outs, H', D', F', X2, C2, G', by rw [q1, p1]; rfl, by rw [q2]; exact p2, p3, ?_, p5.cons_nil⟩
        intro k k1 k2; rw [p4 k k1 k2, hXC k k1 k2]
      · obtain ⟨q1, q2⟩ := hexec _ _ e
        obtain ⟨outs, H', D', F', X2, C2, G', p1, p2, p3, p4, p5⟩ := ih hg hv' hpF hpG
        refine ⟨out :: outs, m :: H', D', F', X2, C2, G', by rw [q1, p1]; rfl, by rw [q2]; simpa using p2, by rw [hD, List.cons_append, p3]; rfl, ?_, ?_, ?_⟩
        · intro k k1 k2; rw [p4 k k1 k2, hXC k k1 k2]
        · intro k k1 k2
          rw [emittedOn_cons, r1 k k1 k2, p5.1 k k1 k2, List.filter_cons]
          split <;> rfl
        · intro q hq
          rw [emittedOn_cons, r2 q hq, p5.2 q hq]; rfl
    cases a with
    | execData => exact hE (Or.inl rfl)
    | execCtrl => exact hE (Or.inr rfl)
    | recvData p m =>
      rw [addressed_recv m hva] at hpF ⊢
      obtain ⟨F', hF⟩ := hpF
      obtain ⟨o', e1, e2⟩ := recvData_spec h.is hva m
      obtain ⟨outs, H', D', F'', X', C', G', p1, p2, p3, p4, p5⟩ := ih (o := o') (H := H) (D := D ++ [m]) (F := addressed true i1 as ++ F') (X := X) (C := C) (G := G)
        ⟨e2, by rw [h.data, ← hF]; simp, h.ctrl, by
          intro k k1 k2 x hx y hy
          refine h.old k k1 k2 x hx y ?_
          rw [← hF]
          simpa using hy, h.done⟩ hv' ⟨F', rfl⟩ hpG
      refine ⟨[] :: outs, H', D', F'', X', C', G', by simp [results, act, e1, p1], by simpa [after, act, e1] using p2, by rw [p3]; simp, p4, p5.cons_nil⟩
    | recvCtrl p m =>
      obtain ⟨k, k1, k2, rfl⟩ := mem_cPorts.1 hva
      obtain ⟨o', e1, e2⟩ := recvCtrl_spec h.is k1 k2 m
      have hGk := hpG k k1 k2
      rw [ctrlTo_recv, if_pos rfl] at hGk
      obtain ⟨G', hG⟩ := hGk
      have hne : ∀ j, j ≠ k → ctrlTo (cPort j) (.recvCtrl (cPort k) m :: as) = ctrlTo (cPort j) as := by
        intro j hj
        rw [ctrlTo_recv, if_neg (fun hc => hj (cPort_inj hc).symm)]
      obtain ⟨outs, H', D', F'', X', C', G'', p1, p2, p3, p4, p5⟩ := ih (o := o') (H := H) (D := D) (F := F) (X := X) (C := updN C k (C k ++ [m]))
        (G := updN G k (ctrlTo (cPort k) as ++ G'))
        ⟨e2, h.data, by
          intro j j1 j2
          unfold updN
          by_cases he : j = k
          · subst he; rw [if_pos rfl, if_pos rfl, h.ctrl j j1 j2, ← hG]; simp
          · rw [if_neg he, if_neg he]; exact h.ctrl j j1 j2, h.old, h.done⟩ hv' hpF (by
          intro j j1 j2
          unfold updN
          by_cases he : j = k
          · subst he; rw [if_pos rfl]; exact ⟨G', rfl⟩
          · rw [if_neg he]; have := hpG j j1 j2; rw [hne j he] at this; exact this)
      refine ⟨[] :: outs, H', D', F'', X', C', G'', by simp [results, act, e1, p1], by simpa [after, act, e1] using p2, by rw [p3]; rfl, ?_, p5.cons_nil⟩
      intro j j1 j2
      rw [p4 j j1 j2]
      unfold updN
      by_cases he : j = k
      · subst he; rw [if_pos rfl, ctrlTo_recv, if_pos rfl]; simp
      · rw [if_neg he, hne j he]

/-- After enough executions the front data message, if any, lacks an instruction. -/
theorem good_drain {n : Nat} {ds : List (Msg V)} {cs : Nat → List (Msg V)} (hs : Streams n ds cs) :
    ∀ (L : Nat) {o : Op V} {H D F : List (Msg V)} {X C G : Nat → List (Msg V)}, Good n o ds cs H D F X C G →
    (D.length ≤ L ∨ ∀ m ms, D = m :: ms → ∃ k, 1 ≤ k ∧ k ≤ n ∧ ∀ c ∈ X k ++ C k, c.time < m.time) →
    ∀ {H' D' F'} {X' C' G' : Nat → List (Msg V)}, Good n (after o (List.replicate L .execData)) ds cs H' D' F' X' C' G' →
    (∀ m ms, D' = m :: ms → ∃ k, 1 ≤ k ∧ k ≤ n ∧ ∀ c ∈ X k ++ C k, c.time < m.time) := by
  intro L
  induction L with
  | zero =>
    intro o H D F X C G h hl H' D' F' X' C' G' h' m ms hD'
    have hb : D' = D := by rw [← h'.is.buffered, ← h.is.buffered]; rfl
    rw [hb] at hD'
    rcases hl with hl | hl
    · rw [hD'] at hl; simp at hl
    · exact hl m ms hD'
  | succ L ih =>
    intro o H D F X C G h hl H' D' F' X' C' G' h' m ms hD'
    rw [List.replicate_succ] at h'
    rcases good_exec hs h with ⟨o', X1, C1, e, hg, hXC, hw⟩ | ⟨o', X1, C1, out, m0, ms0, hD, e, hg, hXC, r1, r2⟩
    · have ha : after o (.execData :: List.replicate L .execData) = after o' (List.replicate L .execData) := by simp [after, act, e]
      rw [ha] at h'
      obtain ⟨k, k1, k2, hk⟩ := ih hg (Or.inr fun m ms hm => by
        obtain ⟨k, k1, k2, hk⟩ := hw m ms hm
        exact ⟨k, k1, k2, by rw [hXC k k1 k2]; exact hk⟩) h' m ms hD'
      exact ⟨k, k1, k2, by rw [← hXC k k1 k2]; exact hk⟩
    · have ha : after o (.execData :: List.replicate L .execData) = after o' (List.replicate L .execData) := by simp [after, act, e]
      rw [ha] at h'
      obtain ⟨k, k1, k2, hk⟩ := ih hg (by
        rcases hl with hl | hl
        · left; rw [hD, List.length_cons] at hl; omega
        · exfalso
          obtain ⟨k, k1, k2, hk⟩ := hl m0 ms0 hD
          have hdone := hg.done k k1 k2 m0 (by simp)
          obtain ⟨c, hc, hct⟩ := hdone
          have := hk c (by rw [← hXC k k1 k2]; exact List.mem_append_left _ hc)
          rw [hct] at this
          exact absurd this (UInt64.lt_irrefl _)) h' m ms hD'
      exact ⟨k, k1, k2, by rw [← hXC k k1 k2]; exact hk⟩

/-! ## Construction -/

theorem addControls_spec (id : Str) (n : Nat) :
    ∃ c pm, addControls (Core.new id : Core V) n = .ok (c, pm) ∧ c.ctrlIn.Sorted ∧ (∀ p, p ∈ c.ctrlIn.keys ↔ IsPort cPort n p) ∧
      (∀ k, 1 ≤ k → k ≤ n → c.ctrlIn.find? (cPort k) = some (Inp.new (cPort k) 0)) ∧ c.dataIn = [] ∧
      (∀ p, p ∈ pm.keys ↔ IsPort cPort n p) ∧ ∀ k, 1 ≤ k → k ≤ n → pm.find? (cPort k) = some (oPort k) := by
  induction n with
  | zero =>
    refine ⟨Core.new id, [], rfl, Map.Sorted.nil, ?_, ?_, rfl, ?_, ?_⟩
    · intro p
      simp only [Core.new, Map.keys, List.map_nil, List.not_mem_nil, false_iff]
      rintro ⟨k, _, _, _⟩; omega
    · intro k _ _; omega
    · intro p
      simp only [Map.keys, List.map_nil, List.not_mem_nil, false_iff]
      rintro ⟨k, _, _, _⟩; omega
    · intro k _ _; omega
  | succ n ih =>
    obtain ⟨c, pm, h1, h2, h3, h4, h5, h6, h7⟩ := ih
    have hhas : c.ctrlIn.has (cPort (n + 1)) = false := by
      rw [Bool.eq_false_iff, ne_eq, Map.has_iff, h3]; exact not_isPort_self (fun _ _ => cPort_inj) n
    have hpn : pm.has (cPort (n + 1)) = false := by
      rw [Bool.eq_false_iff, ne_eq, Map.has_iff, h6]; exact not_isPort_self (fun _ _ => cPort_inj) n
    refine ⟨({ c with ctrlIn := c.ctrlIn.emplace (cPort (n + 1)) (Inp.new (cPort (n + 1)) 0) } : Core V).addOutput (oPort (n + 1)),
      pm.emplace (cPort (n + 1)) (oPort (n + 1)), ?_, h2.emplace _ _, ?_, ?_, h5, ?_, ?_⟩
    · rw [addControls, h1]
      have : c.addControlInput (cPort (n + 1)) 0 = .ok { c with ctrlIn := c.ctrlIn.emplace (cPort (n + 1)) (Inp.new (cPort (n + 1)) 0) } := by
        unfold Core.addControlInput
        rw [if_neg (cPort_ne_nil _), hhas, h5]
        rfl
      simp only [bind, Except.bind, this]
    · intro p
      simp only [Core.addOutput, Map.emplace, hhas, Bool.false_eq_true, if_false]
      rw [Map.mem_keys_put, h3, isPort_succ]
    · intro k k1 k2
      simp only [Core.addOutput, Map.emplace, hhas, Bool.false_eq_true, if_false]
      rw [Map.find?_put]
      split
      · rename_i he; rw [he]
      · rename_i he
        exact h4 k k1 (Nat.le_of_not_lt fun hcon => he (by congr 1; omega))
    · intro p
      simp only [Map.emplace, hpn, Bool.false_eq_true, if_false]
      rw [Map.mem_keys_put, h6, isPort_succ]
    · intro k k1 k2
      simp only [Map.emplace, hpn, Bool.false_eq_true, if_false]
      rw [Map.find?_put]
      split
      · rename_i he; rw [cPort_inj he]
      · rename_i he
        exact h7 k k1 (Nat.le_of_not_lt fun hcon => he (by congr 1; omega))

theorem newDemux_spec (id : Str) (n : Nat) (hn : 1 ≤ n) :
    ∃ o, (Op.newDemux id n : Except Err (Op V)) = .ok o ∧ Is n o [] (fun _ => []) := by
  obtain ⟨c, pm, h1, h2, h3, h4, h5, h6, h7⟩ := addControls_spec (V := V) id n
  have hc : c.ctrlIn.has i1 = false := by
    rw [Bool.eq_false_iff, ne_eq, Map.has_iff, h3]
    rintro ⟨k, _, _, hk⟩
    simp [i1, cPort] at hk
  refine ⟨⟨{ c with dataIn := [(i1, Inp.new i1 0)] }, .demux pm⟩, ?_, ⟨pm, rfl, h7⟩, ⟨_, rfl, rfl⟩, h2, h3, ?_⟩
  · unfold Op.newDemux
    rw [if_neg (by omega), h1]
    have : c.addDataInput i1 0 = .ok { c with dataIn := [(i1, Inp.new i1 0)] } := by
      unfold Core.addDataInput
      rw [if_neg (by decide), hc, h5]
      rfl
    simp only [bind, Except.bind, this]
  · intro k k1 k2
    exact ⟨_, h4 k k1 k2, rfl⟩

end Demux
end Rtbot
