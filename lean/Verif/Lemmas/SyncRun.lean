import Verif.Lemmas.Sync

/-! # Synchronisation over sequences of calls -/

set_option linter.unusedSectionVars false

namespace Rtbot
open Spec
variable {V : Type} [Num V]

namespace Sync

theorem sentTo_nil (p : Str) : sentTo p ([] : List (Act V)) = [] := rfl
theorem sentTo_recv (p q : Str) (m : Msg V) (as : List (Act V)) :
    sentTo p (.recvData q m :: as) = if q = p then m :: sentTo p as else sentTo p as := by
  by_cases h : q = p
  · simp [sentTo, h]
  · simp [sentTo, h]
theorem sentTo_exec (p : Str) (as : List (Act V)) : sentTo p (.execData :: as) = sentTo p as := rfl
theorem sentTo_execCtrl (p : Str) (as : List (Act V)) : sentTo p (.execCtrl :: as) = sentTo p as := rfl
theorem sentTo_append (p : Str) (as bs : List (Act V)) : sentTo p (as ++ bs) = sentTo p as ++ sentTo p bs := by
  simp [sentTo]

theorem after_append (o : Op V) (as bs : List (Act V)) : after o (as ++ bs) = after (after o as) bs := by
  induction as generalizing o with
  | nil => rfl
  | cons a as ih => exact ih _

theorem results_append (o : Op V) (as bs : List (Act V)) : results o (as ++ bs) = results o as ++ results (after o as) bs := by
  induction as generalizing o with
  | nil => rfl
  | cons a as ih => simp only [List.cons_append, results, after]; rw [ih]

theorem Inv.congr {K : Kind V} {ps : List Str} {o : Op V} {R R' D D' : Str → List (Msg V)} {T : List (UInt64 × (Str → Msg V))}
    (hi : Inv K ps o R D T) (hR : ∀ p ∈ ps, R' p = R p) (hD : ∀ p ∈ ps, D' p = D p) : Inv K ps o R' D' T := by
  refine ⟨hi.kind, ⟨hi.bufs.sorted, hi.bufs.keys, ?_⟩, ?_, ?_, hi.same⟩
  · intro p hp
    rw [hD p hp]; exact hi.bufs.find p hp
  · intro p hp; rw [hR p hp]; exact hi.inc p hp
  · intro p hp
    obtain ⟨C, h1, h2, h3⟩ := hi.split p hp
    refine ⟨C, by rw [hR p hp, hD p hp]; exact h1, ?_, h3⟩
    intro m hm
    rcases h2 m hm with h | ⟨s, hs, h4, y, hy, h5⟩
    · exact Or.inl h
    · exact Or.inr ⟨s, hs, by rw [hR s hs]; exact h4, y, by rw [hR s hs]; exact hy, h5⟩

theorem execCtrl_join {K : Kind V} (hK : K.isJoin = true) {o : Op V} (hk : o.kind = K) : o.execCtrl = .ok [] o := by
  unfold Op.execCtrl
  rw [hk]
  cases K <;> simp_all [Kind.isJoin]

theorem run {K : Kind V} (hK : K.isJoin = true) {ps : List Str} (hps : ps ≠ []) (hnil : [] ∉ ps) {F : (Str → Msg V) → OpMsg V}
    (hF : Emits K ps F) : ∀ (as : List (Act V)) {o : Op V} {R D : Str → List (Msg V)} {T : List (UInt64 × (Str → Msg V))},
    Inv K ps o R D T → (∀ a ∈ as, DataOnly ps a) → (∀ p ∈ ps, Increasing (R p ++ sentTo p as)) →
    ∃ outs D' T', results o as = outs.map .ok ∧ Inv K ps (after o as) (fun p => R p ++ sentTo p as) D' (T ++ T') ∧
      (∀ out ∈ outs, out = [] ∨ ∃ x ∈ T', out = F x.2) ∧ ∀ q, emittedOn q outs = T'.flatMap fun x => msgsOn q (F x.2) := by
  intro as
  induction as with
  | nil =>
    intro o R D T hi _ _
    refine ⟨[], D, [], rfl, ?_, by simp, fun q => rfl⟩
    rw [List.append_nil]
    exact hi.congr (fun p _ => by simp [sentTo_nil]) (fun _ _ => rfl)
  | cons a as ih =>
    intro o R D T hi hv hinc
    have hv' : ∀ a ∈ as, DataOnly ps a := fun x hx => hv x (List.mem_cons_of_mem _ hx)
    have hva := hv a (by simp)
    cases a with
    | recvCtrl p q => exact hva.elim
    | execCtrl =>
      obtain ⟨outs, D', T', h1, h2, h3, h4⟩ := ih hi hv' hinc
      have hx := execCtrl_join hK hi.kind
      refine ⟨[] :: outs, D', T', ?_, ?_, ?_, ?_⟩
      · simp [results, act, hx, h1]
      · have ha : after o (.execCtrl :: as) = after o as := by simp [after, act, hx]
        rw [ha]; exact h2
      · intro out ho
        rcases List.mem_cons.1 ho with rfl | ho
        · exact Or.inl rfl
        · exact h3 out ho
      · intro q
        rw [emittedOn_cons, h4]; rfl
    | recvData p m =>
      have hp : p ∈ ps := hva
      have hpi := hinc p hp
      rw [sentTo_recv, if_pos rfl] at hpi
      have hpm : Increasing (R p ++ [m]) := by
        rw [show R p ++ m :: sentTo p as = (R p ++ [m]) ++ sentTo p as by simp] at hpi
        exact (inc_append hpi).1
      obtain ⟨o', e1, e2⟩ := inv_recv hK hi hp (fun h => hnil (h ▸ hp)) m hpm
      have hR : ∀ q ∈ ps, upd R p (R p ++ [m]) q ++ sentTo q as = R q ++ sentTo q (.recvData p m :: as) := by
        intro q _
        rw [sentTo_recv]
        unfold upd
        by_cases he : q = p
        · subst he; rw [if_pos rfl, if_pos rfl]; simp
        · rw [if_neg he, if_neg (Ne.symm he)]
      obtain ⟨outs, D', T', h1, h2, h3, h4⟩ := ih e2 hv' (by intro q hq; rw [hR q hq]; exact hinc q hq)
      refine ⟨[] :: outs, D', T', ?_, ?_, ?_, ?_⟩
      · simp [results, act, e1, h1]
      · have ha : after o (.recvData p m :: as) = after o' as := by simp [after, act, e1]
        rw [ha]
        exact h2.congr (fun q hq => (hR q hq).symm) (fun _ _ => rfl)
      · intro out ho
        rcases List.mem_cons.1 ho with rfl | ho
        · exact Or.inl rfl
        · exact h3 out ho
      · intro q
        rw [emittedOn_cons, h4]; rfl
    | execData =>
      rcases inv_exec hK hps hF hi with ⟨o', D1, e1, e2, _⟩ | ⟨o', D1, x, e1, e2, _⟩
      · obtain ⟨outs, D', T', h1, h2, h3, h4⟩ := ih e2 hv' hinc
        refine ⟨[] :: outs, D', T', ?_, ?_, ?_, ?_⟩
        · simp [results, act, e1, h1]
        · have ha : after o (.execData :: as) = after o' as := by simp [after, act, e1]
          rw [ha]; exact h2
        · intro out ho
          rcases List.mem_cons.1 ho with rfl | ho
          · exact Or.inl rfl
          · exact h3 out ho
        · intro q
          rw [emittedOn_cons, h4]; rfl
      · obtain ⟨outs, D', T', h1, h2, h3, h4⟩ := ih e2 hv' hinc
        refine ⟨F x.2 :: outs, D', x :: T', ?_, ?_, ?_, ?_⟩
        · simp [results, act, e1, h1]
        · have ha : after o (.execData :: as) = after o' as := by simp [after, act, e1]
          rw [ha]
          rw [show T ++ x :: T' = (T ++ [x]) ++ T' by simp]
          exact h2
        · intro out ho
          rcases List.mem_cons.1 ho with rfl | ho
          · exact Or.inr ⟨x, by simp, rfl⟩
          · rcases h3 out ho with h | ⟨y, hy, h⟩
            · exact Or.inl h
            · exact Or.inr ⟨y, List.mem_cons_of_mem _ hy, h⟩
        · intro q
          rw [emittedOn_cons, h4, List.flatMap_cons]

/-- Enough executions empty a buffer. -/
theorem drain {K : Kind V} (hK : K.isJoin = true) {ps : List Str} (hps : ps ≠ []) {F : (Str → Msg V) → OpMsg V}
    (hF : Emits K ps F) : ∀ (k : Nat) {o : Op V} {R D : Str → List (Msg V)} {T : List (UInt64 × (Str → Msg V))},
    Inv K ps o R D T → ((∃ p ∈ ps, D p = []) ∨ (ps.map fun p => (D p).length).sum ≤ k) →
    ∃ p ∈ ps, buffered (after o (List.replicate k .execData)) p = [] := by
  have hsum : ∀ (ps : List Str) (f g : Str → Nat), (∀ p ∈ ps, f p ≤ g p) → (ps.map f).sum ≤ (ps.map g).sum ∧
      ((∃ p ∈ ps, f p < g p) → (ps.map f).sum < (ps.map g).sum) := by
    intro ps f g
    induction ps with
    | nil => intro _; exact ⟨Nat.le_refl _, by simp⟩
    | cons p ps ih =>
      intro h
      obtain ⟨h1, h2⟩ := ih (fun q hq => h q (List.mem_cons_of_mem _ hq))
      have hp := h p (by simp)
      simp only [List.map_cons, List.sum_cons]
      refine ⟨by omega, ?_⟩
      rintro ⟨q, hq, hlt⟩
      rcases List.mem_cons.1 hq with rfl | hq
      · omega
      · have := h2 ⟨q, hq, hlt⟩; omega
  intro k
  induction k with
  | zero =>
    intro o R D T hi h
    have : ∃ p ∈ ps, D p = [] := by
      rcases h with h | h
      · exact h
      · obtain ⟨p, hp⟩ := List.exists_mem_of_ne_nil _ hps
        refine ⟨p, hp, ?_⟩
        have h0 : ∀ l : List Nat, l.sum ≤ 0 → ∀ x ∈ l, x = 0 := by
          intro l
          induction l with
          | nil => simp
          | cons y l ih =>
            intro hl x hx
            rw [List.sum_cons] at hl
            rcases List.mem_cons.1 hx with rfl | hx
            · omega
            · exact ih (by omega) x hx
        exact List.length_eq_zero_iff.1 (h0 _ h _ (List.mem_map.2 ⟨p, hp, rfl⟩))
    obtain ⟨p, hp, h⟩ := this
    refine ⟨p, hp, ?_⟩
    obtain ⟨i, h1, h2⟩ := hi.bufs.find p hp
    simp only [List.replicate, after, buffered, h1]
    rw [h2, h]
  | succ k ih =>
    intro o R D T hi h
    rw [List.replicate_succ]
    rcases inv_exec hK hps hF hi with ⟨o', D', e1, e2, e3⟩ | ⟨o', D', x, e1, e2, e3, e4⟩
    · have ha : after o (.execData :: List.replicate k .execData) = after o' (List.replicate k .execData) := by simp [after, act, e1]
      rw [ha]
      refine ih e2 ?_
      rcases e3 with ⟨p, hp, e4, rfl⟩ | ⟨e4, e5⟩
      · exact Or.inl ⟨p, hp, e4⟩
      · rcases h with ⟨p, hp, h⟩ | h
        · left
          refine ⟨p, hp, ?_⟩
          have := e5 p hp
          rw [h] at this
          exact List.length_eq_zero_iff.1 (by simpa using this)
        · right
          have := (hsum ps (fun p => (D' p).length) (fun p => (D p).length) e5).2 e4
          omega
    · have ha : after o (.execData :: List.replicate k .execData) = after o' (List.replicate k .execData) := by simp [after, act, e1]
      rw [ha]
      refine ih e2 ?_
      rcases h with ⟨p, hp, h⟩ | h
      · exfalso
        have := e4 p hp
        rw [h] at this; simp at this
      · right
        obtain ⟨p, hp⟩ := List.exists_mem_of_ne_nil _ hps
        have := (hsum ps (fun p => (D' p).length) (fun p => (D p).length) (fun p hp => Nat.le_of_lt (e4 p hp))).2 ⟨p, hp, e4 p hp⟩
        omega

/-- The whole statement for an operator with empty buffers. -/
theorem main {K : Kind V} (hK : K.isJoin = true) {ps : List Str} (hps : ps ≠ []) (hnil : [] ∉ ps) {F : (Str → Msg V) → OpMsg V}
    (hF : Emits K ps F) {o : Op V} (hk : o.kind = K) (hb : Bufs ps o (fun _ => [])) (as : List (Act V)) (hv : ∀ a ∈ as, DataOnly ps a)
    (hinc : ∀ p ∈ ps, Increasing (sentTo p as)) {qs : List Str} (hqs : ∀ p, p ∈ qs ↔ p ∈ ps) :
    ∃ outs, ∃ T : List (UInt64 × (Str → Msg V)), results o as = outs.map .ok ∧
      T.map (·.1) ++ commonTimes (qs.map (buffered (after o as))) = commonTimes (qs.map fun p => sentTo p as) ∧
      (∀ p ∈ ps, T.map (fun x => x.2 p) = atTimes (T.map (·.1)) (sentTo p as)) ∧ (∀ x ∈ T, ∀ p ∈ ps, (x.2 p).time = x.1 ∧ x.2 p ∈ sentTo p as) ∧
      (∀ out ∈ outs, out = [] ∨ ∃ x ∈ T, out = F x.2) ∧ (∀ q, emittedOn q outs = T.flatMap fun x => msgsOn q (F x.2)) ∧
      ∃ R D, Inv K ps (after o as) R D T := by
  have h0 : Inv K ps o (fun _ => []) (fun _ => []) [] :=
    ⟨hk, hb, fun _ _ => List.Pairwise.nil, fun p _ => ⟨[], rfl, by simp, List.Sublist.refl _⟩, by simp⟩
  obtain ⟨outs, D', T', h1, h2, h3, h4⟩ := run hK hps hnil hF as h0 hv (by simpa using hinc)
  rw [List.nil_append] at h2
  refine ⟨outs, T', h1, ?_, ?_, ?_, h3, h4, _, _, h2⟩
  · have h5 := h2.no_loss hqs hps
    simp only [List.nil_append] at h5
    rw [← h5]
    congr 2
    apply List.map_congr_left
    intro p hp
    obtain ⟨i, e1, e2⟩ := h2.bufs.find p ((hqs p).1 hp)
    simp only [buffered, e1]
    exact e2
  · intro p hp
    have := h2.emitted_eq hp
    simpa using this
  · intro x hx p hp
    obtain ⟨e1, e2⟩ := h2.emitted_received hx hp
    exact ⟨e2, by simpa using e1⟩

/-! ## Without the assumption of increasing times -/

/-- What holds whatever the timestamps. -/
structure Inv0 (K : Kind V) (ps : List Str) (o : Op V) (R D : Str → List (Msg V)) (T : List (UInt64 × (Str → Msg V))) : Prop where
  kind : o.kind = K
  bufs : Bufs ps o D
  split : ∀ p ∈ ps, ∃ C, R p = C ++ D p ∧ (T.map fun x => x.2 p).Sublist C
  same : ∀ x ∈ T, ∀ p ∈ ps, (x.2 p).time = x.1

theorem run0 {K : Kind V} (hK : K.isJoin = true) {ps : List Str} (hps : ps ≠ []) (hnil : [] ∉ ps) {F : (Str → Msg V) → OpMsg V}
    (hF : Emits K ps F) : ∀ (as : List (Act V)) {o : Op V} {R D : Str → List (Msg V)} {T : List (UInt64 × (Str → Msg V))},
    Inv0 K ps o R D T → (∀ a ∈ as, DataOnly ps a) →
    ∃ outs D' T', results o as = outs.map .ok ∧ Inv0 K ps (after o as) (fun p => R p ++ sentTo p as) D' (T ++ T') ∧
      (∀ out ∈ outs, out = [] ∨ ∃ x ∈ T', out = F x.2) ∧ ∀ q, emittedOn q outs = T'.flatMap fun x => msgsOn q (F x.2) := by
  intro as
  induction as with
  | nil =>
    intro o R D T hi _
    refine ⟨[], D, [], rfl, ?_, by simp, fun q => rfl⟩
    rw [List.append_nil]
    simp only [sentTo_nil, List.append_nil]
    exact hi
  | cons a as ih =>
    intro o R D T hi hv
    have hv' : ∀ a ∈ as, DataOnly ps a := fun x hx => hv x (List.mem_cons_of_mem _ hx)
    have hva := hv a (by simp)
    cases a with
    | recvCtrl p q => exact hva.elim
    | execCtrl =>
      obtain ⟨outs, D', T', h1, h2, h3, h4⟩ := ih hi hv'
      have hx := execCtrl_join hK hi.kind
      refine ⟨[] :: outs, D', T', ?_, ?_, ?_, ?_⟩
      · simp [results, act, hx, h1]
      · have ha : after o (.execCtrl :: as) = after o as := by simp [after, act, hx]
        rw [ha]; exact h2
      · intro out ho
        rcases List.mem_cons.1 ho with rfl | ho
        · exact Or.inl rfl
        · exact h3 out ho
      · intro q
        rw [emittedOn_cons, h4]; rfl
    | recvData p m =>
      have hp : p ∈ ps := hva
      obtain ⟨i, hf, hd⟩ := hi.bufs.find p hp
      have hrec : o.recvData m p = .ok { o with core := { o.core with dataIn := o.core.dataIn.put p (i.push m) } } := by
        have : o.core.receiveDataJoin m p = .ok { o.core with dataIn := o.core.dataIn.put p (i.push m) } := by
          unfold Core.receiveDataJoin
          rw [if_neg (fun h : p = [] => hnil (h ▸ hp)), hf]
        have hk := hi.kind
        unfold Op.recvData
        rw [hk]
        cases K <;> simp_all [Kind.isJoin, bind, Except.bind]
      have e2 : Inv0 K ps { o with core := { o.core with dataIn := o.core.dataIn.put p (i.push m) } } (upd R p (R p ++ [m])) (upd D p (D p ++ [m])) T := by
        refine ⟨hi.kind, ⟨hi.bufs.sorted.put _ _, ?_, ?_⟩, ?_, hi.same⟩
        · simp only
          rw [Map.keys_put_of_mem _ _ hi.bufs.sorted (by rw [hi.bufs.keys]; exact hp), hi.bufs.keys]
        · intro q hq
          simp only [Map.find?_put, upd]
          split
          · exact ⟨_, rfl, by simp [Inp.push, hd]⟩
          · exact hi.bufs.find q hq
        · intro q hq
          obtain ⟨C, h1, h3⟩ := hi.split q hq
          refine ⟨C, ?_, h3⟩
          simp only [upd]
          split
          · rename_i he; subst he; rw [h1, List.append_assoc]
          · exact h1
      obtain ⟨outs, D', T', h1, h2, h3, h4⟩ := ih e2 hv'
      have hR : (fun q => upd R p (R p ++ [m]) q ++ sentTo q as) = fun q => R q ++ sentTo q (.recvData p m :: as) := by
        funext q
        rw [sentTo_recv]
        unfold upd
        by_cases he : q = p
        · subst he; rw [if_pos rfl, if_pos rfl]; simp
        · rw [if_neg he, if_neg (Ne.symm he)]
      refine ⟨[] :: outs, D', T', ?_, ?_, ?_, ?_⟩
      · simp [results, act, hrec, h1]
      · have ha : after o (.recvData p m :: as) = after { o with core := { o.core with dataIn := o.core.dataIn.put p (i.push m) } } as := by
          simp [after, act, hrec]
        rw [ha, ← hR]
        exact h2
      · intro out ho
        rcases List.mem_cons.1 ho with rfl | ho
        · exact Or.inl rfl
        · exact h3 out ho
      · intro q
        rw [emittedOn_cons, h4]; rfl
    | execData =>
      have hstep : ∀ out o' T1, o.execData = .ok out o' → (∃ D1, Inv0 K ps o' R D1 (T ++ T1)) → (out = [] ∧ T1 = [] ∨ ∃ x, T1 = [x] ∧ out = F x.2) →
          ∃ outs D' T', results o (.execData :: as) = outs.map .ok ∧
            Inv0 K ps (after o (.execData :: as)) (fun p => R p ++ sentTo p (.execData :: as)) D' (T ++ T') ∧
            (∀ out ∈ outs, out = [] ∨ ∃ x ∈ T', out = F x.2) ∧ ∀ q, emittedOn q outs = T'.flatMap fun x => msgsOn q (F x.2) := by
        intro out o' T1 e1 ⟨D1, e2⟩ hout
        obtain ⟨outs, D', T', h1, h2, h3, h4⟩ := ih e2 hv'
        refine ⟨out :: outs, D', T1 ++ T', ?_, ?_, ?_, ?_⟩
        · simp [results, act, e1, h1]
        · have ha : after o (.execData :: as) = after o' as := by simp [after, act, e1]
          rw [ha, ← List.append_assoc]
          exact h2
        · intro y hy
          rcases List.mem_cons.1 hy with rfl | hy
          · rcases hout with ⟨h, _⟩ | ⟨x, hx, h⟩
            · exact Or.inl h
            · exact Or.inr ⟨x, by rw [hx]; simp, h⟩
          · rcases h3 y hy with h | ⟨x, hx, h⟩
            · exact Or.inl h
            · exact Or.inr ⟨x, List.mem_append_right _ hx, h⟩
        · intro q
          rw [emittedOn_cons, h4, List.flatMap_append]
          congr 1
          rcases hout with ⟨h, h'⟩ | ⟨x, hx, h⟩
          · rw [h, h']; rfl
          · rw [hx, h]; simp
      rcases exec_cases hK hps hF hi.kind hi.bufs with ⟨h1, _⟩ | ⟨ref, href, t, x, xs, hx, ht, hall, h | h⟩
      · exact hstep [] o [] h1 ⟨D, by simpa using hi⟩ (Or.inl ⟨rfl, rfl⟩)
      · obtain ⟨o', e1, e2, e3, _⟩ := h
        refine hstep [] o' [] e1 ⟨_, e2, e3, ?_, by simpa using hi.same⟩ (Or.inl ⟨rfl, rfl⟩)
        intro q hq
        obtain ⟨C, h1, h3⟩ := hi.split q hq
        obtain ⟨d, hd1, hd2⟩ := dropT_split t (D q)
        exact ⟨C ++ d, by rw [List.append_assoc, ← hd1]; exact h1, by simpa using h3.trans (List.sublist_append_left _ _)⟩
      · obtain ⟨hd, h1, o', e1, e2, e3⟩ := h
        refine hstep _ o' [(t, hd)] e1 ⟨_, e2, e3, ?_, ?_⟩ (Or.inr ⟨(t, hd), rfl, rfl⟩)
        · intro q hq
          obtain ⟨C, q1, q3⟩ := hi.split q hq
          obtain ⟨d, hd1, hd2⟩ := dropT_split t (D q)
          obtain ⟨hqt, ms, hms⟩ := h1 q hq
          refine ⟨C ++ d ++ [hd q], ?_, ?_⟩
          · rw [hms, List.tail_cons, q1]
            conv => lhs; rw [hd1, hms]
            simp
          · rw [List.map_append]
            exact (q3.trans (List.sublist_append_left _ _)).append (List.Sublist.refl _)
        · intro y hy p hp
          rcases List.mem_append.1 hy with hy | hy
          · exact hi.same y hy p hp
          · rw [List.mem_singleton] at hy; subst hy; exact (h1 p hp).1

theorem main0 {K : Kind V} (hK : K.isJoin = true) {ps : List Str} (hps : ps ≠ []) (hnil : [] ∉ ps) {F : (Str → Msg V) → OpMsg V}
    (hF : Emits K ps F) {o : Op V} (hk : o.kind = K) (hb : Bufs ps o (fun _ => [])) (as : List (Act V)) (hv : ∀ a ∈ as, DataOnly ps a) :
    ∃ outs, ∃ T : List (UInt64 × (Str → Msg V)), results o as = outs.map .ok ∧ (∀ p ∈ ps, (T.map fun x => x.2 p).Sublist (sentTo p as)) ∧
      (∀ x ∈ T, ∀ p ∈ ps, (x.2 p).time = x.1) ∧
      (∀ out ∈ outs, out = [] ∨ ∃ x ∈ T, out = F x.2) ∧ (∀ q, emittedOn q outs = T.flatMap fun x => msgsOn q (F x.2)) := by
  have h0 : Inv0 K ps o (fun _ => []) (fun _ => []) [] :=
    ⟨hk, hb, fun p _ => ⟨[], rfl, List.Sublist.refl _⟩, by simp⟩
  obtain ⟨outs, D', T', h1, h2, h3, h4⟩ := run0 hK hps hnil hF as h0 hv
  rw [List.nil_append] at h2
  refine ⟨outs, T', h1, ?_, h2.same, h3, h4⟩
  intro p hp
  obtain ⟨C, e1, e2⟩ := h2.split p hp
  rw [List.nil_append] at e1
  rw [e1]
  exact e2.trans (List.sublist_append_left _ _)

/-! ## What each class emits -/

/-- Result of `Join::processData` for fronts `h`. -/
def joinOut (cm : Map Str) (ps : List Str) (h : Str → Msg V) : OpMsg V :=
  ps.foldl (fun out p => match cm.find? p with | some q => out.emplace q [h p] | none => out) []

theorem joinMessages_spec (cm : Map Str) (m : Map (Inp V)) (h : Str → Msg V) (out : OpMsg V)
    (hcm : ∀ p ∈ m.keys, ∃ q, cm.find? p = some q) (hm : ∀ e ∈ m, ∃ ms, e.2.data = h e.1 :: ms) :
    joinMessages cm m out = .ok (m.keys.foldl (fun out p => match cm.find? p with | some q => out.emplace q [h p] | none => out) out) := by
  induction m generalizing out with
  | nil => rfl
  | cons e m ih =>
    obtain ⟨p, i⟩ := e
    obtain ⟨ms, hms⟩ := hm (p, i) (by simp)
    obtain ⟨q, hq⟩ := hcm p (by simp [Map.keys])
    simp only at hms
    unfold joinMessages
    rw [hms, hq]
    simp only
    rw [ih _ (fun p hp => hcm p (by simp only [Map.keys, List.map_cons] at hp ⊢; exact List.mem_cons_of_mem _ hp))
      (fun e he => hm e (List.mem_cons_of_mem _ he))]
    simp only [Map.keys, List.map_cons, List.foldl_cons, hq]

theorem bufs_mem {ps : List Str} {o : Op V} {D : Str → List (Msg V)} (hb : Bufs ps o D) : ∀ e ∈ o.core.dataIn, e.1 ∈ ps ∧ e.2.data = D e.1 := by
  intro e he
  have h1 : e.1 ∈ ps := by rw [← hb.keys]; exact List.mem_map.2 ⟨e, he, rfl⟩
  obtain ⟨i, h2, h3⟩ := hb.find e.1 h1
  have := find_of_mem hb.sorted (p := e.1) (i := e.2) he
  rw [this] at h2; cases h2
  exact ⟨h1, h3⟩

theorem emits_join {cm : Map Str} {ps : List Str} (hcm : ∀ p ∈ ps, ∃ q, cm.find? p = some q) :
    Emits (.join cm : Kind V) ps (joinOut cm ps) := by
  intro o D h hk hb hd
  unfold joinProcess
  rw [hk]
  simp only
  rw [joinMessages_spec cm o.core.dataIn h [] (by rw [hb.keys]; exact hcm) (by
    intro e he
    obtain ⟨h1, h2⟩ := bufs_mem hb e he
    obtain ⟨ms, h3⟩ := hd e.1 h1
    exact ⟨ms, by rw [h2, h3]⟩), hb.keys]
  rfl

theorem joinOut_find {cm : Map Str} {n : Nat} (hcm : ∀ k, 1 ≤ k → k ≤ n → cm.find? (iPort k) = some (oPort k)) (h : Str → Msg V) :
    ∀ (ps : List Str), ps.Nodup → (∀ p ∈ ps, IsPort iPort n p) → ∀ (out : OpMsg V), (∀ k, iPort k ∈ ps → out.find? (oPort k) = none) →
    (∀ k, 1 ≤ k → k ≤ n → Map.find? (ps.foldl (fun out p => match cm.find? p with | some q => out.emplace q [h p] | none => out) out) (oPort k) =
      if iPort k ∈ ps then some [h (iPort k)] else out.find? (oPort k)) ∧
    (∀ q ∈ Map.keys (ps.foldl (fun out p => match cm.find? p with | some q => out.emplace q [h p] | none => out) out), q ∈ out.keys ∨ IsPort oPort n q) := by
  intro ps
  induction ps with
  | nil => intro _ _ out _; exact ⟨fun k _ _ => by simp, fun q hq => Or.inl hq⟩
  | cons p ps ih =>
    intro hnd hps out ho
    rw [List.nodup_cons] at hnd
    obtain ⟨j, hj1, hj2, rfl⟩ := hps p (by simp)
    have hno := ho j (by simp)
    have hhas : out.has (oPort j) = false := by simp [Map.has, hno]
    have hem : out.emplace (oPort j) [h (iPort j)] = out.put (oPort j) [h (iPort j)] := by simp [Map.emplace, hhas]
    obtain ⟨h1, h2⟩ := ih hnd.2 (fun p hp => hps p (List.mem_cons_of_mem _ hp)) (out.put (oPort j) [h (iPort j)]) (by
      intro k hk
      rw [Map.find?_put_ne]
      · exact ho k (List.mem_cons_of_mem _ hk)
      · intro he; rw [oPort_inj he] at hk; exact hnd.1 hk)
    simp only [List.foldl_cons, hcm j hj1 hj2, hem]
    refine ⟨?_, ?_⟩
    · intro k hk1 hk2
      rw [h1 k hk1 hk2]
      by_cases he : k = j
      · subst he
        rw [if_neg hnd.1, if_pos (by simp), Map.find?_put_self]
      · have hne : iPort k ≠ iPort j := fun h => he (iPort_inj h)
        rw [Map.find?_put_ne _ _ (fun h => he (oPort_inj h))]
        simp only [List.mem_cons, hne, false_or]
    · intro q hq
      rcases h2 q hq with h | h
      · rcases (Map.mem_keys_put _ _ _ _).1 h with rfl | h
        · exact Or.inr ⟨j, hj1, hj2, rfl⟩
        · exact Or.inl h
      · exact Or.inr h

/-- What a Join built by its constructor looks like. -/
theorem newJoin_spec (id : Str) (n : Nat) (hn : 2 ≤ n) : ∃ o cm ps, (Op.newJoin id n : Except Err (Op V)) = .ok o ∧ o.kind = .join cm ∧
    Bufs ps o (fun _ => []) ∧ (∀ p, p ∈ ps ↔ p ∈ iPorts n) ∧ ps.Nodup ∧ ps ≠ [] ∧ [] ∉ ps ∧
    (∀ k, 1 ≤ k → k ≤ n → cm.find? (iPort k) = some (oPort k)) := by
  obtain ⟨c, pm, h1, h2, _, _, _, _, _, _, _, h10⟩ := addPorts_spec (V := V) id 0 n
  have hmem : ∀ p, p ∈ c.dataIn.keys ↔ p ∈ iPorts n := by
    intro p
    rw [h2.keys]
    simp only [iPorts, List.mem_map, List.mem_range]
    constructor
    · rintro ⟨k, a, b, rfl⟩; exact ⟨k - 1, by omega, by rw [Nat.sub_add_cancel a]⟩
    · rintro ⟨k, a, rfl⟩; exact ⟨k + 1, by omega, by omega, rfl⟩
  refine ⟨⟨c, .join pm⟩, pm, c.dataIn.keys, ?_, rfl, ⟨h2.sorted, rfl, ?_⟩, hmem, ?_, ?_, ?_, h10⟩
  · unfold Op.newJoin
    rw [if_neg (by omega), h1]
    rfl
  · intro p hp
    obtain ⟨k, a, b, rfl⟩ := (h2.keys p).1 hp
    exact ⟨_, h2.find k a b, rfl⟩
  · exact List.Pairwise.imp (fun h => strLt_ne h) h2.sorted
  · intro h
    have := h2.length
    simp only [Map.keys, List.map_eq_nil_iff] at h
    rw [h] at this; simp at this; omega
  · intro h
    obtain ⟨k, _, _, hk⟩ := (h2.keys []).1 h
    exact iPort_ne_nil k hk.symm

theorem atTimes_append {a b : List UInt64} (h : (a ++ b).Pairwise (· < ·)) {s : List (Msg V)} (hs : Increasing s) :
    atTimes (a ++ b) s = atTimes a s ++ atTimes b s := by
  apply msgs_ext (hs.filter _)
  · unfold Increasing
    rw [List.pairwise_append]
    refine ⟨hs.filter _, hs.filter _, ?_⟩
    intro x hx y hy
    simp only [atTimes, List.mem_filter, List.contains_iff_mem] at hx hy
    exact (List.pairwise_append.1 h).2.2 _ hx.2 _ hy.2
  · intro m
    simp only [atTimes, List.mem_append, List.mem_filter, List.contains_iff_mem]
    constructor
    · rintro ⟨h1, h2 | h2⟩
      · exact Or.inl ⟨h1, h2⟩
      · exact Or.inr ⟨h1, h2⟩
    · rintro (⟨h1, h2⟩ | ⟨h1, h2⟩)
      · exact ⟨h1, Or.inl h2⟩
      · exact ⟨h1, Or.inr h2⟩

theorem sum_sentTo (ps : List Str) (hnd : ps.Nodup) (as : List (Act V)) : (ps.map fun p => (sentTo p as).length).sum ≤ as.length := by
  induction as with
  | nil =>
    have : (ps.map fun p => (sentTo p ([] : List (Act V))).length) = ps.map fun _ => 0 := rfl
    rw [this]
    clear this hnd
    induction ps with
    | nil => simp
    | cons p ps ih => simp
  | cons a as ih =>
    cases a with
    | recvData q m =>
      have key : ∀ ps : List Str, ps.Nodup → (ps.map fun p => (sentTo p (.recvData q m :: as)).length).sum ≤
          (ps.map fun p => (sentTo p as).length).sum + (if q ∈ ps then 1 else 0) := by
        intro ps
        induction ps with
        | nil => simp
        | cons p ps ih2 =>
          intro hnd
          rw [List.nodup_cons] at hnd
          have := ih2 hnd.2
          simp only [List.map_cons, List.sum_cons, sentTo_recv] at this ⊢
          by_cases he : q = p
          · subst he
            rw [if_neg hnd.1] at this
            simp only [if_true, List.length_cons, List.mem_cons, true_or]
            omega
          · simp only [he, if_false, List.mem_cons, false_or]
            omega
      have := key ps hnd
      simp only [List.length_cons]
      split at this <;> omega
    | recvCtrl q m => simp only [List.length_cons]; exact Nat.le_succ_of_le ih
    | execData => simp only [List.length_cons]; exact Nat.le_succ_of_le ih
    | execCtrl => simp only [List.length_cons]; exact Nat.le_succ_of_le ih

/-- After enough further executions no match is buffered. -/
theorem drained {K : Kind V} (hK : K.isJoin = true) {ps : List Str} (hps : ps ≠ []) (hnil : [] ∉ ps) (hnd : ps.Nodup) {F : (Str → Msg V) → OpMsg V}
    (hF : Emits K ps F) {o : Op V} (hk : o.kind = K) (hb : Bufs ps o (fun _ => [])) (as : List (Act V)) (hv : ∀ a ∈ as, DataOnly ps a)
    (hinc : ∀ p ∈ ps, Increasing (sentTo p as)) {qs : List Str} (hqs : ∀ p, p ∈ qs ↔ p ∈ ps) (k : Nat) (hkk : as.length ≤ k) :
    commonTimes (qs.map (buffered (after o (as ++ List.replicate k .execData)))) = [] := by
  have h0 : Inv K ps o (fun _ => []) (fun _ => []) [] :=
    ⟨hk, hb, fun _ _ => List.Pairwise.nil, fun p _ => ⟨[], rfl, by simp, List.Sublist.refl _⟩, by simp⟩
  obtain ⟨outs, D', T', h1, h2, h3, h4⟩ := run hK hps hnil hF as h0 hv (by simpa using hinc)
  obtain ⟨p, hp, he⟩ := drain hK hps hF k h2 (by
    right
    have hle : ∀ ps : List Str, (∀ p ∈ ps, (D' p).length ≤ (sentTo p as).length) →
        (ps.map fun p => (D' p).length).sum ≤ (ps.map fun p => (sentTo p as).length).sum := by
      intro ps
      induction ps with
      | nil => simp
      | cons p ps ih =>
        intro h
        have h1 := h p (by simp)
        have h2 := ih fun q hq => h q (List.mem_cons_of_mem _ hq)
        simp only [List.map_cons, List.sum_cons]
        omega
    have h5 := hle ps (by
      intro p hp
      obtain ⟨C, e1, _⟩ := h2.split p hp
      have := congrArg List.length e1
      simp only [List.nil_append, List.length_append] at this
      omega)
    have h6 := sum_sentTo ps hnd as
    omega)
  rw [after_append]
  apply List.eq_nil_iff_forall_not_mem.2
  intro t ht
  obtain ⟨m, hm, _⟩ := (mem_commonTimes.1 ht).2 _ (List.mem_map.2 ⟨p, (hqs p).2 hp, rfl⟩)
  rw [he] at hm
  simp at hm

theorem mem_iPorts {n : Nat} {p : Str} : p ∈ iPorts n ↔ IsPort iPort n p := by
  simp only [iPorts, List.mem_map, List.mem_range]
  constructor
  · rintro ⟨k, a, rfl⟩; exact ⟨k + 1, by omega, by omega, rfl⟩
  · rintro ⟨k, a, b, rfl⟩; exact ⟨k - 1, by omega, by rw [Nat.sub_add_cancel a]⟩

/-- The answer of a Join to a match, seen from outside. -/
theorem joinOut_spec {cm : Map Str} {n : Nat} (hcm : ∀ k, 1 ≤ k → k ≤ n → cm.find? (iPort k) = some (oPort k)) {ps : List Str}
    (hnd : ps.Nodup) (hps : ∀ p, p ∈ ps ↔ p ∈ iPorts n) (h : Str → Msg V) :
    (∀ k, 1 ≤ k → k ≤ n → Map.find? (joinOut cm ps h) (oPort k) = some [h (iPort k)]) ∧ ∀ q ∈ Map.keys (joinOut cm ps h), IsPort oPort n q := by
  obtain ⟨h1, h2⟩ := joinOut_find hcm h ps hnd (fun p hp => mem_iPorts.1 ((hps p).1 hp)) [] (fun _ _ => rfl)
  refine ⟨?_, ?_⟩
  · intro k hk1 hk2
    unfold joinOut
    rw [h1 k hk1 hk2, if_pos]
    exact (hps _).2 (mem_iPorts.2 ⟨k, hk1, hk2, rfl⟩)
  · intro q hq
    rcases h2 q hq with h | h
    · simp [Map.keys] at h
    · exact h

end Sync
end Rtbot
