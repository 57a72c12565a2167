import Verif.Lemmas.OrderBase

/-! # Operators emit in the order of time: operators that consume their buffers -/

set_option linter.unusedSectionVars false

namespace Rtbot
open Spec
variable {V : Type} [Num V]

namespace Order
open Times

theorem inc_times {l : List (Msg V)} : Increasing l ↔ (l.map Msg.time).Pairwise (· < ·) := by
  unfold Increasing
  rw [List.pairwise_map]

/-- Every emitted message carries the time of a message taken from the front part of a buffer, which is never used again. -/
theorem consume {o0 : Op V} {q : Str} {P : Op V → Prop} {buf : Op V → List (Msg V)} {A : List (Act V) → List (Msg V)}
    (hA : ∀ as bs, A (as ++ bs) = A as ++ A bs) (hP0 : P o0) (hb0 : buf o0 = [])
    (hstep : ∀ o a, P o → P (act o a).1 ∧ ∃ ys, ys.map Msg.time = (msgsOn q (outOf (act o a).2)).map Msg.time ∧ (ys ++ buf (act o a).1).Sublist (buf o ++ A [a]))
    (as : List (Act V)) (hinc : Increasing (A as)) : Increasing (sent q (results o0 as)) := by
  have main : P (after o0 as) ∧ ∃ C, C.map Msg.time = (sent q (results o0 as)).map Msg.time ∧ (C ++ buf (after o0 as)).Sublist (A as) := by
    clear hinc
    induction as using List.reverseRecOn with
    | nil => exact ⟨hP0, [], rfl, by simp only [after, List.nil_append]; rw [hb0]; exact List.nil_sublist _⟩
    | append_singleton as a ih =>
      obtain ⟨h1, C, h2, h3⟩ := ih
      obtain ⟨h4, ys, h5, h6⟩ := hstep _ a h1
      rw [after_snoc]
      refine ⟨h4, C ++ ys, ?_, ?_⟩
      · rw [sent_snoc, List.map_append, List.map_append, h2, h5]
      · rw [hA, List.append_assoc]
        refine (List.Sublist.append (List.Sublist.refl C) h6).trans ?_
        rw [← List.append_assoc]
        exact List.Sublist.append h3 (List.Sublist.refl _)
  obtain ⟨_, C, h2, h3⟩ := main
  rw [inc_times, ← h2, ← inc_times]
  exact List.Pairwise.sublist ((List.sublist_append_left _ _).trans h3) hinc

/-- The messages buffered on port `p`. -/
def bufOf (m : Map (Inp V)) (p : Str) : List (Msg V) := match m.find? p with
  | some i => i.data
  | none => []

theorem bufOf_some {m : Map (Inp V)} {p : Str} {i : Inp V} (h : m.find? p = some i) : bufOf m p = i.data := by rw [bufOf, h]

theorem bufOf_put (m : Map (Inp V)) (p p' : Str) (i : Inp V) : bufOf (m.put p i) p' = if p' = p then i.data else bufOf m p' := by
  unfold bufOf
  by_cases h : p' = p
  · rw [h, Map.find?_put_self, if_pos rfl]
  · rw [Map.find?_put_ne _ _ (fun e => h e), if_neg h]

theorem receive_sub {i i' : Inp V} {m : Msg V} (hr : i.receive m = .ok i') : i'.data.Sublist (i.data ++ [m]) := by
  unfold Inp.receive at hr
  split at hr
  · unfold Inp.popSum at hr
    split at hr
    · cases hr
    · next i1 he =>
      split at he
      · cases he
      · next a rest hd =>
        cases he
        cases hr
        simp only [Inp.push, hd, List.cons_append]
        exact List.sublist_cons_self _ _
  · split at hr
    · cases hr
    · cases hr
      exact List.Sublist.refl _

theorem resolveCtrl_ne {c : Core V} {p q : Str} {i : Inp V} (hi : c.ctrlIn.find? p = some i) (h : c.resolveCtrl q = p) :
    q = p ∨ (q = [] ∧ c.ctrlIn.length = 1) := by
  unfold Core.resolveCtrl at h
  split at h
  · next hq =>
    split at h
    · next hd => exact Or.inr ⟨hq, by rw [hd]; rfl⟩
    · exact Or.inl h
  · exact Or.inl h

theorem addressed_one {s : Bool} {p q : Str} {m : Msg V} (h : q = p ∨ (q = [] ∧ s = true)) : addressed s p [.recvData q m] = [m] := by
  simp only [addressed, List.filterMap_cons, if_pos h, List.filterMap_nil]

theorem addressedCtrl_one {s : Bool} {p q : Str} {m : Msg V} (h : q = p ∨ (q = [] ∧ s = true)) : addressedCtrl s p [.recvCtrl q m] = [m] := by
  simp only [addressedCtrl, List.filterMap_cons, if_pos h, List.filterMap_nil]

theorem put_sub {m : Map (Inp V)} {p p' : Str} {i i' : Inp V} {x : Msg V} {A : List (Msg V)} (hi : m.find? p' = some i) (hs : i'.data.Sublist (i.data ++ [x]))
    (hA : p' = p → A = [x]) : (bufOf (m.put p' i') p).Sublist (bufOf m p ++ A) := by
  rw [bufOf_put]
  split
  · next h =>
    subst h
    rw [bufOf_some hi, hA rfl]
    exact hs
  · exact List.sublist_append_left _ _

theorem recvData_sub {o o' : Op V} {m : Msg V} {q : Str} (hk : NotAR o.kind) (hr : o.recvData m q = .ok o') (p : Str) :
    (bufOf o'.core.dataIn p).Sublist (bufOf o.core.dataIn p ++ addressed (o.core.dataIn.length == 1) p [.recvData q m]) ∧ o'.core.ctrlIn = o.core.ctrlIn := by
  obtain ⟨c, hc, rfl⟩ := recvData_cases' hr hk
  dsimp only
  have hres : ∀ {i}, o.core.dataIn.find? (o.core.resolveData q) = some i → o.core.resolveData q = p →
      addressed (o.core.dataIn.length == 1) p [.recvData q m] = [m] := by
    intro i hi h
    refine addressed_one ?_
    by_contra hx
    rw [h] at hi
    exact Buffers.resolve_ne hi (fun h' => hx (h'.imp id fun ⟨a, b⟩ => ⟨a, by rw [b]; rfl⟩)) h
  rcases hc with hc | hc | hc
  · unfold Core.receiveDataJoin at hc
    split at hc
    · cases hc
    · split at hc
      · cases hc
      · next i hi =>
        cases hc
        exact ⟨put_sub hi (List.Sublist.refl _) fun h => addressed_one (Or.inl h), rfl⟩
  · unfold Core.receiveDataDemux at hc
    dsimp only at hc
    split at hc
    · cases hc
    · next i hi =>
      cases hc
      exact ⟨put_sub hi (List.Sublist.refl _) (hres hi), rfl⟩
  · unfold Core.receiveDataBase at hc
    dsimp only at hc
    split at hc
    · cases hc
    · next i hi =>
      obtain ⟨i', hi', hc⟩ := bind_eq_ok.1 hc
      cases hc
      exact ⟨put_sub hi (receive_sub hi') (hres hi), rfl⟩

theorem recvCtrl_sub {o o' : Op V} {m : Msg V} {q : Str} (hr : o.recvCtrl m q = .ok o') (p : Str) :
    (bufOf o'.core.ctrlIn p).Sublist (bufOf o.core.ctrlIn p ++ addressedCtrl (o.core.ctrlIn.length == 1) p [.recvCtrl q m]) ∧ o'.core.dataIn = o.core.dataIn := by
  obtain ⟨c, hc, rfl⟩ := recvCtrl_cases hr
  dsimp only
  have hres : ∀ {i}, o.core.ctrlIn.find? (o.core.resolveCtrl q) = some i → o.core.resolveCtrl q = p →
      addressedCtrl (o.core.ctrlIn.length == 1) p [.recvCtrl q m] = [m] := by
    intro i hi h
    rw [h] at hi
    exact addressedCtrl_one ((resolveCtrl_ne hi h).imp id fun ⟨a, b⟩ => ⟨a, by rw [b]; rfl⟩)
  rcases hc with hc | hc
  · unfold Core.receiveCtrlDemux at hc
    dsimp only at hc
    split at hc
    · cases hc
    · next i hi =>
      cases hc
      exact ⟨put_sub hi (List.Sublist.refl _) (hres hi), rfl⟩
  · unfold Core.receiveCtrlBase at hc
    dsimp only at hc
    split at hc
    · cases hc
    · next i hi =>
      obtain ⟨i', hi', hc⟩ := bind_eq_ok.1 hc
      cases hc
      exact ⟨put_sub hi (receive_sub hi') (hres hi), rfl⟩

theorem len_ctrl_fresh {c c' : Core V} (h : c'.fresh = c.fresh) : c'.ctrlIn.length = c.ctrlIn.length := by
  have := congrArg (fun x : Core V => x.ctrlIn.length) h
  simpa [Core.fresh, freshMap] using this

/-- `consume` for a data port, given what the execution steps do. -/
theorem consume_data {o0 : Op V} (hb : Built o0) (hn : NotAR o0.kind) {q p : Str}
    (hexec : ∀ o, o.fresh = o0.fresh → ∀ a, a = .execData ∨ a = .execCtrl →
      ∃ ys, ys.map Msg.time = (msgsOn q (outOf (act o a).2)).map Msg.time ∧ (ys ++ bufOf (act o a).1.core.dataIn p).Sublist (bufOf o.core.dataIn p))
    (as : List (Act V)) (hinc : Increasing (addressed (o0.core.dataIn.length == 1) p as)) : Increasing (sent q (results o0 as)) := by
  have hw : o0.core.WF := ⟨hb.new.core.data, hb.new.core.ctrl⟩
  refine consume (P := fun o => o.fresh = o0.fresh) (buf := fun o => bufOf o.core.dataIn p) (A := addressed (o0.core.dataIn.length == 1) p)
    (addressed_append _ p) rfl ?_ ?_ as hinc
  · unfold bufOf
    split
    · next i hi => obtain ⟨mx, h⟩ := hb.new.core.dataEmpty _ (Sync.mem_of_find hi); exact congrArg Inp.data h
    · rfl
  · intro o a hP
    have hw' : o.core.WF := Core.WF.of_fresh (congrArg Op.core hP) hw
    refine ⟨(act_fresh o hw' a).trans hP, ?_⟩
    have hlen : o.core.dataIn.length = o0.core.dataIn.length := Buffers.len_fresh (congrArg Op.core hP)
    cases a with
    | recvData p' m =>
      simp only [act]
      cases ho : o.recvData m p' with
      | error e => exact ⟨[], rfl, List.sublist_append_left _ _⟩
      | ok o' =>
        refine ⟨[], rfl, ?_⟩
        rw [← hlen]
        exact (recvData_sub (notAR_fresh (congrArg Op.kind hP) hn) ho p).1
    | recvCtrl p' m =>
      simp only [act]
      cases ho : o.recvCtrl m p' with
      | error e => exact ⟨[], rfl, List.sublist_append_left _ _⟩
      | ok o' =>
        refine ⟨[], rfl, ?_⟩
        dsimp only
        rw [(recvCtrl_sub ho p).2]
        exact List.sublist_append_left _ _
    | execData =>
      obtain ⟨ys, h1, h2⟩ := hexec o hP .execData (Or.inl rfl)
      exact ⟨ys, h1, h2.trans (List.sublist_append_left _ _)⟩
    | execCtrl =>
      obtain ⟨ys, h1, h2⟩ := hexec o hP .execCtrl (Or.inr rfl)
      exact ⟨ys, h1, h2.trans (List.sublist_append_left _ _)⟩

/-- `consume` for a control port. -/
theorem consume_ctrl {o0 : Op V} (hb : Built o0) (hn : NotAR o0.kind) {q p : Str}
    (hexec : ∀ o, o.fresh = o0.fresh → ∀ a, a = .execData ∨ a = .execCtrl →
      ∃ ys, ys.map Msg.time = (msgsOn q (outOf (act o a).2)).map Msg.time ∧ (ys ++ bufOf (act o a).1.core.ctrlIn p).Sublist (bufOf o.core.ctrlIn p))
    (as : List (Act V)) (hinc : Increasing (addressedCtrl (o0.core.ctrlIn.length == 1) p as)) : Increasing (sent q (results o0 as)) := by
  have hw : o0.core.WF := ⟨hb.new.core.data, hb.new.core.ctrl⟩
  refine consume (P := fun o => o.fresh = o0.fresh) (buf := fun o => bufOf o.core.ctrlIn p) (A := addressedCtrl (o0.core.ctrlIn.length == 1) p)
    (addressedCtrl_append _ p) rfl ?_ ?_ as hinc
  · unfold bufOf
    split
    · next i hi => obtain ⟨mx, h⟩ := hb.new.core.ctrlEmpty _ (Sync.mem_of_find hi); exact congrArg Inp.data h
    · rfl
  · intro o a hP
    have hw' : o.core.WF := Core.WF.of_fresh (congrArg Op.core hP) hw
    refine ⟨(act_fresh o hw' a).trans hP, ?_⟩
    have hlen : o.core.ctrlIn.length = o0.core.ctrlIn.length := len_ctrl_fresh (congrArg Op.core hP)
    cases a with
    | recvData p' m =>
      simp only [act]
      cases ho : o.recvData m p' with
      | error e => exact ⟨[], rfl, List.sublist_append_left _ _⟩
      | ok o' =>
        refine ⟨[], rfl, ?_⟩
        dsimp only
        rw [(recvData_sub (notAR_fresh (congrArg Op.kind hP) hn) ho p).2]
        exact List.sublist_append_left _ _
    | recvCtrl p' m =>
      simp only [act]
      cases ho : o.recvCtrl m p' with
      | error e => exact ⟨[], rfl, List.sublist_append_left _ _⟩
      | ok o' =>
        refine ⟨[], rfl, ?_⟩
        rw [← hlen]
        exact (recvCtrl_sub ho p).1
    | execData =>
      obtain ⟨ys, h1, h2⟩ := hexec o hP .execData (Or.inl rfl)
      exact ⟨ys, h1, h2.trans (List.sublist_append_left _ _)⟩
    | execCtrl =>
      obtain ⟨ys, h1, h2⟩ := hexec o hP .execCtrl (Or.inr rfl)
      exact ⟨ys, h1, h2.trans (List.sublist_append_left _ _)⟩

/-! ## Join, BinaryJoin and Linear -/

/-- At most one message for each port, all with time `t`. -/
def AllAt (t : UInt64) (out : OpMsg V) : Prop := ∀ e ∈ out, ∃ x, e.2 = [x] ∧ x.time = t

theorem AllAt.on {t : UInt64} {out : OpMsg V} (h : AllAt t out) (q : Str) : msgsOn q out = [] ∨ ∃ x, msgsOn q out = [x] ∧ x.time = t := by
  unfold msgsOn
  split
  · next ms hms => exact Or.inr (h _ (Sync.mem_of_find hms))
  · exact Or.inl rfl

theorem AllAt.nil (t : UInt64) : AllAt t ([] : OpMsg V) := by intro e he; cases he

theorem AllAt.single {t : UInt64} {m : Msg V} (h : m.time = t) : AllAt t (single m) := by
  intro e he
  rw [List.mem_singleton.1 he]
  exact ⟨m, rfl, h⟩

theorem AllAt.emplace {t : UInt64} {out : OpMsg V} {m : Msg V} (h : AllAt t out) (hm : m.time = t) (q : Str) : AllAt t (Map.emplace out q [m]) := by
  intro e he
  rcases mem_emplace he with h' | rfl
  · exact h e h'
  · exact ⟨m, rfl, hm⟩

theorem joinMessages_at {t : UInt64} (cm : Map Str) (m : Map (Inp V)) : ∀ {out r}, joinMessages cm m out = .ok r →
    (∀ e ∈ m, ∀ x xs, e.2.data = x :: xs → x.time = t) → AllAt t out → AllAt t r := by
  induction m with
  | nil => intro out r h _ ho; cases h; exact ho
  | cons e m ih =>
    obtain ⟨p, i⟩ := e
    intro out r h hT ho
    unfold joinMessages at h
    split at h
    · cases h
    · cases h
    · next x xs q hd _ => exact ih h (fun e he => hT e (List.mem_cons_of_mem _ he)) (ho.emplace (hT (p, i) List.mem_cons_self x xs hd) q)

theorem linearLoop_at {t : UInt64} (m : Map (Inp V)) : ∀ {cs : List V} {out r : Msg V}, linearLoop m cs out = .ok r →
    (∀ e ∈ m, ∀ x xs, e.2.data = x :: xs → x.time = t) → (m ≠ [] ∨ out.time = t) → r.time = t := by
  induction m with
  | nil =>
    intro cs out r h _ ho
    cases h
    exact ho.resolve_left fun h => h rfl
  | cons e m ih =>
    obtain ⟨p, i⟩ := e
    intro cs out r h hT ho
    unfold linearLoop at h
    split at h
    · cases h
    · cases h
    · next x xs a as hd => exact ih h (fun e he => hT e (List.mem_cons_of_mem _ he)) (Or.inr (hT (p, i) List.mem_cons_self x xs hd))

theorem popAll_buf (m : Map (Inp V)) : ∀ {m'}, popAll m = .ok m' → ∀ p, bufOf m' p = (bufOf m p).tail := by
  induction m with
  | nil => intro m' h p; cases h; rfl
  | cons e m ih =>
    obtain ⟨p, i⟩ := e
    intro m' h p'
    obtain ⟨a, rest, ms, hd, hms, rfl⟩ := popAll_cons h
    unfold bufOf
    rw [Map.find?_cons, Map.find?_cons]
    by_cases hp : p = p'
    · rw [if_pos hp, if_pos hp]
      dsimp only
      rw [hd]
      rfl
    · rw [if_neg hp, if_neg hp]
      exact ih hms p'

theorem joinProcess_at {t : UInt64} {o : Op V} {out : OpMsg V} (h : joinProcess o = .ok out) (hne : o.core.dataIn ≠ [])
    (hT : ∀ e ∈ o.core.dataIn, ∃ x xs, e.2.data = x :: xs ∧ x.time = t) : AllAt t out := by
  have hT' : ∀ e ∈ o.core.dataIn, ∀ x xs, e.2.data = x :: xs → x.time = t := by
    intro e he x xs hx
    obtain ⟨y, ys, h1, h2⟩ := hT e he
    rw [h1] at hx
    cases hx
    exact h2
  unfold joinProcess at h
  split at h
  · exact joinMessages_at _ _ h hT' (AllAt.nil t)
  · unfold binaryMessages at h
    obtain ⟨m1, hm1, h⟩ := bind_eq_ok.1 h
    obtain ⟨m0, hm0, h⟩ := bind_eq_ok.1 h
    have ht : m0.time = t := by
      unfold Core.dataMsg at hm0
      split at hm0
      · cases hm0
      · next i hi =>
        obtain ⟨x, xs, h1, h2⟩ := hT _ (Sync.mem_of_find hi)
        dsimp only at h1
        rw [h1] at hm0
        simp only [List.getElem?_cons_zero] at hm0
        cases hm0
        exact h2
    split at h
    · cases h; exact AllAt.nil t
    · cases h; exact AllAt.single ht
  · obtain ⟨m, hm, h⟩ := bind_eq_ok.1 h
    cases h
    exact AllAt.single (linearLoop_at _ hm hT' (Or.inl hne))
  · cases h; exact AllAt.nil t

theorem dropT_sub (t : UInt64) (l : List (Msg V)) : (Sync.dropT t l).Sublist l := by
  obtain ⟨d, h, _⟩ := Sync.dropT_split t l
  conv_rhs => rw [h]
  exact List.sublist_append_right _ _

/-- The execution takes the times it emits on `q` from the front part of a buffer. -/
def Eats (q : Str) (buf : Op V → List (Msg V)) (o : Op V) : Res (Op V) (OpMsg V) → Prop
  | .ok out o' => ∃ ys, ys.map Msg.time = (msgsOn q out).map Msg.time ∧ (ys ++ buf o').Sublist (buf o)
  | .err _ o' => (buf o').Sublist (buf o)

theorem eats_data {o : Op V} {q p : Str} (h : Eats q (fun o => bufOf o.core.dataIn p) o o.execData) :
    ∃ ys, ys.map Msg.time = (msgsOn q (outOf (act o .execData).2)).map Msg.time ∧ (ys ++ bufOf (act o .execData).1.core.dataIn p).Sublist (bufOf o.core.dataIn p) := by
  simp only [act]
  cases ho : o.execData with
  | ok out o' => rw [ho] at h; exact h
  | err e o' => rw [ho] at h; exact ⟨[], rfl, h⟩

theorem eats_data' {o : Op V} {q p : Str} (h : Eats q (fun o => bufOf o.core.dataIn p) o o.execCtrl) :
    ∃ ys, ys.map Msg.time = (msgsOn q (outOf (act o .execCtrl).2)).map Msg.time ∧ (ys ++ bufOf (act o .execCtrl).1.core.dataIn p).Sublist (bufOf o.core.dataIn p) := by
  simp only [act]
  cases ho : o.execCtrl with
  | ok out o' => rw [ho] at h; exact h
  | err e o' => rw [ho] at h; exact ⟨[], rfl, h⟩

theorem eats_ctrl {o : Op V} {q p : Str} (h : Eats q (fun o => bufOf o.core.ctrlIn p) o o.execData) :
    ∃ ys, ys.map Msg.time = (msgsOn q (outOf (act o .execData).2)).map Msg.time ∧ (ys ++ bufOf (act o .execData).1.core.ctrlIn p).Sublist (bufOf o.core.ctrlIn p) := by
  simp only [act]
  cases ho : o.execData with
  | ok out o' => rw [ho] at h; exact h
  | err e o' => rw [ho] at h; exact ⟨[], rfl, h⟩

theorem eats_ctrl' {o : Op V} {q p : Str} (h : Eats q (fun o => bufOf o.core.ctrlIn p) o o.execCtrl) :
    ∃ ys, ys.map Msg.time = (msgsOn q (outOf (act o .execCtrl).2)).map Msg.time ∧ (ys ++ bufOf (act o .execCtrl).1.core.ctrlIn p).Sublist (bufOf o.core.ctrlIn p) := by
  simp only [act]
  cases ho : o.execCtrl with
  | ok out o' => rw [ho] at h; exact h
  | err e o' => rw [ho] at h; exact ⟨[], rfl, h⟩

theorem execJoin_consume (o : Op V) (q p : Str) (hp : o.core.dataIn.has p = true) (hs : o.core.dataIn.Sorted) :
    Eats q (fun o => bufOf o.core.dataIn p) o o.execJoin := by
  unfold Op.execJoin
  split
  · exact List.Sublist.refl _
  · next p0 i0 rest hd =>
    split
    · exact ⟨[], rfl, List.Sublist.refl _⟩
    · next m0 ms0 hm0 =>
      rcases Sync.joinLatest_spec o.core.dataIn (p0, m0.time) with ⟨hj, _⟩ | ⟨ref, t, hj, hle, hfr, href⟩
      · rw [hj]; exact ⟨[], rfl, List.Sublist.refl _⟩
      · rw [hj]
        dsimp only
        generalize hdr : (o.core.dataIn.map fun (p, i) => (p, if p = ref then i else i.dropOlder t)) = dropped
        have hfm : ∀ p', Map.find? dropped p' = (o.core.dataIn.find? p').map fun i => if p' = ref then i else i.dropOlder t := by
          intro p'
          rw [← hdr]
          exact Sync.find_map o.core.dataIn (fun p i => if p = ref then i else i.dropOlder t) p'
        have hsub : ∀ p', (bufOf dropped p').Sublist (bufOf o.core.dataIn p') := by
          intro p'
          unfold bufOf
          rw [hfm]
          cases o.core.dataIn.find? p' with
          | none => exact List.Sublist.refl _
          | some i =>
            simp only [Option.map_some]
            split
            · exact List.Sublist.refl _
            · rw [Sync.dropOlder_data]; exact dropT_sub t _
        split
        · next hready =>
          have hfront : ∀ e ∈ dropped, ∃ x xs, e.2.data = x :: xs ∧ x.time = t := by
            intro e he
            have h1 := List.all_eq_true.1 hready e he
            obtain ⟨p', i'⟩ := e
            dsimp only at h1 ⊢
            split at h1
            · cases h1
            · next x xs hx =>
              refine ⟨x, xs, hx, ?_⟩
              have h2 : ¬ t < x.time := by simpa using h1
              rw [← hdr] at he
              obtain ⟨⟨p2, i2⟩, he2, heq⟩ := List.mem_map.1 he
              simp only [Prod.mk.injEq] at heq
              obtain ⟨rfl, rfl⟩ := heq
              by_cases hr : p2 = ref
              · rw [if_pos hr] at hx
                have hat : ∀ y ys, i2.data = y :: ys → y.time = t := by
                  rcases href with h | ⟨e, he, h3, y, ys, h4, h5⟩
                  · cases h
                    have : (p0, i0) ∈ o.core.dataIn := by rw [hd]; exact List.mem_cons_self
                    have h6 := Sync.find_of_mem hs this
                    rw [← hr, Sync.find_of_mem hs he2] at h6
                    cases h6
                    intro y ys hy
                    rw [hm0] at hy
                    cases hy
                    rfl
                  · obtain ⟨p3, i3⟩ := e
                    dsimp only at h3 h4
                    have h6 := Sync.find_of_mem hs he
                    rw [h3, ← hr, Sync.find_of_mem hs he2] at h6
                    cases h6
                    intro z zs hz
                    rw [h4] at hz
                    cases hz
                    exact h5
                exact hat x xs hx
              · rw [if_neg hr, Sync.dropOlder_data] at hx
                have h3 := Sync.dropT_head hx
                exact UInt64.le_antisymm (UInt64.not_lt.1 h2) (UInt64.not_lt.1 h3)
          split
          · exact hsub p
          · next out hout =>
            split
            · exact hsub p
            · next popped hpop =>
              have hat := joinProcess_at hout (by dsimp only; rw [← hdr, hd]; simp) hfront
              simp only [Eats]
              rw [popAll_buf _ hpop]
              obtain ⟨i, hi⟩ := Option.isSome_iff_exists.1 (by rw [Map.has_iff, ← Map.find?_isSome_iff] at hp; exact hp)
              have hi' : Map.find? dropped p = some (if p = ref then i else i.dropOlder t) := by rw [hfm, hi]; rfl
              obtain ⟨x, xs, h1, h2⟩ := hfront _ (Sync.mem_of_find hi')
              have hbuf : bufOf dropped p = x :: xs := by rw [bufOf_some hi']; exact h1
              rcases hat.on q with h | ⟨y, h, hy⟩
              · refine ⟨[], by rw [h], ?_⟩
                exact (List.tail_sublist _).trans (hsub p)
              · refine ⟨[x], by rw [h]; simp [h2, hy], ?_⟩
                have := hsub p
                rw [hbuf] at this ⊢
                exact this
        · exact ⟨[], rfl, hsub p⟩

theorem keys_fresh {o o0 : Op V} (h : o.fresh = o0.fresh) : o.core.dataIn.keys = o0.core.dataIn.keys ∧ o.core.ctrlIn.keys = o0.core.ctrlIn.keys := by
  have h1 : freshMap o.core.dataIn = freshMap o0.core.dataIn := congrArg (fun x : Op V => x.core.dataIn) h
  have h2 : freshMap o.core.ctrlIn = freshMap o0.core.ctrlIn := congrArg (fun x : Op V => x.core.ctrlIn) h
  have e : ∀ m : Map (Inp V), (freshMap m).keys = m.keys := by intro m; simp [freshMap, Map.keys]
  exact ⟨by rw [← e, h1, e], by rw [← e, h2, e]⟩

theorem join_run {o0 : Op V} (hb : Built o0) (hk : o0.kind.isJoin = true) {p : Str} (hp : o0.core.dataIn.has p = true) (as : List (Act V))
    (hinc : Increasing (addressed (o0.core.dataIn.length == 1) p as)) (q : Str) : Increasing (sent q (results o0 as)) := by
  have hw : o0.core.WF := ⟨hb.new.core.data, hb.new.core.ctrl⟩
  refine consume_data hb (by cases h : o0.kind <;> first | trivial | (rw [h] at hk; cases hk)) ?_ as hinc
  intro o hf a ha
  have hkind : o.kind.isJoin = true := by
    have h2 : o.kind.fresh = o0.kind.fresh := congrArg Op.kind hf
    have e : ∀ k : Kind V, k.fresh.isJoin = k.isJoin := by intro k; cases k <;> rfl
    rw [← e, h2, e]
    exact hk
  have hw' : o.core.WF := Core.WF.of_fresh (congrArg Op.core hf) hw
  have hp' : o.core.dataIn.has p = true := by
    rw [Map.has_iff] at hp ⊢
    rw [(keys_fresh hf).1]
    exact hp
  rcases ha with rfl | rfl
  · have hx : o.execData = o.execJoin := by
      unfold Op.execData
      cases h : o.kind <;> rw [h] at hkind <;> first | rfl | cases hkind
    have := execJoin_consume o q p hp' hw'.1
    rw [← hx] at this
    exact eats_data this
  · have hx : o.execCtrl = .ok [] o := by
      unfold Op.execCtrl
      cases h : o.kind <;> rw [h] at hkind <;> first | rfl | cases hkind
    simp only [act, hx]
    exact ⟨[], rfl, List.Sublist.refl _⟩

/-! ## Demultiplexer -/

theorem demuxMessages_at (cm : Map Str) (a : Msg V) (m : Map (Inp V)) : ∀ {out r}, demuxMessages cm a m out = .ok r → AllAt a.time out → AllAt a.time r := by
  induction m with
  | nil => intro out r h ho; cases h; exact ho
  | cons e m ih =>
    obtain ⟨p, i⟩ := e
    intro out r h ho
    unfold demuxMessages at h
    split at h
    · cases h
    · split at h
      · split at h
        · cases h
        · next q _ => exact ih h (ho.emplace rfl q)
      · exact ih h ho

theorem execDemux_consume (o : Op V) (cm : Map Str) (q p : Str) (hk : o.core.dataIn.keys = [p]) :
    Eats q (fun o => bufOf o.core.dataIn p) o (o.execDemux cm) := by
  unfold Op.execDemux
  split
  · next p' i hd =>
    have hpp : p' = p := by
      rw [hd] at hk
      simpa [Map.keys] using hk
    subst hpp
    split
    · exact ⟨[], rfl, List.Sublist.refl _⟩
    · next m ms hdata =>
      dsimp only
      split
      · exact List.Sublist.refl _
      · split
        · split
          · exact List.Sublist.refl _
          · next out hout =>
            split
            · exact List.Sublist.refl _
            · next ctrl' hpop =>
              have hb1 : bufOf o.core.dataIn p' = m :: ms := by rw [bufOf_some (find_sole hd)]; exact hdata
              simp only [Eats]
              have hb2 : bufOf [(p', { i with data := ms, sum := i.sum -. m.value })] p' = ms := by
                rw [bufOf, Map.find?_cons, if_pos rfl]
              rw [hb1, hb2]
              rcases (demuxMessages_at cm m _ hout (AllAt.nil _)).on q with h | ⟨y, h, hy⟩
              · exact ⟨[], by rw [h], List.sublist_cons_self _ _⟩
              · exact ⟨[m], by rw [h]; simp [hy], List.Sublist.refl _⟩
        · exact ⟨[], rfl, List.Sublist.refl _⟩
  · exact List.Sublist.refl _

theorem demux_run {o0 : Op V} (hb : Built o0) {cm : Map Str} (hk : o0.kind = .demux cm) {p : Str} (hp : o0.core.dataIn.keys = [p]) (as : List (Act V))
    (hinc : Increasing (addressed (o0.core.dataIn.length == 1) p as)) (q : Str) : Increasing (sent q (results o0 as)) := by
  refine consume_data hb (by rw [hk]; trivial) ?_ as hinc
  intro o hf a ha
  have hkind : o.kind = .demux cm := by
    have h2 : o.kind.fresh = o0.kind.fresh := congrArg Op.kind hf
    rw [hk] at h2
    cases h4 : o.kind <;> rw [h4] at h2 <;> first | (cases h2; rfl) | cases h2
  have := execDemux_consume o cm q p ((keys_fresh hf).1.trans hp)
  rcases ha with rfl | rfl
  · have hx : o.execData = o.execDemux cm := by unfold Op.execData; rw [hkind]
    rw [← hx] at this
    exact eats_data this
  · have hx : o.execCtrl = o.execDemux cm := by unfold Op.execCtrl; rw [hkind]
    rw [← hx] at this
    exact eats_data' this

/-! ## Variable -/

theorem execVariable_consume (o : Op V) (v : V) (ini : Bool) (q p : Str) (hk : o.core.ctrlIn.keys = [p]) :
    Eats q (fun o => bufOf o.core.ctrlIn p) o (o.execVariable v ini) := by
  unfold Op.execVariable
  split
  · next pd i cp ci hd hc =>
    have hpp : cp = p := by
      rw [hc] at hk
      simpa [Map.keys] using hk
    subst hpp
    split
    · exact ⟨[], rfl, List.Sublist.refl _⟩
    · exact ⟨[], rfl, List.Sublist.refl _⟩
    · next a ms t ts hdata hcd =>
      have hb1 : bufOf o.core.ctrlIn cp = t :: ts := by
        rw [hc, bufOf, Map.find?_cons, if_pos rfl]
        exact hcd
      have hb2 : bufOf [(cp, { ci with data := ts })] cp = ts := by rw [bufOf, Map.find?_cons, if_pos rfl]
      have done : ∀ (x : V), ∃ ys, ys.map Msg.time = (msgsOn q (single ⟨t.time, x⟩ : OpMsg V)).map Msg.time ∧
          (ys ++ bufOf [(cp, { ci with data := ts })] cp).Sublist (bufOf o.core.ctrlIn cp) := by
        intro x
        rw [hb1, hb2, msgsOn_single]
        split
        · exact ⟨[t], rfl, List.Sublist.refl _⟩
        · exact ⟨[], rfl, List.sublist_cons_self _ _⟩
      dsimp only
      split
      · split
        · exact List.Sublist.refl _
        · exact done _
      · split
        · exact done _
        · split
          · exact done _
          · exact ⟨[], rfl, List.Sublist.refl _⟩
  · exact List.Sublist.refl _

theorem variable_run {o0 : Op V} (hb : Built o0) {v : V} {ini : Bool} (hk : o0.kind = .variable v ini) {p : Str} (hp : o0.core.ctrlIn.keys = [p]) (as : List (Act V))
    (hinc : Increasing (addressedCtrl (o0.core.ctrlIn.length == 1) p as)) (q : Str) : Increasing (sent q (results o0 as)) := by
  refine consume_ctrl hb (by rw [hk]; trivial) ?_ as hinc
  intro o hf a ha
  have hkind : ∃ v ini, o.kind = .variable v ini := by
    have h2 : o.kind.fresh = o0.kind.fresh := congrArg Op.kind hf
    rw [hk] at h2
    cases h4 : o.kind <;> rw [h4] at h2 <;> first | exact ⟨_, _, rfl⟩ | cases h2
  obtain ⟨v, ini, hkind⟩ := hkind
  have := execVariable_consume o v ini q p ((keys_fresh hf).2.trans hp)
  rcases ha with rfl | rfl
  · have hx : o.execData = o.execVariable v ini := by unfold Op.execData; rw [hkind]
    rw [← hx] at this
    exact eats_ctrl this
  · have hx : o.execCtrl = o.execVariable v ini := by unfold Op.execCtrl; rw [hkind]
    rw [← hx] at this
    exact eats_ctrl' this

end Order
end Rtbot
