import Verif.Lemmas.Times
import Verif.Lemmas.Buffers
import Verif.Lemmas.Codec
import Verif.Lemmas.SyncRun

/-! # Operators emit in the order of time: general part -/

set_option linter.unusedSectionVars false

namespace Rtbot
open Spec
variable {V : Type} [Num V]

namespace Order
open Times

theorem sent_snoc (q : Str) (o : Op V) (as : List (Act V)) (a : Act V) :
    sent q (results o (as ++ [a])) = sent q (results o as) ++ msgsOn q (outOf (act (after o as) a).2) := by
  rw [Sync.results_append]
  simp only [results, sent, List.flatMap_append, List.flatMap_cons, List.flatMap_nil, List.append_nil]
  congr 1
  cases (act (after o as) a).2 <;> rfl

theorem after_snoc (o : Op V) (as : List (Act V)) (a : Act V) : after o (as ++ [a]) = (act (after o as) a).1 := by
  rw [Sync.after_append]; rfl

theorem addressed_append (s : Bool) (p : Str) (as bs : List (Act V)) : addressed s p (as ++ bs) = addressed s p as ++ addressed s p bs := by
  unfold addressed
  rw [List.filterMap_append]

theorem addressedCtrl_append (s : Bool) (p : Str) (as bs : List (Act V)) : addressedCtrl s p (as ++ bs) = addressedCtrl s p as ++ addressedCtrl s p bs := by
  unfold addressedCtrl
  rw [List.filterMap_append]

theorem msgsOn_nil (q : Str) : msgsOn q ([] : OpMsg V) = [] := rfl

theorem inc_join {a b : List (Msg V)} (ha : Increasing a) (hb : Increasing b) (h : ∀ x ∈ a, ∀ y ∈ b, x.time < y.time) : Increasing (a ++ b) :=
  List.pairwise_append.2 ⟨ha, hb, h⟩

theorem inc_nil : Increasing ([] : List (Msg V)) := List.Pairwise.nil

theorem inc_one (m : Msg V) : Increasing [m] := List.pairwise_singleton _ _

theorem inc_infix {a b : List (Msg V)} (hb : Increasing b) (h : a <:+: b) : Increasing a := List.Pairwise.sublist h.sublist hb

theorem inc_get {h : List (Msg V)} (hi : Increasing h) {i j : Nat} {x y : Msg V} (hx : h[i]? = some x) (hy : h[j]? = some y) (hij : i < j) : x.time < y.time := by
  obtain ⟨h1, rfl⟩ := List.getElem?_eq_some_iff.1 hx
  obtain ⟨h2, rfl⟩ := List.getElem?_eq_some_iff.1 hy
  exact List.pairwise_iff_getElem.1 hi i j h1 h2 hij

/-! ## Sliding windows -/

theorem inv_start {o : Op V} (hb : Built o) (hk : o.kind.isBase = true) {p : Str} {i : Inp V} (hi : o.core.dataIn.find? p = some i) :
    0 < i.max ∧ Buffers.Inv (o.core.dataIn.length == 1) p i.max [] o := by
  have hn := hb.new.core
  obtain ⟨n, hm⟩ := hn.dataEmpty _ (Sync.mem_of_find hi)
  dsimp only at hm
  have hpos : 0 < i.max := by
    rw [hm]
    simp only [Inp.new]
    split
    · decide
    · omega
  refine ⟨hpos, hk, ⟨hn.data, hn.ctrl⟩, by simp, i, hi, rfl, ?_⟩
  rw [hm]
  simp [lastN, Inp.new]

theorem base_execCtrl {o : Op V} (hb : o.kind.isBase = true) : o.execCtrl = .ok [] o := by
  unfold Op.execCtrl
  split <;> simp_all [Kind.isBase]

theorem base_after {o : Op V} (hb : Built o) (hk : o.kind.isBase = true) (as : List (Act V)) : (after o as).kind.isBase = true := by
  have h := congrArg Op.kind (after_fresh ⟨hb.new.core.data, hb.new.core.ctrl⟩ as)
  have h' : (after o as).kind.fresh = o.kind.fresh := h
  rw [← Buffers.isBase_fresh, h', Buffers.isBase_fresh]
  exact hk

theorem lastN_get {α : Type} {n : Nat} {h : List α} {k : Nat} (hl : (lastN n h).length = n) : (lastN n h)[k]? = h[h.length - n + k]? ∧ n ≤ h.length := by
  unfold lastN at hl ⊢
  rw [List.length_drop] at hl
  exact ⟨by rw [List.getElem?_drop], by omega⟩

/-- What one call of `processData` emits on port `q`: messages in increasing order, linked to one ready port, none later than the image under `f` of
the message number `off p` in the window, and all later than the earlier emitted ones that are not later than the message before. -/
def Emission (link : Str → Str → Prop) (off : Str → Nat) (f : UInt64 → UInt64) (E : Str → List (Msg V)) (c : Core V) (q : Str) (ms : List (Msg V)) : Prop :=
  ms = [] ∨ ∃ p i hi, link p q ∧ p ∈ c.toProcess ∧ c.dataIn.find? p = some i ∧ i.data[off p]? = some hi ∧ Increasing ms ∧
    ∀ x ∈ ms, x.time ≤ f hi.time ∧ ∀ e ∈ E q, e.time < f hi.time →
      (∀ l, 1 ≤ off p → i.data[off p - 1]? = some l → e.time ≤ f l.time) → e.time < x.time

/-- The invariant: every emitted message is not later than the image of a message at an earlier position than the one to be emitted next. -/
def Behind (link : Str → Str → Prop) (off mx : Str → Nat) (f : UInt64 → UInt64) (E : Str → List (Msg V)) (A : Str → List (Msg V)) (tp : List Str) : Prop :=
  ∀ p q, link p q → ∀ e ∈ E q, ∃ (j : Nat) (x : Msg V), (A p)[j]? = some x ∧ e.time ≤ f x.time ∧ j + mx p ≤ (A p).length + off p ∧
    (p ∈ tp → j + mx p < (A p).length + off p)

theorem window_run {o0 : Op V} (hb : Built o0) (hk : o0.kind.isBase = true) {link : Str → Str → Prop}
    (hinj : ∀ p p' q, link p q → link p' q → p = p') {off : Str → Nat} {f : UInt64 → UInt64} {K : Kind V → (Str → List (Msg V)) → Prop}
    (as : List (Act V)) (hlink : ∀ p q, link p q → ∃ i, o0.core.dataIn.find? p = some i)
    (hinc : ∀ p i, o0.core.dataIn.find? p = some i → Increasing (addressed (o0.core.dataIn.length == 1) p as))
    (hf : ∀ p i, o0.core.dataIn.find? p = some i → ∀ x ∈ addressed (o0.core.dataIn.length == 1) p as,
      ∀ y ∈ addressed (o0.core.dataIn.length == 1) p as, x.time < y.time → f x.time < f y.time)
    (h0 : K o0.kind fun _ => [])
    (hproc : ∀ (c : Core V) k E r, c.fresh = o0.core.fresh → K k E →
      (∀ p i, c.dataIn.find? p = some i → i.data <:+: addressed (o0.core.dataIn.length == 1) p as) → c.toProcess ≠ [] →
      (∀ p ∈ c.toProcess, ∃ i, c.dataIn.find? p = some i ∧ i.data.length = i.max ∧ 0 < i.max) →
      (⟨c, k⟩ : Op V).process = .ok r → K r.2 (fun q => E q ++ msgsOn q r.1) ∧ ∀ q, Emission link off f E c q (msgsOn q r.1)) :
    ∀ q, Increasing (sent q (results o0 as)) := by
  have hw : o0.core.WF := ⟨hb.new.core.data, hb.new.core.ctrl⟩
  generalize hS : (o0.core.dataIn.length == 1) = S at *
  let mx : Str → Nat := fun p => match o0.core.dataIn.find? p with | some i => i.max | none => 0
  have hmx : ∀ {p i}, o0.core.dataIn.find? p = some i → i.max = mx p := by
    intro p i hi
    simp only [mx, hi]
  have hport : ∀ (as1 : List (Act V)) p i, (after o0 as1).core.dataIn.find? p = some i → ∃ i0, o0.core.dataIn.find? p = some i0 := by
    intro as1 p i hi
    have h1 := congrArg (fun x : Op V => x.core.dataIn) (after_fresh hw as1)
    have h2 : freshMap (after o0 as1).core.dataIn = freshMap o0.core.dataIn := h1
    have h3 := find?_freshMap (after o0 as1).core.dataIn p
    rw [h2, find?_freshMap, hi] at h3
    cases h4 : o0.core.dataIn.find? p with
    | none => rw [h4] at h3; cases h3
    | some i0 => exact ⟨i0, rfl⟩
  have hbuf : ∀ (as1 : List (Act V)) p i0, o0.core.dataIn.find? p = some i0 → ∃ i, (after o0 as1).core.dataIn.find? p = some i ∧ i.max = i0.max ∧
      i.data = lastN i0.max (addressed S p as1) := by
    intro as1 p i0 hi0
    obtain ⟨hpos, hinv⟩ := inv_start hb hk hi0
    have := Buffers.inv_after hpos as1 hinv
    rw [List.nil_append, hS] at this
    exact this.win
  suffices main : ∀ as1, as1 <+: as → (∀ q, Increasing (sent q (results o0 as1))) ∧ K (after o0 as1).kind (fun q => sent q (results o0 as1)) ∧
      Behind link off mx f (fun q => sent q (results o0 as1)) (fun p => addressed S p as1) (after o0 as1).core.toProcess from
    (main as (List.prefix_refl _)).1
  intro as1
  induction as1 using List.reverseRecOn with
  | nil => intro _; exact ⟨fun q => inc_nil, h0, fun p q _ e he => by cases he⟩
  | append_singleton as1 a ih =>
    intro hpre
    obtain ⟨h1, h2, h3⟩ := ih ((List.prefix_append as1 [a]).trans hpre)
    have hkb := base_after hb hk as1
    have hpre' : ∀ p, addressed S p (as1 ++ [a]) <+: addressed S p as := by
      intro p
      obtain ⟨t, ht⟩ := hpre
      rw [← ht, addressed_append S p (as1 ++ [a]) t]
      exact List.prefix_append _ _
    -- acts that emit nothing
    have quiet : ∀ o', (act (after o0 as1) a).1 = o' → (∀ q, msgsOn q (outOf (act (after o0 as1) a).2) = []) → o'.kind = (after o0 as1).kind →
        (∀ p, (∃ i, o0.core.dataIn.find? p = some i) → p ∈ o'.core.toProcess → addressed S p [a] ≠ [] ∨ p ∈ (after o0 as1).core.toProcess) →
        (∀ q, Increasing (sent q (results o0 (as1 ++ [a])))) ∧ K (after o0 (as1 ++ [a])).kind (fun q => sent q (results o0 (as1 ++ [a]))) ∧
        Behind link off mx f (fun q => sent q (results o0 (as1 ++ [a]))) (fun p => addressed S p (as1 ++ [a])) (after o0 (as1 ++ [a])).core.toProcess := by
      intro o' ho hq hkind htp
      have hs : ∀ q, sent q (results o0 (as1 ++ [a])) = sent q (results o0 as1) := by
        intro q
        rw [sent_snoc, hq q, List.append_nil]
      rw [after_snoc, ho]
      simp only [hs]
      refine ⟨h1, by rw [hkind]; exact h2, ?_⟩
      intro p q hl e he
      obtain ⟨j, x, hx, hle, hj, hj'⟩ := h3 p q hl e he
      dsimp only at hx hj hj' ⊢
      have hlen : (addressed S p (as1 ++ [a])).length = (addressed S p as1).length + (addressed S p [a]).length := by
        rw [addressed_append, List.length_append]
      refine ⟨j, x, ?_, hle, by rw [hlen]; omega, fun hp => ?_⟩
      · rw [addressed_append, List.getElem?_append_left (List.getElem?_eq_some_iff.1 hx).1]
        exact hx
      · rcases htp p (hlink p q hl) hp with hne | hold
        · have := List.length_pos_of_ne_nil hne
          rw [hlen]
          omega
        · have := hj' hold
          rw [hlen]
          omega
    cases a with
    | recvData p' m =>
      cases ho : (after o0 as1).recvData m p' with
      | error e =>
        refine quiet (after o0 as1) (by simp only [act, ho]) (by intro q; simp only [act, ho]; rfl) rfl fun p _ hp => Or.inr hp
      | ok o' =>
        refine quiet o' (by simp only [act, ho]) (by intro q; simp only [act, ho]; rfl) ?_ ?_
        · obtain ⟨c, _, rfl⟩ := recvData_cases ho
          rfl
        · rintro p ⟨i0, hi0⟩ hp
          rw [recvData_base hkb] at ho
          obtain ⟨c, hc, ho⟩ := bind_eq_ok.1 ho
          cases ho
          simp only [Core.receiveDataBase] at hc
          split at hc
          · cases hc
          · obtain ⟨i', _, hc⟩ := bind_eq_ok.1 hc
            cases hc
            rcases (mem_setInsert _ _ _).1 hp with rfl | hp
            · left
              obtain ⟨i, hi, _⟩ := hbuf as1 _ i0 hi0
              intro hnil
              refine Buffers.resolve_ne (q := p') hi (fun hx => ?_) rfl
              have hlen : (after o0 as1).core.dataIn.length = o0.core.dataIn.length := Buffers.len_fresh (congrArg Op.core (after_fresh hw as1))
              have : p' = (after o0 as1).core.resolveData p' ∨ (p' = [] ∧ S = true) := hx.imp id fun ⟨a, b⟩ => ⟨a, by rw [← hS, ← hlen, b]; rfl⟩
              simp only [addressed, List.filterMap_cons, if_pos this] at hnil
              cases hnil
            · exact Or.inr hp
    | recvCtrl p' m =>
      cases ho : (after o0 as1).recvCtrl m p' with
      | error e =>
        refine quiet (after o0 as1) (by simp only [act, ho]) (by intro q; simp only [act, ho]; rfl) rfl fun p _ hp => Or.inr hp
      | ok o' =>
        have hc := recvCtrl_cases ho
        refine quiet o' (by simp only [act, ho]) (by intro q; simp only [act, ho]; rfl) ?_ ?_
        · obtain ⟨c, _, rfl⟩ := hc
          rfl
        · rintro p _ hp
          right
          obtain ⟨c, hc, rfl⟩ := hc
          rcases hc with hc | hc
          · simp only [Core.receiveCtrlDemux] at hc
            split at hc
            · cases hc
            · cases hc; exact hp
          · simp only [Core.receiveCtrlBase] at hc
            split at hc
            · cases hc
            · obtain ⟨_, _, hc⟩ := bind_eq_ok.1 hc
              cases hc; exact hp
    | execCtrl =>
      have := base_execCtrl hkb
      refine quiet (after o0 as1) (by simp only [act, this]) (by intro q; simp only [act, this]; rfl) rfl fun p _ hp => Or.inr hp
    | execData =>
      have hnone : ∀ p, addressed S p [(Act.execData : Act V)] = [] := fun p => rfl
      have hx : (after o0 as1).execData = (after o0 as1).execBase := execData_base hkb
      unfold Op.execBase at hx
      split at hx
      · refine quiet (after o0 as1) (by simp only [act, hx]) (by intro q; simp only [act, hx]; rfl) rfl fun p _ hp => Or.inr hp
      · next ready hready =>
        dsimp only at hx
        have hsub : ∀ p ∈ ready, p ∈ (after o0 as1).core.toProcess := by
          unfold Core.readyPorts at hready
          split at hready
          · cases hready
            intro p hp
            exact (List.mem_filter.1 hp).1
          · cases hready
        split at hx
        · next hnil =>
          refine quiet { (after o0 as1) with core := { (after o0 as1).core with toProcess := ready } } (by simp only [act, hx]) (by intro q; simp only [act, hx]; rfl) rfl fun p _ hp => ?_
          dsimp only at hp
          rw [hnil] at hp
          cases hp
        · next hne =>
          split at hx
          · refine quiet { (after o0 as1) with core := { (after o0 as1).core with toProcess := ready } } (by simp only [act, hx]) (by intro q; simp only [act, hx]; rfl) rfl fun p _ hp => Or.inr (hsub p hp)
          · next out k hr =>
            have hfull : ∀ p ∈ ready, ∃ i, (after o0 as1).core.dataIn.find? p = some i ∧ i.data.length = i.max ∧ 0 < i.max := by
              intro p hp
              unfold Core.readyPorts at hready
              split at hready
              · cases hready
                have hp' := (List.mem_filter.1 hp).2
                split at hp'
                · next i hi =>
                  obtain ⟨i0, hi0⟩ := hport as1 p i hi
                  obtain ⟨i2, hi2, hm2, hd2⟩ := hbuf as1 p i0 hi0
                  rw [hi] at hi2
                  cases hi2
                  have hlen := congrArg List.length hd2
                  rw [length_lastN] at hlen
                  have := of_decide_eq_true hp'
                  have hpos := (inv_start hb hk hi0).1
                  exact ⟨i, hi, by omega, by omega⟩
                · cases hp'
              · cases hready
            have hact1 : (act (after o0 as1) .execData).1 = { core := { (after o0 as1).core with toProcess := [] }, kind := k } := by
              simp only [act, hx]
            have hact2 : (act (after o0 as1) .execData).2 = .ok out := by simp only [act, hx]
            have hinfix : ∀ p i, (after o0 as1).core.dataIn.find? p = some i → i.data <:+: addressed S p as := by
              intro p i hi
              obtain ⟨i0, hi0⟩ := hport as1 p i hi
              obtain ⟨i2, hi2, hm2, hd2⟩ := hbuf as1 p i0 hi0
              rw [hi] at hi2
              cases hi2
              rw [hd2]
              have h5 : addressed S p as1 <+: addressed S p as := by
                have := hpre' p
                rw [addressed_append, hnone, List.append_nil] at this
                exact this
              exact (List.drop_suffix _ _).isInfix.trans h5.isInfix
            have hfr : ({ (after o0 as1).core with toProcess := ready } : Core V).fresh = o0.core.fresh := congrArg Op.core (after_fresh hw as1)
            obtain ⟨hK, hE⟩ := hproc { (after o0 as1).core with toProcess := ready } (after o0 as1).kind _ _ hfr h2 hinfix hne hfull hr
            have hs : ∀ q, sent q (results o0 (as1 ++ [.execData])) = sent q (results o0 as1) ++ msgsOn q out := by
              intro q
              rw [sent_snoc, hact2]
              rfl
            have hA : ∀ p, addressed S p (as1 ++ [(Act.execData : Act V)]) = addressed S p as1 := by
              intro p
              rw [addressed_append, hnone, List.append_nil]
            rw [after_snoc, hact1]
            simp only [hs, hA]
            -- positions
            have hpos : ∀ p i hi, p ∈ ready → (after o0 as1).core.dataIn.find? p = some i → i.data[off p]? = some hi →
                mx p ≤ (addressed S p as1).length ∧ (addressed S p as1)[(addressed S p as1).length - mx p + off p]? = some hi ∧
                (∀ l : Nat, i.data[l]? = (addressed S p as1)[(addressed S p as1).length - mx p + l]?) ∧ off p < mx p := by
              intro p i hi hp hfi hget
              obtain ⟨i1, hi1, hl1, hp1⟩ := hfull p hp
              rw [hfi] at hi1
              cases hi1
              obtain ⟨i0, hi0⟩ := hport as1 p i hfi
              obtain ⟨i2, hi2, hm2, hd2⟩ := hbuf as1 p i0 hi0
              rw [hfi] at hi2
              cases hi2
              have hm := hmx hi0
              rw [hm] at hd2 hm2
              have hl : (lastN (mx p) (addressed S p as1)).length = mx p := by rw [← hd2, hl1, hm2]
              have h6 : ∀ l : Nat, i.data[l]? = (addressed S p as1)[(addressed S p as1).length - mx p + l]? := by
                intro l
                rw [hd2]
                exact (lastN_get hl).1
              refine ⟨(lastN_get (k := 0) hl).2, by rw [← h6]; exact hget, h6, ?_⟩
              have := (List.getElem?_eq_some_iff.1 hget).1
              omega
            have hincA : ∀ p i, (after o0 as1).core.dataIn.find? p = some i → Increasing (addressed S p as1) ∧
                ∀ x ∈ addressed S p as1, x ∈ addressed S p as := by
              intro p i hi
              obtain ⟨i0, hi0⟩ := hport as1 p i hi
              have h5 : addressed S p as1 <+: addressed S p as := by
                have := hpre' p
                rw [hA] at this
                exact this
              exact ⟨inc_infix (hinc p i0 hi0) h5.isInfix, fun x hx => h5.subset hx⟩
            refine ⟨fun q => ?_, hK, ?_⟩
            · rcases hE q with hnil | ⟨p, i, hi, hl, hp, hfi, hget, hinc', hle⟩
              · dsimp only at hnil
                rw [hnil, List.append_nil]
                exact h1 q
              · refine inc_join (h1 q) hinc' fun e he x hx => ?_
                dsimp only at hp hfi
                obtain ⟨hm, hhi, hall, hoff⟩ := hpos p i hi hp hfi hget
                obtain ⟨hA1, hA2⟩ := hincA p i hfi
                obtain ⟨j, y, hy, hey, hj, hj'⟩ := h3 p q hl e he
                dsimp only at hy hj hj'
                have hj2 := hj' (hsub p hp)
                obtain ⟨i0, hi0⟩ := hport as1 p i hfi
                have hmy := hA2 y (List.mem_of_getElem? hy)
                refine (hle x hx).2 e he ?_ ?_
                · have := hf p i0 hi0 y hmy hi (hA2 hi (List.mem_of_getElem? hhi)) (inc_get hA1 hy hhi (by omega))
                  exact UInt64.lt_of_le_of_lt hey this
                · intro l ho hl'
                  rw [hall] at hl'
                  rcases Nat.lt_or_ge j ((addressed S p as1).length - mx p + (off p - 1)) with hlt | hge
                  · have := hf p i0 hi0 y hmy l (hA2 l (List.mem_of_getElem? hl')) (inc_get hA1 hy hl' hlt)
                    exact UInt64.le_trans hey (UInt64.le_of_lt this)
                  · have hje : j = (addressed S p as1).length - mx p + (off p - 1) := by omega
                    rw [hje, hl'] at hy
                    cases hy
                    exact hey
            · intro p q hl e he
              rcases List.mem_append.1 he with he | he
              · obtain ⟨j, y, hy, hey, hj, _⟩ := h3 p q hl e he
                exact ⟨j, y, hy, hey, hj, fun hp => by cases hp⟩
              · rcases hE q with hnil | ⟨p2, i, hi, hl2, hp, hfi, hget, hinc', hle⟩
                · dsimp only at hnil
                  rw [hnil] at he
                  cases he
                · cases hinj p p2 q hl hl2
                  dsimp only at hp hfi
                  obtain ⟨hm, hhi, hall, hoff⟩ := hpos p i hi hp hfi hget
                  exact ⟨_, hi, hhi, (hle e he).1, by dsimp only; omega, fun hp => by cases hp⟩

end Order
end Rtbot
