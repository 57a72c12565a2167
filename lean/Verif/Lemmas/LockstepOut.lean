import Verif.Lemmas.Lockstep

/-! # Operators in step: Output passes everything on -/

set_option linter.unusedSectionVars false

namespace Rtbot
open Spec Order Times
variable {V : Type} [Num V]

namespace Lockstep

theorem addressed_data {ps : List Str} (hne : [] ∉ ps) (s : Bool) (p : Str) {as : List (Act V)} (hv : ∀ a ∈ as, DataOnly ps a) : addressed s p as = sentTo p as := by
  unfold addressed sentTo
  refine List.filterMap_congr fun a ha => ?_
  cases a with
  | recvData q m =>
    have : q ≠ [] := fun h => hne (h ▸ hv _ ha)
    simp [this]
  | _ => rfl

/-- The loop of `Output::processData` (Output.h:35-41), port by port. -/
theorem output_fold {c : Core V} {pm : Map Str} {k : Nat} (hpm : ∀ p q, pm.find? p = some q → ∃ j, p = iPort j ∧ q = oPort j) (ps : List Str) :
    ∀ {acc out : OpMsg V}, ps.foldlM (fun (out : OpMsg V) p => do
      let m ← c.dataLast p
      match pm.find? p with
      | none => undefined .endDeref
      | some q => .ok (out.emplace q [m])) acc = .ok out →
    (iPort k ∉ ps → out.find? (oPort k) = acc.find? (oPort k)) ∧
    (iPort k ∈ ps → acc.find? (oPort k) = none → ∃ m, c.dataLast (iPort k) = .ok m ∧ out.find? (oPort k) = some [m]) ∧
    (∀ ms, acc.find? (oPort k) = some ms → out.find? (oPort k) = some ms) := by
  induction ps with
  | nil => intro acc out h; cases h; exact ⟨fun _ => rfl, fun h => (by cases h), fun _ h => h⟩
  | cons p ps ih =>
    intro acc out h
    rw [List.foldlM_cons] at h
    obtain ⟨a1, h1, h2⟩ := bind_eq_ok.1 h
    obtain ⟨m, hm, h1⟩ := bind_eq_ok.1 h1
    split at h1
    · cases h1
    · next q hq =>
      cases h1
      obtain ⟨j, rfl, rfl⟩ := hpm _ _ hq
      obtain ⟨i1, i2, i3⟩ := ih h2
      have hf := Map.find?_emplace acc (oPort j) (oPort k) [m]
      by_cases hkj : k = j
      · subst hkj
        rw [if_pos rfl] at hf
        refine ⟨fun h => absurd List.mem_cons_self h, fun _ hn => ?_, fun ms hms => ?_⟩
        · rw [hn] at hf
          exact ⟨m, hm, i3 _ hf⟩
        · rw [hms] at hf
          exact i3 _ hf
      · have hne : oPort k ≠ oPort j := fun h => hkj (oPort_inj h)
        have hne' : iPort k ≠ iPort j := fun h => hkj (iPort_inj h)
        rw [if_neg hne] at hf
        rw [hf] at i1 i2 i3
        refine ⟨fun h => i1 fun h' => h (List.mem_cons_of_mem _ h'), fun h => ?_, i3⟩
        rcases List.mem_cons.1 h with h | h
        · exact absurd h hne'
        · exact i2 h

theorem sentTo_snoc (p q : Str) (m : Msg V) (as : List (Act V)) : sentTo p (as ++ [.recvData q m]) = sentTo p as ++ if q = p then [m] else [] := by
  unfold sentTo
  rw [List.filterMap_append]
  by_cases h : q = p <;> simp [h]

theorem port_there {o0 : Op V} (hb : Built o0) (as : List (Act V)) {p : Str} {i0 : Inp V} (hi : o0.core.dataIn.find? p = some i0) :
    ∃ i, (after o0 as).core.dataIn.find? p = some i := by
  have hw : o0.core.WF := ⟨hb.new.core.data, hb.new.core.ctrl⟩
  have h1 := congrArg (fun x : Op V => x.core.dataIn) (after_fresh hw as)
  have h2 : freshMap (after o0 as).core.dataIn = freshMap o0.core.dataIn := h1
  have h3 := find?_freshMap (after o0 as).core.dataIn p
  rw [h2, find?_freshMap, hi] at h3
  cases h4 : (after o0 as).core.dataIn.find? p with
  | none => rw [h4] at h3; cases h3
  | some i => exact ⟨i, rfl⟩

theorem iPort_ne_nil (k : Nat) : iPort k ≠ [] := by
  unfold iPort
  simp

theorem lastN_one {α : Type} (l : List α) : lastN 1 l = l.getLast?.toList := by
  rcases List.eq_nil_or_concat l with rfl | ⟨l, x, rfl⟩
  · rfl
  · simp [lastN]

/-- Everything sent to an Output whose calls are in step is passed on at the next `executeData`. -/
theorem output_passes {ident : Str} {n : Nat} {o0 : Op V} (ho : Op.newOutput ident n = .ok o0) {k : Nat} (hk1 : 1 ≤ k) (hk2 : k ≤ n) {as : List (Act V)} {t : UInt64} {b : Bool}
    (hs : InStep as t b) : ExecOk o0 as → (∀ a ∈ as, DataOnly o0.core.dataIn.keys a) → Increasing (sentTo (iPort k) as) →
      collected (oPort k) (results o0 as) ++ (if iPort k ∈ (after o0 as).core.toProcess then (sentTo (iPort k) as).getLast?.toList else []) = sentTo (iPort k) as := by
  have hb : Built o0 := .output ho
  unfold Op.newOutput at ho
  obtain ⟨⟨c0, pm⟩, hadd, ho⟩ := bind_eq_ok.1 ho
  cases ho
  have hbase : (Op.mk c0 (.output pm) : Op V).kind.isBase = true := rfl
  obtain ⟨c1, pm1, h1, hports, _, _, _, _, _, _, hkeys, hpmk⟩ := addPorts_spec (V := V) ident 1 n
  rw [hadd] at h1
  cases h1
  have hpm : ∀ p q, pm.find? p = some q → ∃ j, p = iPort j ∧ q = oPort j := by
    intro p q h
    obtain ⟨k, h1, h2, rfl⟩ := (hkeys p).1 (by rw [← Map.find?_isSome_iff, h]; rfl)
    rw [hpmk k h1 h2] at h
    cases h
    exact ⟨k, rfl, rfl⟩
  have hnil : ([] : Str) ∉ c0.dataIn.keys := by
    intro h
    obtain ⟨k, _, _, h⟩ := (hports.keys _).1 h
    exact iPort_ne_nil k h.symm
  have hmax : ∀ p i, c0.dataIn.find? p = some i → i.max = 1 := by
    intro p i hi
    obtain ⟨k, h1, h2, rfl⟩ := (hports.keys p).1 (by rw [← Map.find?_isSome_iff, hi]; rfl)
    rw [hports.find k h1 h2] at hi
    cases hi
    rfl
  have hfind := hports.find k hk1 hk2
  generalize hog : (Op.mk c0 (.output pm) : Op V) = o0 at *
  have hdc : o0.core.dataIn = c0.dataIn := by rw [← hog]
  have hbuf : ∀ as : List (Act V), (∀ a ∈ as, DataOnly o0.core.dataIn.keys a) → ∀ p i, (after o0 as).core.dataIn.find? p = some i → i.max = 1 ∧ i.data = (sentTo p as).getLast?.toList := by
    intro as hv p i hi
    obtain ⟨i0, h1, h2, _, h3⟩ := buf_after hb hbase as hi
    rw [hdc] at h1
    rw [hmax _ _ h1] at h2 h3
    refine ⟨h2, ?_⟩
    rw [h3, lastN_one, addressed_data (by rw [hdc]; exact hnil) _ _ hv]
  induction hs with
  | start t =>
    intro _ _ _
    rw [show (after o0 ([] : List (Act V))) = o0 from rfl, hb.new.core.idle]
    rfl
  | later _ _ ih => exact ih
  | @recv as t b q m hs hm ih =>
    intro hok hv hinc
    have hok' := execOk_prefix hok
    have hv' : ∀ a ∈ as, DataOnly o0.core.dataIn.keys a := fun a ha => hv a (List.mem_append_left _ ha)
    rw [sentTo_snoc] at hinc
    have ih := ih hok' hv' (List.Pairwise.sublist (List.sublist_append_left _ _) hinc)
    have hq : q ∈ o0.core.dataIn.keys := hv (.recvData q m) (by simp)
    have hq0 : ∃ i0, o0.core.dataIn.find? q = some i0 := by
      rw [← Map.find?_isSome_iff] at hq
      exact Option.isSome_iff_exists.1 hq
    obtain ⟨i0, hi0⟩ := hq0
    obtain ⟨i, hi⟩ := port_there hb as hi0
    obtain ⟨hm1, hdat⟩ := hbuf as hv' q i hi
    have hqn : q ≠ [] := fun h => hnil (by rw [← hdc, ← h]; exact hq)
    have hres : (after o0 as).core.resolveData q = q := by
      unfold Core.resolveData
      simp [hqn]
    have hrecv : ∃ i', i.receive m = .ok i' := by
      unfold Inp.receive
      rw [hm1]
      cases hl : (sentTo q as).getLast? with
      | none =>
        rw [hl] at hdat
        rw [hdat]
        exact ⟨_, rfl⟩
      | some l =>
        rw [hl] at hdat
        have hd : i.data = [l] := hdat
        unfold Inp.popSum
        rw [hd]
        exact ⟨_, rfl⟩
    obtain ⟨i', hi'⟩ := hrecv
    have hact : act (after o0 as) (.recvData q m) = ({ (after o0 as) with core := { (after o0 as).core with dataIn := (after o0 as).core.dataIn.put q i', toProcess := setInsert (after o0 as).core.toProcess q } }, .ok []) := by
      simp only [act]
      rw [recvData_base (base_after hb hbase as)]
      unfold Core.receiveDataBase
      dsimp only
      rw [hres, hi]
      dsimp only
      rw [hi']
      rfl
    rw [after_snoc, hact, Sync.results_append, collected_append]
    have hcol : collected (oPort k) (results (after o0 as) [.recvData q m]) = [] := by
      simp only [results, hact]
      rfl
    rw [hcol, List.append_nil, sentTo_snoc]
    dsimp only
    by_cases hqk : q = iPort k
    · subst hqk
      have hnot : iPort k ∉ (after o0 as).core.toProcess := by
        intro hp
        obtain ⟨_, l, h1, h2⟩ := base_pend hb hbase hs hok' _ hp
        rw [addressed_data (by rw [hdc]; exact hnil) _ _ hv'] at h1
        rw [if_pos rfl] at hinc
        have := (List.pairwise_append.1 hinc).2.2 l (List.mem_of_getLast? h1) m (by simp)
        rw [h2, hm] at this
        exact absurd this (UInt64.lt_irrefl _)
      rw [if_neg hnot, List.append_nil] at ih
      rw [if_pos ((mem_setInsert _ _ _).2 (Or.inl rfl)), if_pos rfl, ih]
      simp
    · have : iPort k ∈ setInsert (after o0 as).core.toProcess q ↔ iPort k ∈ (after o0 as).core.toProcess := by
        rw [mem_setInsert]
        simp [Ne.symm hqk]
      rw [if_neg hqk, List.append_nil]
      by_cases hp : iPort k ∈ (after o0 as).core.toProcess
      · rw [if_pos hp] at ih
        rw [if_pos (this.2 hp)]
        exact ih
      · rw [if_neg hp] at ih
        rw [if_neg fun h => hp (this.1 h)]
        exact ih
  | @exec as t b hs ih =>
    intro hok hv hinc
    have hok' := execOk_prefix hok
    have hv' : ∀ a ∈ as, DataOnly o0.core.dataIn.keys a := fun a ha => hv a (List.mem_append_left _ ha)
    have hsame : ∀ p, sentTo p (as ++ [.execData]) = sentTo p as := fun p => by unfold sentTo; simp
    rw [hsame] at hinc ⊢
    have ih := ih hok' hv' hinc
    obtain ⟨out, o', hx⟩ := execOk_exec hok
    have hact : act (after o0 as) .execData = (o', .ok out) := by simp only [act, hx]
    rw [after_snoc, hact, Sync.results_append, collected_append]
    have hcol : collected (oPort k) (results (after o0 as) [.execData]) = msgsOn (oPort k) out := by
      simp only [results, hact]
      simp [collected]
    rw [hcol]
    have hpend := base_pend hb hbase hs hok'
    rw [execData_base (base_after hb hbase as)] at hx
    unfold Op.execBase at hx
    have hkf : (after o0 as).kind.fresh = o0.kind.fresh := congrArg Op.kind (after_fresh ⟨hb.new.core.data, hb.new.core.ctrl⟩ as)
    have hko : (after o0 as).kind = .output pm := by
      rw [← hog] at hkf ⊢
      generalize hkk : (after (Op.mk c0 (.output pm) : Op V) as).kind = kk at hkf
      cases kk <;> first | (cases hkf; rfl) | cases hkf
    split at hx
    · cases hx
    · next ready hready =>
      have hin : iPort k ∈ ready ↔ iPort k ∈ (after o0 as).core.toProcess := by
        refine ⟨fun h => (ready_mem hready h).1, fun h => ?_⟩
        unfold Core.readyPorts at hready
        split at hready
        · next hall =>
          cases hready
          obtain ⟨_, l, h1, _⟩ := hpend _ h
          rw [addressed_data (by rw [hdc]; exact hnil) _ _ hv'] at h1
          obtain ⟨i, hi⟩ := port_there hb as (by rw [hdc]; exact hfind)
          obtain ⟨h2, h3⟩ := hbuf as hv' _ i hi
          rw [h1] at h3
          have h3 : i.data = [l] := h3
          rw [List.mem_filter]
          refine ⟨h, ?_⟩
          rw [hi]
          simp [h2, h3]
        · cases hready
      dsimp only at hx
      split at hx
      · next hr =>
        cases hx
        rw [hr] at hin
        have hnot : iPort k ∉ (after o0 as).core.toProcess := fun h => by cases hin.2 h
        rw [if_neg hnot, List.append_nil] at ih
        rw [hr, if_neg (by simp), ih]
        simp [msgsOn, Map.find?]
      · split at hx
        · cases hx
        · next out1 kk hr =>
          cases hx
          rw [if_neg (by simp), List.append_nil]
          unfold Op.process at hr
          simp only [hko] at hr
          obtain ⟨x, hx, hr⟩ := bind_eq_ok.1 hr
          cases hr
          obtain ⟨f1, f2, _⟩ := output_fold (k := k) hpm ready hx
          rw [← ih]
          congr 1
          by_cases hmem : iPort k ∈ ready
          · rw [if_pos (hin.1 hmem)]
            obtain ⟨m, hm, hf⟩ := f2 hmem rfl
            obtain ⟨_, l, h1, _⟩ := hpend _ (hin.1 hmem)
            rw [addressed_data (by rw [hdc]; exact hnil) _ _ hv'] at h1
            obtain ⟨i, hi⟩ := port_there hb as (by rw [hdc]; exact hfind)
            obtain ⟨h2, h3⟩ := hbuf as hv' _ i hi
            rw [h1] at h3
            have h3 : i.data = [l] := h3
            unfold Core.dataLast at hm
            dsimp only at hm
            rw [hi] at hm
            simp only [h3] at hm
            cases hm
            unfold msgsOn
            rw [hf, h1]
            rfl
          · rw [if_neg (fun h => hmem (hin.2 h))]
            have := f1 hmem
            unfold msgsOn
            rw [this]
            rfl

end Lockstep
end Rtbot
