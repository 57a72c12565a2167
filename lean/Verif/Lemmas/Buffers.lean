import Verif.Lemmas.Frame
import Verif.Lemmas.Window

/-! # The window invariant over arbitrary call sequences -/

set_option linter.unusedSectionVars false

namespace Rtbot
open Spec
variable {V : Type} [Num V]

namespace Buffers

theorem isBase_fresh (k : Kind V) : k.fresh.isBase = k.isBase := by cases k <;> rfl

theorem resolve_eq {c : Core V} {p q : Str} {i : Inp V} (hi : c.dataIn.find? p = some i) :
    (q = p ∨ (q = [] ∧ c.dataIn.length = 1)) → c.resolveData q = p := by
  rintro (rfl | ⟨rfl, h⟩)
  · unfold Core.resolveData
    split
    · split
      · rename_i hq k v hd
        rw [hd] at hi
        simp only [Map.find?_cons, Map.find?_nil] at hi
        split at hi
        · assumption
        · cases hi
      · rfl
    · rfl
  · unfold Core.resolveData
    rw [if_pos rfl]
    split
    · rename_i k v hd
      rw [hd] at hi
      simp only [Map.find?_cons, Map.find?_nil] at hi
      split at hi
      · assumption
      · cases hi
    · rename_i hne
      exfalso
      match hd : c.dataIn, h with
      | [(k, v)], _ => exact hne k v hd

theorem resolve_ne {c : Core V} {p q : Str} {i : Inp V} (_hi : c.dataIn.find? p = some i)
    (hq : ¬ (q = p ∨ (q = [] ∧ c.dataIn.length = 1))) : c.resolveData q ≠ p := by
  unfold Core.resolveData
  split
  · rename_i hq0
    split
    · rename_i k v hd
      exact absurd (Or.inr ⟨hq0, by rw [hd]; rfl⟩) hq
    · exact fun h => hq (Or.inl h)
  · exact fun h => hq (Or.inl h)

/-- The window invariant. -/
structure Inv (sole : Bool) (p : Str) (n : Nat) (h : List (Msg V)) (o : Op V) : Prop where
  base : o.kind.isBase = true
  wf : o.core.WF
  len : (sole = true ↔ o.core.dataIn.length = 1)
  win : ∃ i, o.core.dataIn.find? p = some i ∧ i.max = n ∧ i.data = lastN n h

theorem len_fresh {c c' : Core V} (h : c'.fresh = c.fresh) : c'.dataIn.length = c.dataIn.length := by
  have := congrArg (fun x : Core V => x.dataIn.length) h
  simpa [Core.fresh, freshMap] using this

theorem Inv.of_fresh {sole : Bool} {p : Str} {n : Nat} {h h' : List (Msg V)} {o o' : Op V} (hi : Inv sole p n h o)
    (hf : o'.fresh = o.fresh) (hw : ∃ i, o'.core.dataIn.find? p = some i ∧ i.max = n ∧ i.data = lastN n h') :
    Inv sole p n h' o' where
  base := by rw [← isBase_fresh, congrArg Op.kind hf |> (fun h : o'.kind.fresh = o.kind.fresh => h), isBase_fresh]; exact hi.base
  wf := Core.WF.of_fresh (congrArg Op.core hf) hi.wf
  len := by rw [len_fresh (congrArg Op.core hf)]; exact hi.len
  win := hw

theorem receive_window {i : Inp V} {n : Nat} (hn : 0 < n) {h : List (Msg V)} (hm : i.max = n) (hd : i.data = lastN n h) (m : Msg V) :
    ∃ i', i.receive m = .ok i' ∧ i'.max = n ∧ i'.data = lastN n (h ++ [m]) := by
  unfold Inp.receive
  have hl := congrArg List.length hd
  rw [length_lastN] at hl
  by_cases hlen : n ≤ h.length
  · rw [if_pos (by omega)]
    unfold Inp.popSum
    rw [lastN_snoc_of_ge m hn hlen]
    cases hw : i.data with
    | nil => rw [hw] at hl; simp at hl; omega
    | cons a rest =>
      refine ⟨_, rfl, hm, ?_⟩
      rw [← hd, hw]
      rfl
  · rw [if_neg (by omega), if_neg (by omega), lastN_snoc_of_lt m (by omega)]
    exact ⟨_, rfl, hm, by simp [Inp.push, hd]⟩

theorem execBase_dataIn (o : Op V) : o.execBase.state.core.dataIn = o.core.dataIn := by
  unfold Op.execBase
  split
  · rfl
  · dsimp only
    split
    · rfl
    · split <;> rfl

theorem inv_recv {sole : Bool} {p : Str} {n : Nat} (hn : 0 < n) {h : List (Msg V)} {o : Op V} (hi : Inv sole p n h o) (q : Str)
    (hq : q = p ∨ (q = [] ∧ sole = true)) (m : Msg V) : ∃ o', o.recvData m q = .ok o' ∧ Inv sole p n (h ++ [m]) o' := by
  obtain ⟨i, hf, hm, hd⟩ := hi.win
  obtain ⟨i', hr, hm', hd'⟩ := receive_window hn hm hd m
  have hres : o.core.resolveData q = p := resolve_eq hf (hq.imp id fun ⟨a, b⟩ => ⟨a, hi.len.1 b⟩)
  have hok : o.recvData m q = .ok { o with core := { o.core with dataIn := o.core.dataIn.put p i', toProcess := setInsert o.core.toProcess p } } := by
    rw [recvData_base hi.base]
    simp only [Core.receiveDataBase, hres, hf, hr]
    rfl
  refine ⟨_, hok, hi.of_fresh (recvData_fresh hi.wf hok) ⟨i', ?_, hm', hd'⟩⟩
  simp

theorem inv_act {sole : Bool} {p : Str} {n : Nat} (hn : 0 < n) {h : List (Msg V)} {o : Op V} (hi : Inv sole p n h o) (a : Act V) :
    Inv sole p n (h ++ addressed sole p [a]) (act o a).1 := by
  cases a with
  | recvData q m =>
    by_cases hq : q = p ∨ (q = [] ∧ sole = true)
    · obtain ⟨o', hok, hinv⟩ := inv_recv hn hi q hq m
      have : addressed sole p [Act.recvData q m] = [m] := by simp [addressed, hq]
      rw [this]
      simp only [act, hok]
      exact hinv
    · have : addressed sole p [Act.recvData q m] = [] := by simp only [addressed, List.filterMap_cons, hq, if_false, List.filterMap_nil]
      rw [this, List.append_nil]
      simp only [act]
      split
      · rename_i o' hok
        obtain ⟨i, hf, hm, hd⟩ := hi.win
        have hne := resolve_ne (q := q) hf (fun hx => hq (hx.imp id fun ⟨a, b⟩ => ⟨a, hi.len.2 b⟩))
        refine hi.of_fresh (recvData_fresh hi.wf hok) ⟨i, ?_, hm, hd⟩
        rw [recvData_base hi.base] at hok
        obtain ⟨c', hc, hok⟩ := bind_eq_ok.1 hok
        cases hok
        simp only [Core.receiveDataBase] at hc
        split at hc
        · cases hc
        · obtain ⟨i', _, hc⟩ := bind_eq_ok.1 hc
          cases hc
          simp only
          rw [Map.find?_put_ne _ _ (Ne.symm hne)]
          exact hf
      · exact hi
  | recvCtrl q m =>
    simp only [act, addressed, List.filterMap_cons, List.filterMap_nil, List.append_nil]
    split
    · rename_i o' hok
      refine hi.of_fresh (recvCtrl_fresh hi.wf hok) ?_
      have : o'.core.dataIn = o.core.dataIn := by
        unfold Op.recvCtrl at hok
        split at hok
        all_goals
          obtain ⟨c', hc, hok⟩ := bind_eq_ok.1 hok
          cases hok
          simp only [Core.receiveCtrlDemux, Core.receiveCtrlBase] at hc
          split at hc
          · cases hc
          · first
              | (cases hc; rfl)
              | (obtain ⟨i', _, hc⟩ := bind_eq_ok.1 hc
                 cases hc
                 rfl)
      rw [this]; exact hi.win
    · exact hi
  | execData =>
    have h1 : (act o Act.execData).1 = o.execData.state := by
      simp only [act]; cases o.execData <;> rfl
    rw [h1]
    simp only [addressed, List.filterMap_cons, List.filterMap_nil, List.append_nil]
    refine hi.of_fresh (execData_fresh o) ?_
    rw [execData_base hi.base, execBase_dataIn]; exact hi.win
  | execCtrl =>
    have h1 : (act o Act.execCtrl).1 = o := by
      simp only [act]
      have hb := hi.base
      unfold Op.execCtrl
      split
      · rename_i hx; split at hx <;> simp_all [Kind.isBase]
      · rename_i hx; split at hx <;> simp_all [Kind.isBase]
    rw [h1]
    simpa [addressed] using hi

theorem inv_after {sole : Bool} {p : Str} {n : Nat} (hn : 0 < n) (as : List (Act V)) {h : List (Msg V)} {o : Op V}
    (hi : Inv sole p n h o) : Inv sole p n (h ++ addressed sole p as) (after o as) := by
  induction as generalizing h o with
  | nil => simpa [addressed, after] using hi
  | cons a as ih =>
    have := ih (inv_act hn hi a)
    have e : addressed sole p (a :: as) = addressed sole p [a] ++ addressed sole p as := by
      simp only [addressed]
      rw [show a :: as = [a] ++ as from rfl, List.filterMap_append]
    rw [e, ← List.append_assoc]
    exact this

end Buffers

end Rtbot
