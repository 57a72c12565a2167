import Verif.Spec.Gate
import Verif.Lemmas.Ports
import Verif.Lemmas.Frame
import Verif.Lemmas.Feed

/-! # The Input gate -/

set_option linter.unusedSectionVars false

namespace Rtbot
open Spec
variable {V : Type} [Num V]

namespace Gate

/-- Invariant: `pend`, `last` give for each port the message waiting for execution and the time of the last forwarded one. -/
structure Inv (n : Nat) (pend : Str → Option (Msg V)) (last : Str → Option UInt64) (o : Op V) : Prop where
  kind : ∃ pm ls, o.kind = .input pm ls ∧ (∀ k, 1 ≤ k → k ≤ n → pm.find? (iPort k) = some (oPort k)) ∧
    ∀ p, IsPort iPort n p → (ls.find? p).map (·.time) = last p
  sorted : o.core.dataIn.Sorted
  keys : ∀ p, p ∈ o.core.dataIn.keys ↔ IsPort iPort n p
  len : o.core.dataIn.length = n
  bufs : ∀ p, IsPort iPort n p → ∃ i, o.core.dataIn.find? p = some i ∧ i.max = 1 ∧ i.data.length ≤ 1 ∧ ∀ m, pend p = some m → i.data = [m]
  ready : ∀ p, p ∈ o.core.toProcess ↔ IsPort iPort n p ∧ (pend p).isSome = true
  set : SetSorted o.core.toProcess

theorem recv {n : Nat} {pend : Str → Option (Msg V)} {last : Str → Option UInt64} {o : Op V} (hi : Inv n pend last o)
    (q : Str) (m : Msg V) (hq : IsPort iPort n q ∨ (q = [] ∧ n = 1)) :
    ∃ o', o.recvData m q = .ok o' ∧
      Inv n (fun p => if q = p ∨ (q = [] ∧ n = 1 ∧ p = iPort 1) then some m else pend p) last o' := by
  obtain ⟨⟨pm, ls, hk, hpm, hls⟩, hs, hkeys, hlen, hb, hr, hset⟩ := hi
  have hp : ∃ p, o.core.resolveData q = p ∧ IsPort iPort n p ∧ ∀ p', (q = p' ∨ (q = [] ∧ n = 1 ∧ p' = iPort 1)) ↔ (IsPort iPort n p' ∧ p' = p) ∨ q = p' ∧ ¬ IsPort iPort n p' := by
    rcases hq with hq | ⟨rfl, rfl⟩
    · have hne : q ≠ [] := by obtain ⟨k, _, _, rfl⟩ := hq; exact iPort_ne_nil k
      refine ⟨q, by simp [Core.resolveData, hne], hq, ?_⟩
      intro p'
      simp only [hne, false_and, or_false]
      constructor
      · rintro rfl; exact Or.inl ⟨hq, rfl⟩
      · rintro (⟨_, rfl⟩ | ⟨h, _⟩)
        · rfl
        · exact h
    · refine ⟨iPort 1, ?_, ⟨1, by omega, by omega, rfl⟩, ?_⟩
      · unfold Core.resolveData
        rw [if_pos rfl]
        match hd : o.core.dataIn with
        | [(k, _)] =>
          have : k ∈ o.core.dataIn.keys := by rw [hd]; simp [Map.keys]
          obtain ⟨j, h1, h2, rfl⟩ := (hkeys k).1 this
          have : j = 1 := by omega
          rw [this]
        | [] => rw [hd] at hlen; simp at hlen
        | _ :: _ :: _ => rw [hd] at hlen; simp at hlen
      · intro p'
        simp only [true_and]
        constructor
        · rintro (h | h)
          · exact Or.inr ⟨h, by rintro ⟨k, _, _, h2⟩; rw [← h] at h2; exact iPort_ne_nil k h2.symm⟩
          · exact Or.inl ⟨⟨1, by omega, by omega, h⟩, h⟩
        · rintro (⟨_, h⟩ | ⟨h, _⟩)
          · exact Or.inr h
          · exact Or.inl h
  obtain ⟨p, hres, hpp, hiff⟩ := hp
  obtain ⟨i, hfi, hmax, hlen1, hpend⟩ := hb p hpp
  have hrec : ∃ s, i.receive m = .ok { i with sum := s, data := [m] } := by
    unfold Inp.receive
    match hd : i.data with
    | [] => exact ⟨i.sum +. m.value, by simp [hmax, Inp.push, hd]⟩
    | [x] => exact ⟨i.sum -. x.value +. m.value, by simp [hmax, Inp.push, Inp.popSum, hd]⟩
    | x :: y :: r => rw [hd] at hlen1; simp at hlen1
  obtain ⟨s, hrec⟩ := hrec
  refine ⟨{ o with core := { o.core with dataIn := o.core.dataIn.put p { i with sum := s, data := [m] }, toProcess := setInsert o.core.toProcess p } }, ?_, ?_⟩
  · have hbase : o.kind.isBase = true := by rw [hk]; rfl
    rw [recvData_base hbase]
    unfold Core.receiveDataBase
    simp only [hres, hfi, hrec]
    rfl
  · refine ⟨⟨pm, ls, hk, hpm, hls⟩, hs.put _ _, ?_, ?_, ?_, ?_, hset.insert p⟩
    · intro p'
      simp only
      rw [Map.mem_keys_put, hkeys]
      constructor
      · rintro (rfl | h)
        · exact hpp
        · exact h
      · exact Or.inr
    · simp only
      have h1 := Map.keys_put_of_mem o.core.dataIn { i with sum := s, data := [m] } hs ((hkeys p).2 hpp)
      have h2 := congrArg List.length h1
      simpa [Map.keys, hlen] using h2
    · intro p' hp'
      simp only [Map.find?_put]
      by_cases he : p' = p
      · subst he
        refine ⟨{ i with sum := s, data := [m] }, by rw [if_pos rfl], hmax, by simp, ?_⟩
        intro m' h
        rw [if_pos ((hiff p').2 (Or.inl ⟨hp', rfl⟩))] at h; cases h; rfl
      · obtain ⟨i', h1, h2, h3, h4⟩ := hb p' hp'
        refine ⟨i', by rw [if_neg he]; exact h1, h2, h3, ?_⟩
        intro m' h
        rw [if_neg] at h
        · exact h4 m' h
        · rw [hiff]
          rintro (⟨_, h⟩ | ⟨_, h⟩)
          · exact he h
          · exact h hp'
    · intro p'
      simp only
      rw [mem_setInsert, hr]
      by_cases he : p' = p
      · subst he
        have := (hiff p').2 (Or.inl ⟨hpp, rfl⟩)
        simp [this, hpp]
      · by_cases hp' : IsPort iPort n p'
        · rw [if_neg]
          · simp [he, hp']
          · rw [hiff]
            rintro (⟨_, h⟩ | ⟨_, h⟩)
            · exact he h
            · exact h hp'
        · simp [he, hp']

/-- The loop of `Input::processData`. -/
theorem loop {n : Nat} {pend : Str → Option (Msg V)} {c : Core V} {pm : Map Str}
    (hpm : ∀ k, 1 ≤ k → k ≤ n → pm.find? (iPort k) = some (oPort k))
    (hb : ∀ p, IsPort iPort n p → ∀ m, pend p = some m → c.dataMsg p 0 = .ok m)
    (ps : List Str) (hps : ∀ p ∈ ps, IsPort iPort n p ∧ (pend p).isSome = true) (hnd : ps.Nodup) :
    ∀ (out : OpMsg V) (ls : Map (Msg V)), (∀ k, iPort k ∈ ps → out.find? (oPort k) = none) → out.Sorted →
    (∀ q ∈ out.keys, IsPort oPort n q) →
    ∃ out' ls', ps.foldlM (inputStep c pm) (out, ls) = .ok (out', ls') ∧ out'.Sorted ∧ (∀ q ∈ out'.keys, IsPort oPort n q) ∧
      (∀ k, 1 ≤ k → k ≤ n → out'.find? (oPort k) =
        if iPort k ∈ ps ∧ newer ((ls.find? (iPort k)).map (·.time)) ((pend (iPort k)).elim 0 (·.time)) = true then (pend (iPort k)).map ([·])
        else out.find? (oPort k)) ∧
      (∀ p, IsPort iPort n p → (ls'.find? p).map (·.time) =
        if p ∈ ps ∧ newer ((ls.find? p).map (·.time)) ((pend p).elim 0 (·.time)) = true then (pend p).map (·.time)
        else (ls.find? p).map (·.time)) := by
  induction ps with
  | nil =>
    intro out ls _ hs hq
    exact ⟨out, ls, rfl, hs, hq, fun k _ _ => by simp, fun p _ => by simp⟩
  | cons p ps ih =>
    intro out ls ho hs hq
    have hpp := (hps p (by simp)).1
    obtain ⟨m, hm⟩ := Option.isSome_iff_exists.1 (hps p (by simp)).2
    have hmsg := hb p hpp m hm
    obtain ⟨kp, hk1, hk2, rfl⟩ := hpp
    rw [List.nodup_cons] at hnd
    have hps' : ∀ p ∈ ps, IsPort iPort n p ∧ (pend p).isSome = true := fun p h => hps p (List.mem_cons_of_mem _ h)
    by_cases hnew : newer ((ls.find? (iPort kp)).map (·.time)) m.time = true
    · have hstep : inputStep c pm (out, ls) (iPort kp) = .ok (out.emplace (oPort kp) [m], (ls.erase (iPort kp)).emplace (iPort kp) m) := by
        unfold inputStep
        rw [hmsg]
        simp only [bind, Except.bind, hpm kp hk1 hk2]
        split
        · rename_i l hl
          rw [hl] at hnew
          simp only [Option.map_some, newer, decide_eq_true_eq] at hnew
          rw [if_pos hnew]
        · rfl
      have hnone := ho kp (by simp)
      have hhas : out.has (oPort kp) = false := by simp [Map.has, hnone]
      obtain ⟨out', ls', h1, h2, h3, h4, h5⟩ := ih hps' hnd.2 (out.emplace (oPort kp) [m]) ((ls.erase (iPort kp)).emplace (iPort kp) m) (by
          intro k hk
          rw [Map.emplace, hhas]
          simp only [Bool.false_eq_true, if_false]
          rw [Map.find?_put_ne]
          · exact ho k (List.mem_cons_of_mem _ hk)
          · intro he
            have := oPort_inj he
            subst this
            exact hnd.1 hk) (hs.emplace _ _) (by
          intro q hqk
          rw [Map.emplace, hhas] at hqk
          simp only [Bool.false_eq_true, if_false] at hqk
          rcases (Map.mem_keys_put _ _ _ _).1 hqk with rfl | h
          · exact ⟨kp, hk1, hk2, rfl⟩
          · exact hq q h)
      have hlsf : ∀ q, ((ls.erase (iPort kp)).emplace (iPort kp) m).find? q = if q = iPort kp then some m else ls.find? q := by
        intro q
        have he : (ls.erase (iPort kp)).has (iPort kp) = false := by simp [Map.has, Map.find?_erase]
        rw [Map.emplace, he]
        simp only [Bool.false_eq_true, if_false]
        rw [Map.find?_put]
        split
        · rfl
        · rename_i hne; rw [Map.find?_erase, if_neg hne]
      refine ⟨out', ls', ?_, h2, h3, ?_, ?_⟩
      · rw [List.foldlM_cons, hstep]; exact h1
      · intro k hk1' hk2'
        rw [h4 k hk1' hk2', hlsf]
        by_cases he : k = kp
        · subst he
          rw [if_neg (by rintro ⟨h, _⟩; exact hnd.1 h), if_pos]
          · rw [Map.emplace, hhas, hm]; simp
          · rw [hm]; exact ⟨by simp, hnew⟩
        · have hne : iPort k ≠ iPort kp := fun h => he (iPort_inj h)
          have hne' : oPort k ≠ oPort kp := fun h => he (oPort_inj h)
          rw [if_neg hne, Map.emplace, hhas]
          simp only [Bool.false_eq_true, if_false, List.mem_cons, hne, false_or]
          rw [Map.find?_put_ne _ _ hne']
      · intro p hp
        rw [h5 p hp, hlsf]
        by_cases he : p = iPort kp
        · subst he
          rw [if_neg (by rintro ⟨h, _⟩; exact hnd.1 h), if_pos rfl, if_pos]
          · rw [hm]
          · rw [hm]; exact ⟨by simp, hnew⟩
        · rw [if_neg he]
          simp only [List.mem_cons, he, false_or]
    · have hstep : inputStep c pm (out, ls) (iPort kp) = .ok (out, ls) := by
        unfold inputStep
        rw [hmsg]
        simp only [bind, Except.bind]
        split
        · rename_i l hl
          rw [hl] at hnew
          simp only [Option.map_some, newer, decide_eq_true_eq] at hnew
          rw [if_neg hnew]
        · rename_i hl
          rw [hl] at hnew
          exact absurd rfl hnew
      obtain ⟨out', ls', h1, h2, h3, h4, h5⟩ := ih hps' hnd.2 out ls (fun k hk => ho k (List.mem_cons_of_mem _ hk)) hs hq
      refine ⟨out', ls', ?_, h2, h3, ?_, ?_⟩
      · rw [List.foldlM_cons, hstep]; exact h1
      · intro k hk1' hk2'
        rw [h4 k hk1' hk2']
        by_cases he : k = kp
        · subst he
          rw [if_neg (by rintro ⟨h, _⟩; exact hnd.1 h), if_neg]
          rw [hm]; rintro ⟨_, h⟩; exact hnew h
        · have hne : iPort k ≠ iPort kp := fun h => he (iPort_inj h)
          simp only [List.mem_cons, hne, false_or]
      · intro p hp
        rw [h5 p hp]
        by_cases he : p = iPort kp
        · subst he
          rw [if_neg (by rintro ⟨h, _⟩; exact hnd.1 h), if_neg]
          rw [hm]; rintro ⟨_, h⟩; exact hnew h
        · simp only [List.mem_cons, he, false_or]

/-- What one port forwards at an execution, and the new last time. -/
def fwd (pend : Option (Msg V)) (last : Option UInt64) : List (Msg V) × Option UInt64 :=
  match pend with
  | none => ([], last)
  | some m => if newer last m.time then ([m], some m.time) else ([], last)

theorem exec {n : Nat} {pend : Str → Option (Msg V)} {last : Str → Option UInt64} {o : Op V} (hi : Inv n pend last o) :
    ∃ out o', o.execData = .ok out o' ∧ (∀ q ∈ out.keys, IsPort oPort n q) ∧
      (∀ k, 1 ≤ k → k ≤ n → msgsOn (oPort k) out = (fwd (pend (iPort k)) (last (iPort k))).1) ∧
      Inv n (fun _ => none) (fun p => (fwd (pend p) (last p)).2) o' := by
  have hi' := hi
  obtain ⟨⟨pm, ls, hk, hpm, hls⟩, hs, hkeys, hlen, hb, hr, hset⟩ := hi'
  have hbase : o.kind.isBase = true := by rw [hk]; rfl
  have hready : o.core.readyPorts = .ok o.core.toProcess := by
    unfold Core.readyPorts
    rw [if_pos]
    · congr 1
      rw [List.filter_eq_self]
      intro p hp
      obtain ⟨h1, h2⟩ := (hr p).1 hp
      obtain ⟨m, hm⟩ := Option.isSome_iff_exists.1 h2
      obtain ⟨i, e1, e2, _, e4⟩ := hb p h1
      rw [e1]; simp [e2, e4 m hm]
    · rw [List.all_eq_true]
      intro p hp
      rw [Core.isData, Map.has_iff, hkeys]
      exact ((hr p).1 hp).1
  have hdm : ∀ c : Core V, c.dataIn = o.core.dataIn → ∀ p, IsPort iPort n p → ∀ m, pend p = some m → c.dataMsg p 0 = .ok m := by
    intro c hc p hp m hm
    obtain ⟨i, e1, _, _, e4⟩ := hb p hp
    simp [Core.dataMsg, hc, e1, e4 m hm]
  have hnd : o.core.toProcess.Nodup := List.Pairwise.imp (fun h => strLt_ne h) hset
  obtain ⟨out', ls', h1, h2, h3, h4, h5⟩ := loop (c := o.core) hpm (hdm _ rfl) o.core.toProcess (fun p hp => (hr p).1 hp) hnd [] ls
    (fun _ _ => rfl) Map.Sorted.nil (by simp [Map.keys])
  have hfwd : ∀ p, IsPort iPort n p → (if p ∈ o.core.toProcess ∧ newer ((ls.find? p).map (·.time)) ((pend p).elim 0 (·.time)) = true
      then (pend p).map (·.time) else (ls.find? p).map (·.time)) = (fwd (pend p) (last p)).2 := by
    intro p hp
    rw [hls p hp]
    cases hpd : pend p with
    | none =>
      rw [if_neg (by rw [hr, hpd]; simp)]; rfl
    | some m =>
      have hmem : p ∈ o.core.toProcess := (hr p).2 ⟨hp, by rw [hpd]; rfl⟩
      by_cases hn : newer (last p) m.time = true
      · rw [if_pos ⟨hmem, hn⟩]; simp [fwd, hn]
      · rw [if_neg (fun h => hn h.2)]; simp [fwd, hn]
  have hmsgs : ∀ k, 1 ≤ k → k ≤ n → msgsOn (oPort k) out' = (fwd (pend (iPort k)) (last (iPort k))).1 := by
    intro k hk1 hk2
    have hp : IsPort iPort n (iPort k) := ⟨k, hk1, hk2, rfl⟩
    unfold msgsOn
    rw [h4 k hk1 hk2]
    rw [hls _ hp]
    cases hpd : pend (iPort k) with
    | none =>
      rw [if_neg (by rw [hr, hpd]; simp)]; rfl
    | some m =>
      have hmem : iPort k ∈ o.core.toProcess := (hr _).2 ⟨hp, by rw [hpd]; rfl⟩
      by_cases hn : newer (last (iPort k)) m.time = true
      · rw [if_pos ⟨hmem, hn⟩]; simp [fwd, hn]
      · rw [if_neg (fun h => hn h.2)]; simp [fwd, hn]
  rw [execData_base hbase]
  unfold Op.execBase
  rw [hready]
  simp only
  by_cases he : o.core.toProcess = []
  · rw [if_pos he]
    have hnone : ∀ p, IsPort iPort n p → pend p = none := by
      intro p hp
      cases hpd : pend p with
      | none => rfl
      | some m =>
        have := (hr p).2 ⟨hp, by rw [hpd]; rfl⟩
        rw [he] at this; simp at this
    refine ⟨[], _, rfl, by simp [Map.keys], ?_, ?_⟩
    · intro k hk1 hk2
      rw [hnone _ ⟨k, hk1, hk2, rfl⟩]
      rfl
    · refine ⟨⟨pm, ls, hk, hpm, ?_⟩, hs, hkeys, hlen, ?_, ?_, hset⟩
      · intro p hp; rw [hls p hp, hnone p hp]; rfl
      · intro p hp
        obtain ⟨i, e1, e2, e3, _⟩ := hb p hp
        exact ⟨i, e1, e2, e3, by intro m h; cases h⟩
      · intro p
        simp [he]
  · rw [if_neg he]
    have hproc : Op.process { core := { o.core with toProcess := o.core.toProcess }, kind := o.kind } = .ok (out', .input pm ls') := by
      simp only [Op.process, hk, procInput, h1]
      rfl
    rw [hproc]
    simp only
    refine ⟨out', _, rfl, h3, hmsgs, ⟨⟨pm, ls', rfl, hpm, ?_⟩, hs, hkeys, hlen, ?_, ?_, List.Pairwise.nil⟩⟩
    · intro p hp
      rw [h5 p hp, hfwd p hp]
    · intro p hp
      obtain ⟨i, e1, e2, e3, _⟩ := hb p hp
      exact ⟨i, e1, e2, e3, by intro m h; cases h⟩
    · intro p; simp

/-- Calls the gate accepts: data messages for its ports, executions. -/
def Valid (n : Nat) : Act V → Prop
  | .recvData q _ => IsPort iPort n q ∨ (q = [] ∧ n = 1)
  | .recvCtrl _ _ => False
  | _ => True

theorem run {n : Nat} : ∀ (as : List (Act V)) (pend : Str → Option (Msg V)) (last : Str → Option UInt64) (o : Op V), Inv n pend last o →
    (∀ a ∈ as, Valid n a) →
    ∃ outs, results o as = outs.map .ok ∧ (∀ out ∈ outs, ∀ q ∈ out.keys, IsPort oPort n q) ∧
      ∀ k, 1 ≤ k → k ≤ n → emittedOn (oPort k) outs = gate (n == 1) (iPort k) (pend (iPort k)) (last (iPort k)) as := by
  intro as
  induction as with
  | nil => intro _ _ _ _ _; exact ⟨[], rfl, by simp, fun k _ _ => by simp [emittedOn, gate]⟩
  | cons a as ih =>
    intro pend last o hi hv
    have hv' : ∀ a ∈ as, Valid n a := fun x hx => hv x (List.mem_cons_of_mem _ hx)
    have hva := hv a (by simp)
    cases a with
    | recvCtrl p q => exact hva.elim
    | execCtrl =>
      obtain ⟨outs, h1, h2, h3⟩ := ih pend last o hi hv'
      obtain ⟨pm, ls, hk, _⟩ := hi.kind
      have hx : o.execCtrl = .ok [] o := by unfold Op.execCtrl; rw [hk]
      refine ⟨[] :: outs, ?_, ?_, ?_⟩
      · simp [results, act, hx, h1]
      · intro out ho
        rcases List.mem_cons.1 ho with rfl | ho
        · simp [Map.keys]
        · exact h2 out ho
      · intro k hk1 hk2
        rw [emittedOn_cons, h3 k hk1 hk2]
        simp [msgsOn, gate]
    | recvData q m =>
      obtain ⟨o', e1, e2⟩ := recv hi q m hva
      obtain ⟨outs, h1, h2, h3⟩ := ih _ last o' e2 hv'
      refine ⟨[] :: outs, ?_, ?_, ?_⟩
      · simp [results, act, e1, h1]
      · intro out ho
        rcases List.mem_cons.1 ho with rfl | ho
        · simp [Map.keys]
        · exact h2 out ho
      · intro k hk1 hk2
        rw [emittedOn_cons, h3 k hk1 hk2]
        simp only [msgsOn, Map.find?_nil, List.nil_append, gate]
        congr 1
        have hiff : (q = iPort k ∨ q = [] ∧ n = 1 ∧ iPort k = iPort 1) ↔ (q = iPort k ∨ q = [] ∧ (n == 1) = true) := by
          constructor
          · rintro (h | ⟨h, h', _⟩)
            · exact Or.inl h
            · exact Or.inr ⟨h, by simp [h']⟩
          · rintro (h | ⟨h, h'⟩)
            · exact Or.inl h
            · have h'' : n = 1 := by simpa using h'
              have : k = 1 := by omega
              exact Or.inr ⟨h, h'', by rw [this]⟩
        simp only [hiff]
    | execData =>
      obtain ⟨out, o', e1, e2, e3, e4⟩ := exec hi
      obtain ⟨outs, h1, h2, h3⟩ := ih _ _ o' e4 hv'
      refine ⟨out :: outs, ?_, ?_, ?_⟩
      · simp [results, act, e1, h1]
      · intro x ho
        rcases List.mem_cons.1 ho with rfl | ho
        · exact e2
        · exact h2 x ho
      · intro k hk1 hk2
        rw [emittedOn_cons, h3 k hk1 hk2, e3 k hk1 hk2]
        simp only [gate, fwd]
        cases pend (iPort k) with
        | none => simp
        | some m =>
          simp only
          split <;> simp

theorem init (id : Str) (n : Nat) (o : Op V) (h : Op.newInput id n = .ok o) : Inv n (fun _ => none) (fun _ => none) o := by
  obtain ⟨c, pm, h1, h2, _, _, _, h6, _, _, _, h10⟩ := addPorts_spec (V := V) id 1 n
  unfold Op.newInput at h
  rw [h1] at h
  cases h
  refine ⟨⟨pm, [], rfl, h10, fun _ _ => rfl⟩, h2.sorted, h2.keys, h2.length, ?_, ?_, ?_⟩
  · rintro p ⟨k, hk1, hk2, rfl⟩
    exact ⟨_, h2.find k hk1 hk2, rfl, by simp [Inp.new], by intro m h; cases h⟩
  · intro p
    simp only
    rw [h6]; simp
  · simp only
    rw [h6]; exact List.Pairwise.nil

theorem gate_oneByOne (sole : Bool) (p : Str) (xs : List (Str × Msg V)) (last : Option UInt64) :
    gate sole p none last (oneByOne xs) =
      records last ((xs.filter fun x => decide (x.1 = p ∨ (x.1 = [] ∧ sole = true))).map (·.2)) := by
  induction xs generalizing last with
  | nil => rfl
  | cons x xs ih =>
    have : oneByOne (x :: xs) = .recvData x.1 x.2 :: .execData :: oneByOne xs := by simp [oneByOne]
    rw [this, List.filter_cons]
    simp only [gate]
    by_cases h : x.1 = p ∨ (x.1 = [] ∧ sole = true)
    · simp only [h, if_true, decide_true, List.map_cons, records]
      split <;> rw [ih]
    · simp only [h, if_false, decide_false, Bool.false_eq_true]
      exact ih last

theorem records_increasing (ms : List (Msg V)) : ∀ last : Option UInt64, Increasing (records last ms) ∧
    ∀ l, last = some l → ∀ m ∈ records last ms, l < m.time := by
  induction ms with
  | nil => intro last; exact ⟨List.Pairwise.nil, by simp [records]⟩
  | cons m ms ih =>
    intro last
    unfold records
    split
    · rename_i hn
      obtain ⟨h1, h2⟩ := ih (some m.time)
      refine ⟨List.pairwise_cons.2 ⟨fun x hx => h2 _ rfl x hx, h1⟩, ?_⟩
      intro l hl x hx
      subst hl
      have hlm : l < m.time := by simpa [newer] using hn
      rcases List.mem_cons.1 hx with rfl | hx
      · exact hlm
      · exact UInt64.lt_trans hlm (h2 _ rfl x hx)
    · exact ih last

end Gate
end Rtbot
