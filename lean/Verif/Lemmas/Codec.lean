import Verif.Spec.Codec
import Verif.Lemmas.Built
import Verif.Lemmas.LocalEnd

/-! # Reading back what was written -/

set_option linter.unusedSectionVars false

namespace Rtbot
variable {V : Type} [Num V]
open Spec

theorem Spec.Reads.pure {α : Type} (a : α) : Reads (Pure.pure a : Reader α) [] a := fun _ => rfl

theorem Spec.Reads.bind {α β : Type} {r : Reader α} {f : α → Reader β} {b1 b2 : Bytes} {a : α} {c : β} (h1 : Reads r b1 a)
    (h2 : Reads (f a) b2 c) : Reads (r >>= f) (b1 ++ b2) c := by
  intro rest
  change Reader.bind r f _ = _
  unfold Reader.bind
  rw [List.append_assoc, h1]
  exact h2 rest

/-- The last step of a reader consumes nothing. -/
theorem Spec.Reads.map {α β : Type} {r : Reader α} {f : α → β} {bs : Bytes} {a : α} (h : Reads r bs a) :
    Reads (r >>= fun x => (Pure.pure (f x) : Reader β)) bs (f a) := by
  have := h.bind (f := fun x => (Pure.pure (f x) : Reader β)) (Reads.pure (f a))
  rwa [List.append_nil] at this

theorem length_leBytes (k n : Nat) : (leBytes k n).length = k := by
  induction k generalizing n with
  | zero => rfl
  | succ k ih => simp [leBytes, ih]

theorem ofLe_leBytes (k n : Nat) : ofLe (leBytes k n) = n % 256 ^ k := by
  induction k generalizing n with
  | zero => simp [leBytes, ofLe, Nat.mod_one]
  | succ k ih =>
    have e : (UInt8.ofNat (n % 256)).toNat = n % 256 := by
      rw [UInt8.toNat_ofNat']
      exact Nat.mod_mod n 256
    rw [leBytes, ofLe, ih, e, Nat.pow_succ, Nat.mul_comm (256 ^ k) 256, Nat.mod_mul]

theorem reads_bytes (bs : Bytes) : Reads (getBytes bs.length) bs bs := by
  induction bs with
  | nil => exact Reads.pure []
  | cons b bs ih =>
    intro rest
    change (Reader.bind (getBytes bs.length) fun rest => Reader.pure (b :: rest)) (bs ++ rest) = _
    unfold Reader.bind
    rw [ih rest]
    rfl

theorem reads_le (k n : Nat) : Reads (getBytes k) (leBytes k n) (leBytes k n) := by
  have := reads_bytes (leBytes k n)
  rwa [length_leBytes] at this

theorem reads_size {n : Nat} (h : Word n) : Reads getSize (putSize n) n := by
  have := (reads_le 8 n).map (f := ofLe)
  rw [ofLe_leBytes, Nat.mod_eq_of_lt (by rw [show (256 : Nat) ^ 8 = 2 ^ 64 by decide]; exact h)] at this
  exact this

theorem reads_u64 (x : UInt64) : Reads getU64 (putU64 x) x := by
  have := (reads_size (n := x.toNat) x.toNat_lt).map (f := UInt64.ofNat)
  rw [UInt64.ofNat_toNat] at this
  exact this

theorem reads_val [LosslessBits V] (v : V) : Reads getVal (putVal v) v := by
  have := (reads_u64 (Num.bits v)).map (f := (Num.ofBits : UInt64 → V))
  rw [LosslessBits.ofBits_bits] at this
  exact this

theorem reads_bool (b : Bool) : Reads getBool (putBool b) b := by
  intro rest
  cases b <;> rfl

theorem reads_str {s : Str} (h : Word s.length) : Reads getStr (putStr s) s := (reads_size h).bind (reads_bytes s)

theorem reads_many {α : Type} {r : Reader α} (put : α → Bytes) (as : List α) (h : ∀ a ∈ as, Reads r (put a) a) :
    Reads (getMany r as.length) (as.flatMap put) as := by
  induction as with
  | nil => exact Reads.pure []
  | cons a as ih =>
    have h1 := h a List.mem_cons_self
    have h2 := ih fun b hb => h b (List.mem_cons_of_mem _ hb)
    rw [List.flatMap_cons]
    exact h1.bind h2.map

theorem reads_msg [LosslessBits V] (m : Msg V) : Reads getMsg m.collect m :=
  (reads_u64 m.time).bind (reads_val m.value).map

theorem reads_inp [LosslessBits V] (e : Str × Inp V) (h : InpFits e) : Reads getPortInp (putStr e.1 ++ e.2.collect) e.2 := by
  refine (reads_str h.port).bind ?_
  unfold Inp.collect
  simp only [List.append_assoc]
  exact (reads_str h.id).bind ((reads_size h.max).bind ((reads_val e.2.sum).bind ((reads_size h.data).bind
    (reads_many Msg.collect e.2.data fun m _ => reads_msg m).map)))

theorem reads_inps [LosslessBits V] (m : Map (Inp V)) (h : ∀ e ∈ m, InpFits e) :
    Reads (getMany getPortInp m.length) (m.flatMap fun e => putStr e.1 ++ e.2.collect) (m.map (·.2)) := by
  induction m with
  | nil => exact Reads.pure []
  | cons e m ih =>
    have h1 := reads_inp e (h e List.mem_cons_self)
    have h2 := ih fun b hb => h b (List.mem_cons_of_mem _ hb)
    rw [List.flatMap_cons]
    exact h1.bind h2.map

/-! ## Rebuilding maps and sets -/

theorem find?_restoreInputs (is : List (Inp V)) (m : Map (Inp V)) (k : Str) (hn : (is.map Inp.id).Nodup) :
    (restoreInputs m is).find? k = match is.find? (fun i => decide (i.id = k)) with
      | some i => some i
      | none => m.find? k := by
  induction is generalizing m with
  | nil => rfl
  | cons i is ih =>
    rw [List.map_cons, List.nodup_cons] at hn
    rw [restoreInputs, ih _ hn.2, List.find?_cons]
    have e1 : (m.erase i.id).find? i.id = none := by rw [Map.find?_erase, if_pos rfl]
    have hne : (m.erase i.id).has i.id = false := by unfold Map.has; rw [e1]; rfl
    by_cases h : i.id = k
    · rw [show decide (i.id = k) = true from decide_eq_true h]
      have : is.find? (fun i => decide (i.id = k)) = none := by
        rw [List.find?_eq_none]
        intro j hj
        simp only [decide_eq_true_eq]
        rintro rfl
        exact hn.1 (h ▸ List.mem_map_of_mem hj)
      rw [this]
      dsimp only
      unfold Map.emplace
      rw [hne, if_neg (by simp), ← h, Map.find?_put_self]
    · rw [show decide (i.id = k) = false from decide_eq_false h]
      dsimp only
      have e2 : ((m.erase i.id).emplace i.id i).find? k = m.find? k := by
        unfold Map.emplace
        rw [hne, if_neg (by simp), Map.find?_put_ne _ _ (fun e => h e.symm), Map.find?_erase, if_neg (fun e => h e.symm)]
      rw [e2]

theorem sorted_restoreInputs (is : List (Inp V)) {m : Map (Inp V)} (h : m.Sorted) : (restoreInputs m is).Sorted := by
  induction is generalizing m with
  | nil => exact h
  | cons i is ih => exact ih ((h.erase _).emplace _ _)

/-- Buffers are filed under their own ids. -/
def Filed (m : Map (Inp V)) : Prop := ∀ e ∈ m, e.2.id = e.1

theorem find?_vals {m : Map (Inp V)} (hf : Filed m) (k : Str) : (m.map (·.2)).find? (fun i => decide (i.id = k)) = m.find? k := by
  induction m with
  | nil => rfl
  | cons e m ih =>
    rw [List.map_cons, List.find?_cons, Map.find?_cons, hf e List.mem_cons_self]
    by_cases h : e.1 = k
    · rw [if_pos h, show decide (e.1 = k) = true from decide_eq_true h]
    · rw [if_neg h, show decide (e.1 = k) = false from decide_eq_false h]
      exact ih fun b hb => hf b (List.mem_cons_of_mem _ hb)

theorem restoreInputs_eq {m0 m : Map (Inp V)} (h0 : m0.Sorted) (hs : m.Sorted) (hf : Filed m) (hk : m0.keys = m.keys) :
    restoreInputs m0 (m.map (·.2)) = m := by
  have hids : (m.map (·.2)).map Inp.id = m.keys := by
    rw [List.map_map]
    exact List.map_congr_left fun e he => hf e he
  have hn : ((m.map (·.2)).map Inp.id).Nodup := by
    rw [hids]
    exact List.Pairwise.imp (fun h => strLt_ne h) hs
  apply (sorted_restoreInputs _ h0).ext hs
  intro k
  rw [find?_restoreInputs _ _ _ hn, find?_vals hf]
  cases hx : m.find? k with
  | some i => rfl
  | none =>
    dsimp only
    rw [Map.find?_none_iff] at hx ⊢
    rwa [hk]

theorem setInsert_fold {s t : List Str} (hs : SetSorted s) (hst : ∀ a ∈ t, ∀ b ∈ s, strLt a b = true) : s.foldl setInsert t = t ++ s := by
  induction s generalizing t with
  | nil => simp
  | cons a s ih =>
    rw [List.foldl_cons]
    have key : ∀ t : List Str, (∀ b ∈ t, strLt b a = true) → setInsert t a = t ++ [a] := by
      intro t ht
      induction t with
      | nil => rfl
      | cons b t iht =>
        have hb := ht b List.mem_cons_self
        rw [setInsert, if_neg (strLt_ne hb), if_neg (by rw [strLt_asymm hb]; simp), iht fun c hc => ht c (List.mem_cons_of_mem _ hc)]
        rfl
    have hs' : SetSorted s := (List.pairwise_cons.1 hs).2
    have ha := (List.pairwise_cons.1 hs).1
    rw [key t fun b hb => hst b hb a List.mem_cons_self, ih hs', List.append_assoc]
    · rfl
    · intro x hx b hb
      rw [List.mem_append, List.mem_singleton] at hx
      rcases hx with hx | rfl
      · exact hst x hx b (List.mem_cons_of_mem _ hb)
      · exact ha b hb

theorem find?_restoreLast (es : List (Str × Msg V)) (m : Map (Msg V)) (k : Str) (hn : (Map.keys es).Nodup) :
    (restoreLast m es).find? k = match Map.find? es k with
      | some i => some i
      | none => m.find? k := by
  induction es generalizing m with
  | nil => rfl
  | cons e es ih =>
    obtain ⟨p, x⟩ := e
    have hn' : p ∉ Map.keys es ∧ (Map.keys es).Nodup := by
      unfold Map.keys at hn ⊢
      rw [List.map_cons, List.nodup_cons] at hn
      exact hn
    rw [restoreLast, ih _ hn'.2, Map.find?_cons]
    have e1 : (m.erase p).find? p = none := by rw [Map.find?_erase, if_pos rfl]
    have hne : (m.erase p).has p = false := by unfold Map.has; rw [e1]; rfl
    by_cases h : p = k
    · subst h
      rw [if_pos rfl, (Map.find?_none_iff es p).2 hn'.1]
      dsimp only
      unfold Map.emplace
      rw [hne, if_neg (by simp), Map.find?_put_self]
    · rw [if_neg h]
      have e2 : ((m.erase p).emplace p x).find? k = m.find? k := by
        unfold Map.emplace
        rw [hne, if_neg (by simp), Map.find?_put_ne _ _ (fun e => h e.symm), Map.find?_erase, if_neg (fun e => h e.symm)]
      rw [e2]

theorem sorted_restoreLast (es : List (Str × Msg V)) {m : Map (Msg V)} (h : m.Sorted) : (restoreLast m es).Sorted := by
  induction es generalizing m with
  | nil => exact h
  | cons e es ih => exact ih ((h.erase _).emplace _ _)

theorem restoreLast_eq {m : Map (Msg V)} (hs : m.Sorted) : restoreLast [] m = m := by
  apply (sorted_restoreLast _ .nil).ext hs
  intro k
  rw [find?_restoreLast m [] k (List.Pairwise.imp (fun h => strLt_ne h) hs)]
  cases Map.find? m k <;> rfl

/-! ## Operators -/

/-- What the bytes of an operator leave open: everything that was written must be in place before reading. -/
structure CoreStart (c0 c : Core V) : Prop where
  fresh : c.fresh = c0.fresh
  idle : c0.toProcess = []
  wf : c0.WF
  data : Filed c.dataIn
  ctrl : Filed c.ctrlIn
  pend : SetSorted c.toProcess

theorem reads_core [LosslessBits V] {c0 c : Core V} (h : CoreStart c0 c) (hf : CoreFits c) : Reads c0.restore c.collect c := by
  have hw : c.WF := Core.WF.of_fresh h.fresh h.wf
  have e1 : c0.dataIn.keys = c.dataIn.keys := by
    rw [← keys_freshMap, ← keys_freshMap c.dataIn]; exact congrArg (fun c : Core V => c.dataIn.keys) h.fresh.symm
  have e2 : c0.ctrlIn.keys = c.ctrlIn.keys := by
    rw [← keys_freshMap, ← keys_freshMap c.ctrlIn]; exact congrArg (fun c : Core V => c.ctrlIn.keys) h.fresh.symm
  have hr : Reads c0.restore c.collect
      { c0 with dataIn := restoreInputs c0.dataIn (c.dataIn.map (·.2)), ctrlIn := restoreInputs c0.ctrlIn (c.ctrlIn.map (·.2)),
                toProcess := c.toProcess.foldl setInsert c0.toProcess } := by
    unfold Core.collect collectInputs
    simp only [List.append_assoc]
    exact (reads_size hf.nData).bind ((reads_inps _ hf.data).bind ((reads_size hf.nCtrl).bind ((reads_inps _ hf.ctrl).bind
      ((reads_size hf.nPend).bind (reads_many putStr c.toProcess fun p hp => reads_str (hf.pend p hp)).map))))
  rw [restoreInputs_eq h.wf.data hw.data h.data e1, restoreInputs_eq h.wf.ctrl hw.ctrl h.ctrl e2, h.idle,
    setInsert_fold h.pend (by intro a ha; cases ha), List.nil_append] at hr
  have e3 : c0.id = c.id := (congrArg (fun c : Core V => c.id) h.fresh.symm : c0.fresh.id = c.fresh.id)
  have e4 : c0.outIds = c.outIds := (congrArg (fun c : Core V => c.outIds) h.fresh.symm : c0.fresh.outIds = c.fresh.outIds)
  have e5 : c0.outputs = c.outputs := (congrArg (fun c : Core V => c.outputs) h.fresh.symm : c0.fresh.outputs = c.fresh.outputs)
  rw [e3, e4, e5] at hr
  exact hr

/-- The members the subclass adds, right after construction. -/
def KindStart : Kind V → Prop
  | .input _ last => last = []
  | .hermRes _ _ before => before = none
  | _ => True

/-- The entries of a port map are sorted. -/
def KindTidy : Kind V → Prop
  | .input _ last => last.Sorted
  | _ => True

/-- The subclasses that write all their members. -/
def Kind.written : Kind V → Bool
  | .rsi _ | .cumSum _ => false
  | _ => true

theorem reads_last [LosslessBits V] (pm : Map Str) (last : Map (Msg V)) (hf : KindFits (Kind.input pm last)) (ht : last.Sorted) :
    Reads (Kind.restore (.input pm [])) (Kind.collect (.input pm last)) (.input pm last) := by
  have h1 : ∀ e ∈ last, Reads getLast (putStr e.1 ++ e.2.collect) e := fun e he => (reads_str (hf.2 e he)).bind (reads_msg e.2).map
  have h2 := reads_many (fun e => putStr e.1 ++ e.2.collect) last h1
  have h3 : Reads (Kind.restore (.input pm [])) (Kind.collect (.input pm last)) (.input pm (restoreLast [] last)) :=
    (reads_size hf.1).bind (h2.map (f := fun es => Kind.input pm (restoreLast [] es)))
  rwa [restoreLast_eq ht] at h3

theorem reads_function [LosslessBits V] (ps0 : List (V × V)) (t0 : Interp) (points : List (V × V)) (type : Interp)
    (hf : Word points.length) : Reads (Kind.restore (.function ps0 t0)) (Kind.collect (.function points type)) (.function points type) := by
  have h1 : ∀ p ∈ points, Reads getPoint (putVal p.1 ++ putVal p.2) p := fun p _ => (reads_val p.1).bind (reads_val p.2).map
  have h2 := reads_many (fun p => putVal p.1 ++ putVal p.2) points h1
  simp only [Kind.collect, List.append_assoc]
  refine (reads_size hf).bind (h2.bind ?_)
  cases type with
  | linear =>
    have := (reads_le 4 0).map (f := fun t => Kind.function points (if ofLe t = 0 then .linear else .hermite))
    rw [ofLe_leBytes] at this
    exact this
  | hermite =>
    have := (reads_le 4 1).map (f := fun t => Kind.function points (if ofLe t = 0 then .linear else .hermite))
    rw [ofLe_leBytes] at this
    exact this

theorem reads_kind [LosslessBits V] {k0 k : Kind V} (h : k.fresh = k0.fresh) (hs : KindStart k0) (ht : KindTidy k) (hf : KindFits k)
    (hw : k.written = true) : Reads k0.restore k.collect k := by
  cases k with
  | input pm last =>
    cases k0 <;> try (cases h; done)
    rename_i pm0 last0
    have e1 : pm = pm0 := by simpa [Kind.fresh] using h
    have e2 : last0 = [] := hs
    subst e1 e2
    exact reads_last pm last hf ht
  | count n =>
    cases k0 <;> try (cases h; done)
    exact (reads_u64 n).map
  | «variable» v ini =>
    cases k0 <;> try (cases h; done)
    exact (reads_val v).bind (reads_bool ini).map
  | constRes dt next ini last =>
    cases k0 <;> try (cases h; done)
    unfold Kind.collect
    simp only [List.append_assoc]
    exact (reads_u64 dt).bind ((reads_u64 next).bind ((reads_bool ini).bind (reads_val last).map))
  | cosRes dt carry =>
    cases k0 <;> try (cases h; done)
    rename_i dt0 carry0
    have e1 : dt = dt0 := by simpa [Kind.fresh] using h
    subst e1
    exact (reads_u64 carry).map
  | hermRes dt carry before =>
    cases k0 <;> try (cases h; done)
    rename_i dt0 carry0 before0
    have e1 : dt = dt0 := by simpa [Kind.fresh] using h
    have e2 : before0 = none := hs
    subst e1 e2
    refine (reads_u64 carry).bind ?_
    cases before with
    | none =>
      have := (reads_bool false).bind (f := fun has => if has = true then (do
          let m ← getMsg
          pure (.hermRes dt carry (some m))) else (pure (.hermRes dt carry none) : Reader (Kind V))) (b2 := []) (Spec.Reads.pure _)
      rwa [List.append_nil] at this
    | some m => exact (reads_bool true).bind (reads_msg m).map
  | function points type =>
    cases k0 <;> try (cases h; done)
    exact reads_function _ _ points type hf
  | rsi => cases hw
  | cumSum => cases hw
  | _ => cases k0 <;> first | (cases h; done) | (cases h; exact Spec.Reads.pure _)

/-! ## States that occur -/

/-- Sets and maps are in order. -/
structure Tidy (o : Op V) : Prop where
  pend : SetSorted o.core.toProcess
  kind : KindTidy o.kind

theorem kindTidy_of_fresh {k k0 : Kind V} (h : k.fresh = k0.fresh) (h0 : ∀ pm last, k0 ≠ .input pm last) : KindTidy k := by
  cases k with
  | input pm last => cases k0 <;> first | (cases h; done) | exact absurd rfl (h0 _ _)
  | _ => trivial

theorem recvData_tidy {o o' : Op V} {m : Msg V} {p : Str} (ht : Tidy o) (h : o.recvData m p = .ok o') : Tidy o' := by
  have hb : ∀ {c}, o.core.receiveDataBase m p = .ok c → SetSorted c.toProcess := by
    intro c hc
    unfold Core.receiveDataBase at hc
    dsimp only at hc
    split at hc
    · cases hc
    · obtain ⟨i', _, h4⟩ := bind_eq_ok.1 hc
      cases h4
      exact ht.pend.insert _
  have hj : ∀ {c}, o.core.receiveDataJoin m p = .ok c → SetSorted c.toProcess := by
    intro c hc
    unfold Core.receiveDataJoin at hc
    split at hc
    · cases hc
    · split at hc
      · cases hc
      · cases hc; exact ht.pend
  unfold Op.recvData at h
  split at h
  all_goals
    obtain ⟨c', h1, h⟩ := bind_eq_ok.1 h
    cases h
    refine ⟨?_, ht.kind⟩
    first
      | exact hb h1
      | exact hj h1
      | (unfold Core.receiveDataDemux at h1
         dsimp only at h1
         split at h1
         · cases h1
         · cases h1; exact ht.pend)
      | (unfold Core.receiveDataAR at h1
         dsimp only at h1
         split at h1
         · cases h1
         · split at h1
           · cases h1
           · cases h1; exact ht.pend)

theorem recvCtrl_tidy {o o' : Op V} {m : Msg V} {p : Str} (ht : Tidy o) (h : o.recvCtrl m p = .ok o') : Tidy o' := by
  unfold Op.recvCtrl at h
  split at h
  all_goals
    obtain ⟨c', h1, h⟩ := bind_eq_ok.1 h
    cases h
    refine ⟨?_, ht.kind⟩
    first
      | (unfold Core.receiveCtrlDemux at h1
         dsimp only at h1
         split at h1
         · cases h1
         · cases h1; exact ht.pend)
      | (unfold Core.receiveCtrlBase at h1
         dsimp only at h1
         split at h1
         · cases h1
         · obtain ⟨i', _, h4⟩ := bind_eq_ok.1 h1
           cases h4
           exact ht.pend)

theorem inputStep_sorted {c : Core V} {pm : Map Str} {a a' : OpMsg V × Map (Msg V)} {p : Str} (hs : a.2.Sorted)
    (h : inputStep c pm a p = .ok a') : a'.2.Sorted := by
  unfold inputStep at h
  obtain ⟨m0, _, h⟩ := bind_eq_ok.1 h
  obtain ⟨out, last⟩ := a
  dsimp only at h
  have key : ∀ {a'}, (match pm.find? p with
    | none => undefined .endDeref
    | some q => .ok (out.emplace q [m0], (last.erase p).emplace p m0) : Except Err (OpMsg V × Map (Msg V))) = .ok a' → a'.2.Sorted := by
    intro a' h
    split at h
    · cases h
    · cases h; exact (hs.erase _).emplace _ _
  split at h
  · split at h
    · exact key h
    · cases h; exact hs
  · exact key h

theorem process_tidy {o : Op V} {out : OpMsg V} {k : Kind V} (ht : KindTidy o.kind) (h : o.process = .ok (out, k)) : KindTidy k := by
  cases hk : o.kind with
  | input pm last =>
    unfold Op.process at h
    rw [hk] at h ht
    change procInput o.core pm last = _ at h
    unfold procInput at h
    obtain ⟨⟨out', last'⟩, h1, h2⟩ := bind_eq_ok.1 h
    cases h2
    have : ∀ (ps : List Str) (a a' : OpMsg V × Map (Msg V)), a.2.Sorted → ps.foldlM (inputStep o.core pm) a = .ok a' → a'.2.Sorted := by
      intro ps
      induction ps with
      | nil => intro a a' hs h; cases h; exact hs
      | cons p ps ih =>
        intro a a' hs h
        rw [List.foldlM_cons] at h
        obtain ⟨a1, h3, h4⟩ := bind_eq_ok.1 h
        exact ih a1 a' (inputStep_sorted hs h3) h4
    exact this _ ([], last) _ ht h1
  | _ => exact kindTidy_of_fresh (process_fresh h) (by rw [hk]; intro _ _ h; cases h)

theorem execBase_tidy {o : Op V} (ht : Tidy o) : Tidy o.execBase.state := by
  unfold Op.execBase
  cases hr : o.core.readyPorts with
  | error e => exact ht
  | ok ready =>
    have hs : SetSorted ready := by
      unfold Core.readyPorts at hr
      split at hr
      · cases hr; exact List.Pairwise.filter _ ht.pend
      · cases hr
    dsimp only
    split
    · exact ⟨hs, ht.kind⟩
    · split
      · exact ⟨hs, ht.kind⟩
      · rename_i h'
        exact ⟨List.Pairwise.nil, process_tidy (o := { o with core := { o.core with toProcess := ready } }) ht.kind h'⟩

theorem execJoin_pend (o : Op V) : o.execJoin.state.core.toProcess = o.core.toProcess := by
  unfold Op.execJoin
  split
  · rfl
  · split
    · rfl
    · split
      · rfl
      · dsimp only
        split
        · split
          · rfl
          · split <;> rfl
        · rfl

theorem execDemux_pend (o : Op V) (cm : Map Str) : (o.execDemux cm).state.core.toProcess = o.core.toProcess := by
  unfold Op.execDemux
  split
  · split
    · rfl
    · dsimp only
      split
      · rfl
      · split
        · split
          · rfl
          · split <;> rfl
        · rfl
  · rfl

theorem execAR_pend (o : Op V) (as : List V) : (o.execAR as).state.core.toProcess = o.core.toProcess := by
  unfold Op.execAR
  split
  · split
    · rfl
    · split
      · rfl
      · split <;> rfl
  · rfl

theorem execVariable_pend (o : Op V) (v : V) (ini : Bool) : (o.execVariable v ini).state.core.toProcess = o.core.toProcess := by
  unfold Op.execVariable
  split
  · split
    · rfl
    · rfl
    · dsimp only
      split
      · split <;> rfl
      · split
        · rfl
        · split <;> rfl
  · rfl

theorem execData_tidy {o : Op V} (ht : Tidy o) : Tidy o.execData.state := by
  have hf := execData_fresh o
  have hk : ∀ r : Res (Op V) (OpMsg V), o.execData = r → (∀ pm last, o.kind ≠ .input pm last) → r.state.core.toProcess = o.core.toProcess → Tidy o.execData.state := by
    intro r hr h1 h2
    refine ⟨by rw [hr, h2]; exact ht.pend, kindTidy_of_fresh (congrArg Op.kind hf) h1⟩
  cases k : o.kind with
  | join => exact hk _ (by unfold Op.execData; rw [k]) (by rw [k]; intro _ _ h; cases h) (execJoin_pend o)
  | binary => exact hk _ (by unfold Op.execData; rw [k]) (by rw [k]; intro _ _ h; cases h) (execJoin_pend o)
  | linear => exact hk _ (by unfold Op.execData; rw [k]) (by rw [k]; intro _ _ h; cases h) (execJoin_pend o)
  | demux cm => exact hk _ (by unfold Op.execData; rw [k]) (by rw [k]; intro _ _ h; cases h) (execDemux_pend o cm)
  | autoReg as => exact hk _ (by unfold Op.execData; rw [k]) (by rw [k]; intro _ _ h; cases h) (execAR_pend o as)
  | «variable» v ini => exact hk _ (by unfold Op.execData; rw [k]) (by rw [k]; intro _ _ h; cases h) (execVariable_pend o v ini)
  | _ =>
    have : o.execData = o.execBase := by unfold Op.execData; rw [k]
    rw [this]
    exact execBase_tidy ht

theorem execCtrl_tidy {o : Op V} (ht : Tidy o) : Tidy o.execCtrl.state := by
  have hf := execCtrl_fresh o
  have hk : ∀ r : Res (Op V) (OpMsg V), o.execCtrl = r → (∀ pm last, o.kind ≠ .input pm last) → r.state.core.toProcess = o.core.toProcess → Tidy o.execCtrl.state := by
    intro r hr h1 h2
    refine ⟨by rw [hr, h2]; exact ht.pend, kindTidy_of_fresh (congrArg Op.kind hf) h1⟩
  cases k : o.kind with
  | demux cm => exact hk _ (by unfold Op.execCtrl; rw [k]) (by rw [k]; intro _ _ h; cases h) (execDemux_pend o cm)
  | «variable» v ini => exact hk _ (by unfold Op.execCtrl; rw [k]) (by rw [k]; intro _ _ h; cases h) (execVariable_pend o v ini)
  | _ =>
    have : o.execCtrl = .ok [] o := by unfold Op.execCtrl; rw [k]
    rw [this]
    exact ht

theorem Tidy.act {o : Op V} (ht : Tidy o) (a : Act V) : Tidy (act o a).1 := by
  cases a with
  | recvData p m =>
    unfold Spec.act
    dsimp only
    split
    · exact recvData_tidy ht (by assumption)
    · exact ht
  | recvCtrl p m =>
    unfold Spec.act
    dsimp only
    split
    · exact recvCtrl_tidy ht (by assumption)
    · exact ht
  | execData =>
    have := execData_tidy ht
    unfold Spec.act
    dsimp only
    split <;> (rename_i h; rw [h] at this; exact this)
  | execCtrl =>
    have := execCtrl_tidy ht
    unfold Spec.act
    dsimp only
    split <;> (rename_i h; rw [h] at this; exact this)

theorem Tidy.after {o : Op V} (ht : Tidy o) (as : List (Act V)) : Tidy (after o as) := by
  induction as generalizing o with
  | nil => exact ht
  | cons a as ih => exact ih (ht.act a)

theorem Spec.Built.kindStart {o : Op V} (h : Built o) : KindStart o.kind ∧ KindTidy o.kind := by
  cases h with
  | input h =>
    unfold Op.newInput at h
    obtain ⟨⟨c, pm⟩, h1, h2⟩ := bind_eq_ok.1 h
    cases h2
    exact ⟨rfl, .nil⟩
  | output h =>
    unfold Op.newOutput at h
    obtain ⟨⟨c, pm⟩, h1, h2⟩ := bind_eq_ok.1 h
    cases h2
    exact ⟨trivial, trivial⟩
  | join h =>
    unfold Op.newJoin at h
    split at h
    · cases h
    · obtain ⟨⟨c, pm⟩, h1, h2⟩ := bind_eq_ok.1 h
      cases h2
      exact ⟨trivial, trivial⟩
  | linear h =>
    unfold Op.newLinear at h
    split at h
    · cases h
    · obtain ⟨c, h1, h2⟩ := bind_eq_ok.1 h
      cases h2
      exact ⟨trivial, trivial⟩
  | demux h =>
    unfold Op.newDemux at h
    split at h
    · cases h
    · obtain ⟨⟨c, pm⟩, h1, h2⟩ := bind_eq_ok.1 h
      obtain ⟨c2, h3, h4⟩ := bind_eq_ok.1 h2
      cases h4
      exact ⟨trivial, trivial⟩
  | constRes h =>
    unfold Op.newConstRes at h
    split at h
    · cases h
    · cases h; exact ⟨trivial, trivial⟩
  | function h =>
    unfold Op.newFunction at h
    split at h
    · cases h
    · split at h
      · cases h
      · cases h; exact ⟨trivial, trivial⟩
  | hermRes => exact ⟨rfl, trivial⟩
  | _ => exact ⟨trivial, trivial⟩

theorem EmptyIns.filed {m : Map (Inp V)} (h : EmptyIns m) : Filed m := by
  intro e he
  obtain ⟨max, h1⟩ := h e he
  rw [h1]
  rfl

theorem Filed.of_fresh {m m' : Map (Inp V)} (h : freshMap m' = freshMap m) (hf : Filed m) : Filed m' := by
  intro e he
  have h1 : (e.1, e.2.fresh) ∈ freshMap m' := List.mem_map.2 ⟨e, he, rfl⟩
  rw [h] at h1
  obtain ⟨e', he', h2⟩ := List.mem_map.1 h1
  have e1 : e'.1 = e.1 := (congrArg Prod.fst h2 :)
  have e2 : e'.2.id = e.2.id := (congrArg (fun x : Str × Inp V => x.2.id) h2 :)
  rw [← e1, ← e2]
  exact hf e' he'

/-- What holds right after construction and connecting. -/
structure OpStart (o : Op V) : Prop where
  wf : o.core.WF
  idle : o.core.toProcess = []
  data : Filed o.core.dataIn
  ctrl : Filed o.core.ctrlIn
  kind : KindStart o.kind
  tidy : Tidy o

theorem Spec.Connected.start {o : Op V} (h : Connected o) : OpStart o := by
  obtain ⟨o0, outs, hb, rfl⟩ := h
  have hn := hb.new
  obtain ⟨k1, k2⟩ := hb.kindStart
  refine ⟨⟨hn.core.data, hn.core.ctrl⟩, hn.core.idle, hn.core.dataEmpty.filed, hn.core.ctrlEmpty.filed, k1, ?_, k2⟩
  have : o0.core.toProcess = [] := hn.core.idle
  change SetSorted o0.core.toProcess
  rw [this]
  exact List.Pairwise.nil

/-- Reading back the bytes of an operator into one with the same parameters. -/
theorem reads_op [LosslessBits V] {o0 o : Op V} (h0 : OpStart o0) (hf : o.fresh = o0.fresh) (ht : Tidy o) (hs : Fits o) (hw : o.kind.written = true) :
    Reads o0.restore o.collect o := by
  have hc := reads_core (c0 := o0.core) (c := o.core) ⟨congrArg Op.core hf, h0.idle, h0.wf, h0.data.of_fresh (congrArg (fun o : Op V => o.core.dataIn) hf),
    h0.ctrl.of_fresh (congrArg (fun o : Op V => o.core.ctrlIn) hf), ht.pend⟩ hs.1
  have hk := reads_kind (k0 := o0.kind) (k := o.kind) (congrArg Op.kind hf) h0.kind ht.kind hs.2 hw
  have e1 : o.collect = o.core.collect ++ o.kind.collect := by
    unfold Op.collect
    cases h : o.kind <;> first | rfl | (rw [h] at hw; cases hw)
  have hw0 : ∀ acc, o0.kind ≠ .cumSum acc := by
    intro acc h
    have h' : o.kind.fresh = o0.kind.fresh := congrArg Op.kind hf
    rw [h] at h'
    cases h2 : o.kind <;> rw [h2] at h' hw <;> first | (cases h'; done) | cases hw
  have e2 : o0.restore = o0.core.restore >>= fun c => o0.kind.restore >>= fun k => (Pure.pure ⟨c, k⟩ : Reader (Op V)) := by
    unfold Op.restore
    cases h : o0.kind <;> first | rfl | exact absurd h (hw0 _)
  rw [e1, e2]
  exact hc.bind hk.map

theorem reads_cumSum [LosslessBits V] {o0 o : Op V} {a0 a : V} (h0 : o0.kind = .cumSum a0) (h : o.kind = .cumSum a) :
    Reads o0.restore o.collect { o0 with kind := .cumSum a } := by
  unfold Op.restore Op.collect
  rw [h0, h]
  exact (reads_val a).map

theorem reads_rsi [LosslessBits V] {o0 o : Op V} (h0 : OpStart o0) (hf : o.fresh = o0.fresh) (ht : Tidy o) (hs : Fits o) {x0 x : Option (V × V)}
    (hk0 : o0.kind = .rsi x0) (hk : o.kind = .rsi x) : Reads o0.restore o.collect ⟨o.core, .rsi x0⟩ := by
  have hc := reads_core (c0 := o0.core) (c := o.core) ⟨congrArg Op.core hf, h0.idle, h0.wf, h0.data.of_fresh (congrArg (fun o : Op V => o.core.dataIn) hf),
    h0.ctrl.of_fresh (congrArg (fun o : Op V => o.core.ctrlIn) hf), ht.pend⟩ hs.1
  unfold Op.restore Op.collect
  rw [hk0, hk]
  exact hc.bind (b2 := []) (Spec.Reads.pure _)

theorem SameParams.fresh {o o' : Op V} (h : SameParams o o') : o.fresh = o'.fresh := by
  obtain ⟨c, k⟩ := o
  obtain ⟨c', k'⟩ := o'
  obtain ⟨h1, h2⟩ := h
  cases h1
  rcases h2 with h2 | ⟨dt, t, v, t', v', h2, h3⟩
  · cases h2; rfl
  · cases h2; cases h3; rfl

theorem after_fresh {o : Op V} (hw : o.core.WF) (as : List (Act V)) : (after o as).fresh = o.fresh := by
  induction as generalizing o with
  | nil => rfl
  | cons a as ih =>
    have h1 := act_fresh o hw a
    exact (ih (Core.WF.of_fresh (congrArg Op.core h1) hw)).trans h1

end Rtbot
