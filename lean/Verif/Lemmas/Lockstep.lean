import Verif.Lemmas.OrderConsume
import Verif.Lemmas.SyncOps
import Verif.Lemmas.Flow
import Verif.Spec.Lockstep

/-! # Operators in step: calls on one operator -/

set_option linter.unusedSectionVars false

namespace Rtbot
open Spec
variable {V : Type} [Num V]

namespace Lockstep
open Order Times

/-! ## Calls -/

theorem execOk_prefix {o : Op V} {as bs : List (Act V)} (h : ExecOk o (as ++ bs)) : ExecOk o as := by
  intro pre post he
  exact h pre (post ++ bs) (by rw [he]; simp)

theorem execOk_exec {o : Op V} {as : List (Act V)} (h : ExecOk o (as ++ [.execData])) : ∃ out o', (after o as).execData = .ok out o' :=
  h as [] rfl

theorem execOk_recv {o : Op V} {as : List (Act V)} (h : ExecOk o as) (a : Act V) (ha : a ≠ .execData) : ExecOk o (as ++ [a]) := by
  intro pre post he
  rcases List.eq_nil_or_concat post with rfl | ⟨post', x, rfl⟩
  · have := (List.append_inj' he rfl).2
    cases this
    exact absurd rfl ha
  · rw [List.concat_eq_append, ← List.cons_append, ← List.append_assoc] at he
    exact h pre post' (List.append_inj' he rfl).1

theorem execOk_snoc {o : Op V} {as : List (Act V)} (h : ExecOk o as) (hx : ∃ out o', (after o as).execData = .ok out o') : ExecOk o (as ++ [.execData]) := by
  intro pre post he
  rcases List.eq_nil_or_concat post with rfl | ⟨post', x, rfl⟩
  · rw [(List.append_inj' he rfl).1] at hx
    exact hx
  · rw [List.concat_eq_append, ← List.cons_append, ← List.append_assoc] at he
    exact h pre post' (List.append_inj' he rfl).1

theorem after_wired (w : Map (List Conn)) (as : List (Act V)) : ∀ o : Op V, after (wired o w) as = wired (after o as) w := by
  induction as with
  | nil => intro o; rfl
  | cons a as ih => intro o; rw [after, after, Flow.act_wired, ih]

theorem execData_wired_ok {o : Op V} (w : Map (List Conn)) {out : OpMsg V} {o' : Op V} (h : (wired o w).execData = .ok out o') : ∃ o1, o.execData = .ok out o1 := by
  have := congrArg (fun x : Op V × Except Err (OpMsg V) => x.2) (Flow.act_wired o w .execData)
  simp only [act, h] at this
  cases hx : o.execData with
  | ok out1 o1 => rw [hx] at this; cases this; exact ⟨o1, rfl⟩
  | err e o1 => rw [hx] at this; cases this

theorem execOk_wired {o : Op V} (w : Map (List Conn)) {as : List (Act V)} (h : ExecOk (wired o w) as) : ExecOk o as := by
  intro pre post he
  obtain ⟨out, o', hx⟩ := h pre post he
  rw [after_wired] at hx
  obtain ⟨o1, h1⟩ := execData_wired_ok w hx
  exact ⟨out, o1, h1⟩

/-! ## Operators with windows -/

theorem port_after {o0 : Op V} (hb : Built o0) (as : List (Act V)) {p : Str} {i : Inp V} (hi : (after o0 as).core.dataIn.find? p = some i) :
    ∃ i0, o0.core.dataIn.find? p = some i0 := by
  have hw : o0.core.WF := ⟨hb.new.core.data, hb.new.core.ctrl⟩
  have h1 := congrArg (fun x : Op V => x.core.dataIn) (after_fresh hw as)
  have h2 : freshMap (after o0 as).core.dataIn = freshMap o0.core.dataIn := h1
  have h3 := find?_freshMap (after o0 as).core.dataIn p
  rw [h2, find?_freshMap, hi] at h3
  cases h4 : o0.core.dataIn.find? p with
  | none => rw [h4] at h3; cases h3
  | some i0 => exact ⟨i0, rfl⟩

theorem len_after {o0 : Op V} (hb : Built o0) (as : List (Act V)) : (after o0 as).core.dataIn.length = o0.core.dataIn.length := by
  have hw : o0.core.WF := ⟨hb.new.core.data, hb.new.core.ctrl⟩
  have h1 := congrArg (fun x : Op V => x.core.dataIn) (after_fresh hw as)
  have h2 : freshMap (after o0 as).core.dataIn = freshMap o0.core.dataIn := h1
  have := congrArg List.length h2
  simpa [freshMap] using this

theorem buf_after {o0 : Op V} (hb : Built o0) (hk : o0.kind.isBase = true) (as : List (Act V)) {p : Str} {i : Inp V}
    (hi : (after o0 as).core.dataIn.find? p = some i) :
    ∃ i0, o0.core.dataIn.find? p = some i0 ∧ i.max = i0.max ∧ 0 < i0.max ∧ i.data = lastN i0.max (addressed (o0.core.dataIn.length == 1) p as) := by
  obtain ⟨i0, hi0⟩ := port_after hb as hi
  obtain ⟨hpos, hinv⟩ := inv_start hb hk hi0
  have := (Buffers.inv_after hpos as hinv).win
  rw [List.nil_append, hi] at this
  obtain ⟨i', h1, h2, h3⟩ := this
  cases h1
  exact ⟨i0, hi0, h2, hpos, h3⟩

theorem getLast_lastN {α : Type} {n : Nat} (hn : 0 < n) (l : List α) : (lastN n l).getLast? = l.getLast? := by
  unfold lastN
  rw [List.getLast?_drop]
  split
  · next h => have : l = [] := List.length_eq_zero_iff.1 (by omega); rw [this]; rfl
  · rfl

/-- Every port waiting to be processed has received a message since the last execution, and its newest message has the current time. -/
theorem base_pend {o0 : Op V} (hb : Built o0) (hk : o0.kind.isBase = true) {as : List (Act V)} {t : UInt64} {b : Bool} (hs : InStep as t b) :
    ExecOk o0 as → ∀ p ∈ (after o0 as).core.toProcess, b = true ∧ ∃ l, (addressed (o0.core.dataIn.length == 1) p as).getLast? = some l ∧ l.time = t := by
  induction hs with
  | start t =>
    intro _ p hp
    rw [show (after o0 ([] : List (Act V))) = o0 from rfl, hb.new.core.idle] at hp
    cases hp
  | later _ _ ih =>
    intro hok p hp
    exact absurd (ih hok p hp).1 (by simp)
  | @recv as t b q m hs hm ih =>
    intro hok p hp
    have ih := ih (execOk_prefix hok)
    refine ⟨rfl, ?_⟩
    rw [addressed_append]
    have hold : p ∈ (after o0 as).core.toProcess → ∃ l, (addressed (o0.core.dataIn.length == 1) p as ++ addressed (o0.core.dataIn.length == 1) p [.recvData q m]).getLast? = some l ∧
        l.time = t := by
      intro hp
      obtain ⟨_, l, h1, h2⟩ := ih p hp
      simp only [addressed, List.filterMap_cons, List.filterMap_nil]
      split
      · rw [List.append_nil]; exact ⟨l, h1, h2⟩
      · next x hx =>
        split at hx
        · cases hx; exact ⟨m, by simp, hm⟩
        · cases hx
    rw [after_snoc] at hp
    simp only [act] at hp
    rw [recvData_base (base_after hb hk as)] at hp
    unfold Core.receiveDataBase at hp
    dsimp only at hp
    cases hf : (after o0 as).core.dataIn.find? ((after o0 as).core.resolveData q) with
    | none => rw [hf] at hp; exact hold hp
    | some i =>
      rw [hf] at hp
      dsimp only at hp
      cases hr : i.receive m with
      | error e => rw [hr] at hp; exact hold hp
      | ok i' =>
        rw [hr] at hp
        simp only [bind, Except.bind] at hp
        rcases (mem_setInsert _ _ _).1 hp with rfl | hp
        · have : addressed (o0.core.dataIn.length == 1) ((after o0 as).core.resolveData q) [.recvData q m] = [m] := by
            refine addressed_one ?_
            by_contra hx
            refine Buffers.resolve_ne hf (fun h' => hx (h'.imp id fun ⟨a, b⟩ => ⟨a, ?_⟩)) rfl
            rw [len_after hb] at b
            rw [b]; rfl
          rw [this]
          exact ⟨m, by simp, hm⟩
        · exact hold hp
  | @exec as t b hs ih =>
    intro hok p hp
    exfalso
    obtain ⟨out, o', hx⟩ := execOk_exec hok
    rw [after_snoc] at hp
    simp only [act, hx] at hp
    rw [execData_base (base_after hb hk as)] at hx
    unfold Op.execBase at hx
    split at hx
    · cases hx
    · dsimp only at hx
      split at hx
      · next hr => cases hx; rw [hr] at hp; cases hp
      · split at hx
        · cases hx
        · cases hx; cases hp

/-- What a kind in `Current` with a window does. -/
theorem current_cases {k : Kind V} (h : Current k) : k.isJoin = true ∨ (k.isBase = true ∧ (∃ pm, k = .output pm) ∨ (k.isBase = true ∧ IsLast k ∧ (∀ b, k ≠ .difference b) ∧ ∀ dt n, k ≠ .timeShift dt n)) := by
  cases k with
  | output pm => exact Or.inr (Or.inl ⟨rfl, _, rfl⟩)
  | join | binary | linear => exact Or.inl rfl
  | _ => first
    | exact h.elim
    | exact Or.inr (Or.inr ⟨rfl, trivial, fun _ => (by intro h; cases h), fun _ _ => (by intro h; cases h)⟩)

theorem stamp_current {k : Kind V} (h2 : ∀ b, k ≠ .difference b) (h3 : ∀ dt n, k ≠ .timeShift dt n) {t x : UInt64} (h : Stamp k t x) : x = t := by
  cases k with
  | difference b => exact absurd rfl (h2 b)
  | timeShift dt n => exact absurd rfl (h3 dt n)
  | _ => exact h

theorem built_identity {o : Op V} (hb : Built o) (hk : o.kind = .identity) : o.core.dataIn = [(i1, Inp.new i1 1)] := by
  have hn : ∀ {id n o}, Op.newInput id n = .ok o → o.kind ≠ (.identity : Kind V) := by
    intro id n o h
    unfold Op.newInput at h
    obtain ⟨⟨c, pm⟩, h1, h2⟩ := bind_eq_ok.1 h
    cases h2
    intro h; cases h
  cases hb with
  | identity => rfl
  | input h => exact absurd hk (hn h)
  | output h =>
    unfold Op.newOutput at h
    obtain ⟨⟨c, pm⟩, h1, h2⟩ := bind_eq_ok.1 h
    cases h2; cases hk
  | join h =>
    unfold Op.newJoin at h
    split at h
    · cases h
    · obtain ⟨⟨c, pm⟩, h1, h2⟩ := bind_eq_ok.1 h
      cases h2; cases hk
  | linear h =>
    unfold Op.newLinear at h
    split at h
    · cases h
    · obtain ⟨c, h1, h2⟩ := bind_eq_ok.1 h
      cases h2; cases hk
  | demux h =>
    unfold Op.newDemux at h
    split at h
    · cases h
    · obtain ⟨⟨c, pm⟩, h1, h2⟩ := bind_eq_ok.1 h
      obtain ⟨c2, h3, h4⟩ := bind_eq_ok.1 h2
      cases h4; cases hk
  | constRes h =>
    unfold Op.newConstRes at h
    split at h
    · cases h
    · cases h; cases hk
  | function h =>
    unfold Op.newFunction at h
    split at h
    · cases h
    · split at h
      · cases h
      · cases h; cases hk
  | _ => cases hk

theorem ready_mem {c : Core V} {ready : List Str} (h : c.readyPorts = .ok ready) {p : Str} (hp : p ∈ ready) :
    p ∈ c.toProcess ∧ ∃ i, c.dataIn.find? p = some i ∧ i.max ≤ i.data.length := by
  unfold Core.readyPorts at h
  split at h
  · cases h
    obtain ⟨h1, h2⟩ := List.mem_filter.1 hp
    refine ⟨h1, ?_⟩
    split at h2
    · next i hi => exact ⟨i, hi, by simpa using h2⟩
    · cases h2
  · cases h

/-- What an operator with windows emits in an execution has the current time. -/
theorem base_keeps {o0 : Op V} (hb : Built o0) (hk : o0.kind.isBase = true) (hc : Current o0.kind) {as : List (Act V)} {t : UInt64} {b : Bool} (hs : InStep as t b)
    (hok : ExecOk o0 as) {out : OpMsg V} {o' : Op V} (hx : (after o0 as).execData = .ok out o') : ∀ e ∈ out, ∀ m ∈ e.2, m.time = t := by
  have hpend := base_pend hb hk hs hok
  have hw : o0.core.WF := ⟨hb.new.core.data, hb.new.core.ctrl⟩
  have hkf : (after o0 as).kind.fresh = o0.kind.fresh := congrArg Op.kind (after_fresh hw as)
  rw [execData_base (base_after hb hk as)] at hx
  unfold Op.execBase at hx
  split at hx
  · cases hx
  · next ready hready =>
    dsimp only at hx
    split at hx
    · cases hx; intro e he; cases he
    · next hne =>
      split at hx
      · cases hx
      · next out1 k hr =>
        cases hx
        have hlast : ∀ p ∈ ready, ∀ i, (after o0 as).core.dataIn.find? p = some i → ∀ l, i.data.getLast? = some l → l.time = t := by
          intro p hp i hi l hl
          obtain ⟨h1, _⟩ := ready_mem hready hp
          obtain ⟨_, l', h2, h3⟩ := hpend p h1
          obtain ⟨i0, _, _, hpos, hd⟩ := buf_after hb hk as hi
          rw [hd, getLast_lastN hpos, h2] at hl
          cases hl
          exact h3
        have hfill : Filled ({ (after o0 as).core with toProcess := ready } : Core V) := by
          refine ⟨hne, fun p hp => ?_⟩
          obtain ⟨h1, i, hi, hl⟩ := ready_mem hready hp
          refine ⟨i, hi, fun h => ?_⟩
          obtain ⟨i0, _, hm, hpos, _⟩ := buf_after hb hk as hi
          rw [h] at hl
          simp only [List.length_nil] at hl
          omega
        rcases current_cases hc with h | ⟨_, pm, h⟩ | ⟨_, h1, h2, h3⟩
        · cases hkk : o0.kind <;> rw [hkk] at h hk <;> first | (cases h; done) | (cases hk; done)
        · have hko : (after o0 as).kind = .output pm := by
            rw [h] at hkf
            cases hkk : (after o0 as).kind <;> rw [hkk] at hkf <;> first | (cases hkf; rfl) | cases hkf
          unfold Op.process at hr
          simp only [hko] at hr
          obtain ⟨x, hx, hr⟩ := bind_eq_ok.1 hr
          cases hr
          refine foldlM_times (P := fun b : OpMsg V => ∀ e ∈ b, ∀ m ∈ e.2, m.time = t) (by intro e he; cases he) hx ?_
          intro b p r hp hb' hr
          obtain ⟨i, hi, hne'⟩ := hfill.2 p hp
          obtain ⟨m0, hm, hr⟩ := bind_eq_ok.1 hr
          have hget := dataLast_eq hi hne' hm
          split at hr
          · cases hr
          · next q hq =>
            cases hr
            intro e he m hme
            rcases mem_emplace he with he | rfl
            · exact hb' e he m hme
            · rw [List.mem_singleton.1 hme]
              exact hlast p hp i hi m0 hget
        · have hsame : o0.kind.fresh = (after o0 as).kind.fresh := hkf.symm
          have hid : (after o0 as).kind = .identity → o0.kind = .identity := by
            intro he
            rw [he] at hsame
            cases hkk : o0.kind <;> rw [hkk] at hsame <;> first | rfl | cases hsame
          have hdf : ∀ b, (after o0 as).kind ≠ .difference b := by
            intro b he
            rw [he] at hsame
            cases hkk : o0.kind <;> rw [hkk] at hsame h2 <;> first | exact absurd rfl (h2 _) | cases hsame
          have hts : ∀ dt n, (after o0 as).kind ≠ .timeShift dt n := by
            intro b n he
            rw [he] at hsame
            cases hkk : o0.kind <;> rw [hkk] at hsame h3 <;> first | exact absurd rfl (h3 _ _) | cases hsame
          have hout := process_last hfill (isLast_fresh hkf h1) (r := (out, k)) (fun he p i hd => by
              have hd0 := built_identity hb (hid he)
              dsimp only at hd
              obtain ⟨p', hp'⟩ := List.exists_mem_of_ne_nil _ hne
              obtain ⟨_, i', hi', hl⟩ := ready_mem hready hp'
              obtain ⟨i0, hi0, hm, _, hdat⟩ := buf_after hb hk as hi'
              rw [hd0] at hi0
              obtain ⟨_, rfl⟩ := find_one hi0
              rw [hd] at hi'
              obtain ⟨_, rfl⟩ := find_one hi'
              have hmx : (Inp.new i1 1 : Inp V).max = 1 := rfl
              rw [hmx] at hm hdat
              have : i'.data.length ≤ 1 := by
                rw [hdat]
                simp only [lastN, List.length_drop]
                omega
              omega) (fun b he => absurd he (hdf b)) hr
          rcases hout with h | ⟨p, i, l, x, hd, hp, hl, hxx, hst⟩
          · dsimp only at h; rw [h]; intro e he; cases he
          · dsimp only at hxx hd hp
            have hxt := stamp_current hdf hts hst
            have hlt := hlast p hp i (by rw [hd, Map.find?_cons, if_pos rfl]) l hl
            rw [hxx]
            intro e he m hm
            simp only [single, List.mem_singleton] at he
            subst he
            rw [List.mem_singleton.1 hm, hxt, hlt]

/-! ## Synchronising operators -/

/-- What the constructors of the synchronising operators ensure. -/
structure Syncs (o : Op V) (K : Kind V) (ps : List Str) (F : (Str → Msg V) → OpMsg V) : Prop where
  join : K.isJoin = true
  some : ps ≠ []
  named : [] ∉ ps
  emits : Sync.Emits K ps F
  kind : o.kind = K
  bufs : Sync.Bufs ps o (fun _ => [])

theorem newJoin_two {id : Str} {n : Nat} {o : Op V} (h : Op.newJoin id n = .ok o) : 2 ≤ n := by
  unfold Op.newJoin at h
  split at h
  · cases h
  · omega

theorem newLinear_two {id : Str} {coeff : List V} {o : Op V} (h : Op.newLinear id coeff = .ok o) : 2 ≤ coeff.length := by
  unfold Op.newLinear at h
  split at h
  · cases h
  · omega

theorem syncs_join {id : Str} {n : Nat} {o : Op V} (h : Op.newJoin id n = .ok o) : ∃ K ps F, Syncs o K ps F ∧ ∀ p, p ∈ ps ↔ p ∈ iPorts n := by
  obtain ⟨o', cm, ps, h1, h2, h3, h4, h5, h6, h7, h8⟩ := Sync.newJoin_spec (V := V) id n (newJoin_two h)
  rw [h] at h1
  cases h1
  exact ⟨_, ps, _, ⟨by rfl, h6, h7, Sync.emits_join (cm := cm) (by
    intro p hp
    obtain ⟨k, a, b, rfl⟩ := Sync.mem_iPorts.1 ((h4 p).1 hp)
    exact ⟨_, h8 k a b⟩), h2, h3⟩, h4⟩

theorem syncs_binary (id : Str) (op : BinOp) : Syncs (Op.newBinary id op : Op V) (.binary op) [i1, i2] (Sync.binOut op) :=
  ⟨rfl, by simp, by decide, Sync.emits_binary op, rfl, Sync.newBinary_bufs id op⟩

theorem syncs_linear {id : Str} {coeff : List V} {o : Op V} (h : Op.newLinear id coeff = .ok o) : ∃ K ps F, Syncs o K ps F ∧ ∀ p, p ∈ ps ↔ p ∈ iPorts coeff.length := by
  obtain ⟨o', ps, h1, h2, h3, h4, h5, h6, h7, h8⟩ := Sync.newLinear_spec (V := V) id coeff (newLinear_two h)
  rw [h] at h1
  cases h1
  exact ⟨_, ps, _, ⟨by rfl, h6, h7, Sync.emits_linear coeff (by omega), h2, h3⟩, h4⟩

theorem built_syncs {o : Op V} (hb : Built o) (hk : o.kind.isJoin = true) : ∃ K ps F, Syncs o K ps F := by
  cases hb with
  | join h => obtain ⟨K, ps, F, h1, _⟩ := syncs_join h; exact ⟨K, ps, F, h1⟩
  | linear h => obtain ⟨K, ps, F, h1, _⟩ := syncs_linear h; exact ⟨K, ps, F, h1⟩
  | binary id op => exact ⟨_, _, _, syncs_binary id op⟩
  | input h =>
    unfold Op.newInput at h
    obtain ⟨⟨c, pm⟩, h1, h2⟩ := bind_eq_ok.1 h
    cases h2; cases hk
  | output h =>
    unfold Op.newOutput at h
    obtain ⟨⟨c, pm⟩, h1, h2⟩ := bind_eq_ok.1 h
    cases h2; cases hk
  | demux h =>
    unfold Op.newDemux at h
    split at h
    · cases h
    · obtain ⟨⟨c, pm⟩, h1, h2⟩ := bind_eq_ok.1 h
      obtain ⟨c2, h3, h4⟩ := bind_eq_ok.1 h2
      cases h4; cases hk
  | constRes h =>
    unfold Op.newConstRes at h
    split at h
    · cases h
    · cases h; cases hk
  | function h =>
    unfold Op.newFunction at h
    split at h
    · cases h
    · split at h
      · cases h
      · cases h; cases hk
  | _ => cases hk

/-- The buffers of a synchronising operator are what the ports hold. -/
theorem syncs_state {o : Op V} {K : Kind V} {ps : List Str} {F : (Str → Msg V) → OpMsg V} (hS : Syncs o K ps F) {as : List (Act V)}
    (hv : ∀ a ∈ as, DataOnly ps a) (hinc : ∀ p ∈ ps, Increasing (sentTo p as)) :
    (after o as).kind = K ∧ Sync.Bufs ps (after o as) (buffered (after o as)) ∧ ∀ p ∈ ps, Increasing (buffered (after o as) p) := by
  obtain ⟨outs, T, _, _, _, _, _, _, R, D, hI⟩ := Sync.main hS.join hS.some hS.named hS.emits hS.kind hS.bufs as hv hinc (qs := ps) (fun _ => Iff.rfl)
  have hD : ∀ p ∈ ps, buffered (after o as) p = D p := by
    intro p hp
    obtain ⟨i, e1, e2⟩ := hI.bufs.find p hp
    simp only [buffered, e1]
    exact e2
  refine ⟨hI.kind, ⟨hI.bufs.sorted, hI.bufs.keys, fun p hp => ?_⟩, fun p hp => ?_⟩
  · obtain ⟨i, e1, e2⟩ := hI.bufs.find p hp
    exact ⟨i, e1, by rw [hD p hp]; exact e2⟩
  · rw [hD p hp]
    obtain ⟨C, h1, _⟩ := hI.split p hp
    have := hI.inc p hp
    rw [h1] at this
    exact (Sync.inc_append this).2.1

theorem buffered_of {ps : List Str} {o : Op V} {D : Str → List (Msg V)} (h : Sync.Bufs ps o D) {p : Str} (hp : p ∈ ps) : buffered o p = D p := by
  obtain ⟨i, e1, e2⟩ := h.find p hp
  simp only [buffered, e1]
  exact e2

/-- No buffered message is later than the current time, one port holds messages of the current time only, and some port is empty unless something has arrived since the last execution. -/
def Waits (ps : List Str) (B : Str → List (Msg V)) (t : UInt64) (b : Bool) : Prop :=
  (∀ p ∈ ps, ∀ m ∈ B p, m.time ≤ t) ∧ (∃ r ∈ ps, ∀ m ∈ B r, m.time = t) ∧ (b = false → ∃ r ∈ ps, B r = [])

theorem dropT_sub (t : UInt64) (l : List (Msg V)) : ∀ m ∈ Sync.dropT t l, m ∈ l := by
  intro m hm
  obtain ⟨d, h, _⟩ := Sync.dropT_split t l
  rw [h]
  exact List.mem_append_right _ hm

/-- One execution: what is emitted has the current time, and afterwards some port is empty. -/
theorem syncs_exec {K : Kind V} {ps : List Str} {F : (Str → Msg V) → OpMsg V} (hK : K.isJoin = true) (hps : ps ≠ []) (hF : Sync.Emits K ps F) {o : Op V} (hk : o.kind = K)
    {B : Str → List (Msg V)} (hb : Sync.Bufs ps o B) (hinc : ∀ p ∈ ps, Increasing (B p)) {t : UInt64} {b : Bool} (hw : Waits ps B t b) :
    ∃ out o', o.execData = .ok out o' ∧ (∀ e ∈ out, ∀ m ∈ e.2, m.time = t) ∧ Waits ps (buffered o') t false := by
  obtain ⟨hle, ⟨r, hr, hall⟩, _⟩ := hw
  have wrap : ∀ (o' : Op V) (B' : Str → List (Msg V)), Sync.Bufs ps o' B' → (∀ p ∈ ps, ∀ m ∈ B' p, m ∈ B p) → (∃ q ∈ ps, B' q = []) → Waits ps (buffered o') t false := by
    intro o' B' h1 h2 ⟨q, hq, h3⟩
    have hq' : buffered o' q = [] := by rw [buffered_of h1 hq, h3]
    refine ⟨fun p hp m hm => ?_, ⟨q, hq, fun m hm => by rw [hq'] at hm; cases hm⟩, fun _ => ⟨q, hq, hq'⟩⟩
    rw [buffered_of h1 hp] at hm
    exact hle p hp m (h2 p hp m hm)
  rcases Sync.exec_cases hK hps hF hk hb with ⟨h1, p, hp, h2⟩ | ⟨ref, href, t0, x, xs, hx, ht, hfr, h⟩
  · exact ⟨[], o, h1, fun e he => (by cases he), wrap o B hb (fun _ _ _ h => h) ⟨p, hp, h2⟩⟩
  · have ht0 : t0 = t := by
      obtain ⟨y, ys, e1, e2⟩ := hfr r hr
      have h1 := hall y (by rw [e1]; simp)
      have h2 := hle ref href x (by rw [hx]; simp)
      rw [h1] at e2
      rw [ht] at h2
      exact UInt64.le_antisymm h2 e2
    subst ht0
    rcases h with ⟨o', e1, e2, e3, p, hp, _, e5⟩ | ⟨hd, e0, o', e1, e2, e3⟩
    · refine ⟨[], o', e1, fun e he => (by cases he), wrap o' _ e3 (fun p _ m hm => dropT_sub _ _ m hm) ⟨p, hp, ?_⟩⟩
      cases hc : Sync.dropT t0 (B p) with
      | nil => rfl
      | cons y ys =>
        have h1 := e5 y ys hc
        have h2 := hle p hp y (dropT_sub t0 _ y (by rw [hc]; simp))
        exact absurd h1 (UInt64.not_lt.2 h2)
    · refine ⟨F hd, o', e1, ?_, wrap o' _ e3 (fun p _ m hm => dropT_sub _ _ m (List.mem_of_mem_tail hm)) ⟨r, hr, ?_⟩⟩
      · have h1 := hF { o with core := { o.core with dataIn := o.core.dataIn.map fun e => (e.1, { e.2 with data := [hd e.1] }) } } (fun p => [hd p]) hd hk
          ⟨by
            have := hb.sorted
            unfold Map.Sorted at this ⊢
            have hkeys : Map.keys (o.core.dataIn.map fun e => (e.1, ({ e.2 with data := [hd e.1] } : Inp V))) = o.core.dataIn.keys := by
              simp [Map.keys, Function.comp_def]
            dsimp only
            rw [hkeys]; exact this,
          by rw [← hb.keys]; simp [Map.keys, Function.comp_def],
          fun p hp => by
            obtain ⟨i, hi, _⟩ := hb.find p hp
            have := Sync.find_map o.core.dataIn (fun k (i : Inp V) => { i with data := [hd k] }) p
            rw [hi] at this
            exact ⟨_, this, rfl⟩⟩ (fun p _ => ⟨[], rfl⟩)
        have h2 := joinProcess_at (t := t0) h1 (by
            dsimp only
            intro he
            have h3 := congrArg List.length he
            have h4 := congrArg List.length hb.keys
            simp only [List.length_map, List.length_nil, Map.keys] at h3 h4
            exact hps (List.length_eq_zero_iff.1 (by omega))) (by
            intro e he
            dsimp only at he
            obtain ⟨e', he', rfl⟩ := List.mem_map.1 he
            exact ⟨hd e'.1, [], rfl, (e0 _ (Sync.bufs_mem hb e' he').1).1⟩)
        intro e he m hm
        obtain ⟨x, hx1, hx2⟩ := h2 e he
        rw [hx1] at hm
        rw [List.mem_singleton.1 hm, hx2]
      · obtain ⟨y, ys, q1, _⟩ := hfr r hr
        have hys : ys = [] := by
          cases ys with
          | nil => rfl
          | cons z zs =>
            have h1 := hinc r hr
            rw [q1] at h1
            have h2 := (List.pairwise_cons.1 h1).1 z (by simp)
            rw [hall y (by rw [q1]; simp), hall z (by rw [q1]; simp)] at h2
            exact absurd h2 (UInt64.lt_irrefl _)
        rw [q1, hys]
        simp only [Sync.dropT, List.dropWhile_cons, List.dropWhile_nil]
        split <;> rfl

theorem sentTo_prefix (p : Str) {as bs : List (Act V)} (h : Increasing (sentTo p (as ++ bs))) : Increasing (sentTo p as) := by
  rw [Sync.sentTo_append] at h
  exact (Sync.inc_append h).1

theorem syncs_waits {o : Op V} {K : Kind V} {ps : List Str} {F : (Str → Msg V) → OpMsg V} (hS : Syncs o K ps F) {as : List (Act V)} {t : UInt64} {b : Bool}
    (hs : InStep as t b) : (∀ a ∈ as, DataOnly ps a) → (∀ p ∈ ps, Increasing (sentTo p as)) → Waits ps (buffered (after o as)) t b := by
  induction hs with
  | start t =>
    intro _ _
    obtain ⟨r, hr⟩ := List.exists_mem_of_ne_nil _ hS.some
    have : ∀ p ∈ ps, buffered (after o ([] : List (Act V))) p = [] := fun p hp => buffered_of hS.bufs hp
    exact ⟨fun p hp m hm => by rw [this p hp] at hm; (cases hm), ⟨r, hr, fun m hm => by rw [this r hr] at hm; (cases hm)⟩, fun _ => ⟨r, hr, this r hr⟩⟩
  | later _ htt ih =>
    intro hv hinc
    obtain ⟨h1, _, h3⟩ := ih hv hinc
    obtain ⟨r, hr, he⟩ := h3 rfl
    exact ⟨fun p hp m hm => UInt64.le_trans (h1 p hp m hm) htt, ⟨r, hr, fun m hm => by rw [he] at hm; (cases hm)⟩, fun _ => ⟨r, hr, he⟩⟩
  | @recv as t b q m hs hm ih =>
    intro hv hinc
    have hv' : ∀ a ∈ as, DataOnly ps a := fun a ha => hv a (List.mem_append_left _ ha)
    have hinc' : ∀ p ∈ ps, Increasing (sentTo p as) := fun p hp => sentTo_prefix p (hinc p hp)
    obtain ⟨h1, ⟨r, hr, h2⟩, _⟩ := ih hv' hinc'
    have hq : q ∈ ps := hv (.recvData q m) (by simp)
    have hne : q ≠ [] := fun h => hS.named (by rw [← h]; exact hq)
    obtain ⟨hk, hb, _⟩ := syncs_state hS hv' hinc'
    obtain ⟨i, hf, hd⟩ := hb.find q hq
    have hrec : (after o as).recvData m q = .ok { (after o as) with core := { (after o as).core with dataIn := (after o as).core.dataIn.put q (i.push m) } } := by
      have : (after o as).core.receiveDataJoin m q = .ok { (after o as).core with dataIn := (after o as).core.dataIn.put q (i.push m) } := by
        unfold Core.receiveDataJoin
        rw [if_neg hne, hf]
      unfold Op.recvData
      have hK := hS.join
      rw [hk]
      cases K <;> first | (cases hK; done) | (simp only [this, hk]; rfl)
    have hbuf : ∀ p, buffered (after o (as ++ [.recvData q m])) p = if p = q then buffered (after o as) p ++ [m] else buffered (after o as) p := by
      intro p
      rw [after_snoc]
      simp only [act, hrec, buffered]
      by_cases he : p = q
      · subst he
        rw [if_pos rfl, Map.find?_put_self, hf]
        rfl
      · rw [if_neg he, Map.find?_put_ne _ _ (fun e => he e)]
    refine ⟨fun p hp x hx => ?_, ⟨r, hr, fun x hx => ?_⟩, fun h => by cases h⟩
    · rw [hbuf] at hx
      split at hx
      · rcases List.mem_append.1 hx with hx | hx
        · exact h1 p hp x hx
        · rw [List.mem_singleton.1 hx, hm]; exact UInt64.le_refl _
      · exact h1 p hp x hx
    · rw [hbuf] at hx
      split at hx
      · rcases List.mem_append.1 hx with hx | hx
        · exact h2 x hx
        · rw [List.mem_singleton.1 hx, hm]
      · exact h2 x hx
  | @exec as t b hs ih =>
    intro hv hinc
    have hv' : ∀ a ∈ as, DataOnly ps a := fun a ha => hv a (List.mem_append_left _ ha)
    have hinc' : ∀ p ∈ ps, Increasing (sentTo p as) := fun p hp => sentTo_prefix p (hinc p hp)
    obtain ⟨hk, hb, hi⟩ := syncs_state hS hv' hinc'
    obtain ⟨out, o', hx, _, hw⟩ := syncs_exec hS.join hS.some hS.emits hk hb hi (ih hv' hinc')
    rw [after_snoc]
    simp only [act, hx]
    exact hw

theorem syncs_keeps {o : Op V} {K : Kind V} {ps : List Str} {F : (Str → Msg V) → OpMsg V} (hS : Syncs o K ps F) {as : List (Act V)} {t : UInt64} {b : Bool}
    (hs : InStep as t b) (hv : ∀ a ∈ as, DataOnly ps a) (hinc : ∀ p ∈ ps, Increasing (sentTo p as)) {out : OpMsg V} {o' : Op V} (hx : (after o as).execData = .ok out o') :
    ∀ e ∈ out, ∀ m ∈ e.2, m.time = t := by
  obtain ⟨hk, hb, hi⟩ := syncs_state hS hv hinc
  obtain ⟨out', o'', hx', h1, _⟩ := syncs_exec hS.join hS.some hS.emits hk hb hi (syncs_waits hS hs hv hinc)
  rw [hx] at hx'
  cases hx'
  exact h1

/-- In step and with nothing received since the last execution, no complete match is left in the buffers. -/
theorem syncs_drained {o : Op V} {K : Kind V} {ps : List Str} {F : (Str → Msg V) → OpMsg V} (hS : Syncs o K ps F) {as : List (Act V)} {t : UInt64}
    (hs : InStep as t false) (hv : ∀ a ∈ as, DataOnly ps a) (hinc : ∀ p ∈ ps, Increasing (sentTo p as)) {qs : List Str} (hqs : ∀ p, p ∈ qs ↔ p ∈ ps) :
    commonTimes (qs.map (buffered (after o as))) = [] := by
  obtain ⟨_, _, h3⟩ := syncs_waits hS hs hv hinc
  obtain ⟨r, hr, he⟩ := h3 rfl
  rw [← hqs] at hr
  cases qs with
  | nil => rfl
  | cons q qs =>
    rw [List.map_cons, commonTimes]
    rcases List.mem_cons.1 hr with rfl | hr
    · rw [he]; rfl
    · rw [List.filter_eq_nil_iff]
      intro t _ hh
      rw [List.all_eq_true] at hh
      have := hh (buffered (after o as) r) (List.mem_map.2 ⟨r, hr, rfl⟩)
      rw [he] at this
      cases this

/-- What an operator in step emits has the current time. -/
theorem keeps {o : Op V} (hc : Connected o) (hk : Current o.kind) {as : List (Act V)} {t : UInt64} {b : Bool} (hs : InStep as t b) (hok : ExecOk o as)
    (hv : ∀ a ∈ as, DataOnly o.core.dataIn.keys a) (hinc : ∀ p ∈ o.core.dataIn.keys, Increasing (sentTo p as)) {out : OpMsg V} {o' : Op V}
    (hx : (after o as).execData = .ok out o') : ∀ e ∈ out, ∀ m ∈ e.2, m.time = t := by
  obtain ⟨o0, outs, hb, rfl⟩ := hc
  change ExecOk (wired o0 outs) as at hok
  change (after (wired o0 outs) as).execData = .ok out o' at hx
  rw [after_wired] at hx
  obtain ⟨o1, hx⟩ := execData_wired_ok outs hx
  cases hj : o0.kind.isJoin with
  | true =>
    obtain ⟨K, ps, F, hS⟩ := built_syncs hb hj
    rw [show o0.core.dataIn.keys = ps from hS.bufs.keys] at hv hinc
    exact syncs_keeps hS hs hv hinc hx
  | false =>
    have hbase : o0.kind.isBase = true := by
      rcases current_cases (k := o0.kind) hk with h | ⟨h, _⟩ | ⟨h, _⟩
      · rw [hj] at h; cases h
      · exact h
      · exact h
    exact base_keeps hb hbase hk hs (execOk_wired outs hok) hx

end Lockstep
end Rtbot
