import Verif.Lemmas.LockstepOut
import Verif.Spec.Served

/-! # Operators executed after every message: calls on one operator -/

set_option linter.unusedSectionVars false

namespace Rtbot
open Spec
variable {V : Type} [Num V]

namespace Served
open Order Times Lockstep

/-! ## Synchronising operators -/

theorem mem_dropT {t : UInt64} {l : List (Msg V)} {y : Msg V} (hy : y ∈ l) (ht : t ≤ y.time) : y ∈ Sync.dropT t l := by
  obtain ⟨d, h, h2⟩ := Sync.dropT_split t l
  rw [h] at hy
  rcases List.mem_append.1 hy with hy | hy
  · exact absurd (h2 y hy) (UInt64.not_lt.2 ht)
  · exact hy

theorem dropT_sublist (t : UInt64) (l : List (Msg V)) : (Sync.dropT t l).Sublist l := by
  obtain ⟨d, h, _⟩ := Sync.dropT_split t l
  conv => rhs; rw [h]
  exact List.sublist_append_right _ _

/-- What remains of the streams `T` after the calls, buffered or still to come: the times of port `s` are still there on all ports. -/
def Rest (ps : List Str) (s : Str) (B fut : Str → List (Msg V)) : Prop := ∀ x ∈ B s ++ fut s, ∀ p ∈ ps, ∃ y ∈ B p ++ fut p, y.time = x.time

/-- One execution. -/
theorem exec_rest {K : Kind V} {ps : List Str} {F : (Str → Msg V) → OpMsg V} (hK : K.isJoin = true) (hps : ps ≠ []) (hF : Sync.Emits K ps F) {o : Op V} (hk : o.kind = K)
    {B fut : Str → List (Msg V)} (hb : Sync.Bufs ps o B) (hinc : ∀ p ∈ ps, Increasing (B p ++ fut p)) {s : Str} (hs : s ∈ ps) (hJ : Rest ps s B fut)
    {r : Str} (hr : r ∈ ps) (hrl : (B r).length ≤ 1) :
    ∃ out o', o.execData = .ok out o' ∧ (∀ p ∈ ps, (buffered o' p).Sublist (B p)) ∧ Rest ps s (buffered o') fut ∧ ∃ r ∈ ps, buffered o' r = [] := by
  have wrap : ∀ (o' : Op V) (B' : Str → List (Msg V)), Sync.Bufs ps o' B' → (∀ p ∈ ps, (B' p).Sublist (B p)) → Rest ps s B' fut → (∃ q ∈ ps, B' q = []) →
      (∀ p ∈ ps, (buffered o' p).Sublist (B p)) ∧ Rest ps s (buffered o') fut ∧ ∃ r ∈ ps, buffered o' r = [] := by
    intro o' B' h1 h0 h2 ⟨q, hq, h3⟩
    refine ⟨fun p hp => by rw [buffered_of h1 hp]; exact h0 p hp, fun x hx p hp => ?_, q, hq, by rw [buffered_of h1 hq, h3]⟩
    rw [buffered_of h1 hs] at hx
    rw [buffered_of h1 hp]
    exact h2 x hx p hp
  rcases Sync.exec_cases hK hps hF hk hb with ⟨h1, p, hp, h2⟩ | ⟨ref, href, t, x, xs, hx, ht, hfr, h⟩
  · exact ⟨[], o, h1, wrap o B hb (fun _ _ => List.Sublist.refl _) hJ ⟨p, hp, h2⟩⟩
  · obtain ⟨z, zs, hz, hzt⟩ := hfr s hs
    -- the first message of port s has the time t
    have hle : ∀ p ∈ ps, ∀ y ys, B p = y :: ys → y.time ≤ z.time := by
      intro p hp y ys hy
      obtain ⟨y', hy', e⟩ := hJ z (by rw [hz]; simp) p hp
      have h1 := hinc p hp
      rw [hy, List.cons_append] at h1 hy'
      rw [← e]
      rcases List.mem_cons.1 hy' with rfl | hy'
      · exact UInt64.le_refl _
      · exact UInt64.le_of_lt ((List.pairwise_cons.1 h1).1 y' hy')
    have hzt : z.time = t := UInt64.le_antisymm hzt (by rw [← ht]; exact hle ref href x xs hx)
    have hge : ∀ x ∈ B s ++ fut s, t ≤ x.time := by
      intro x hx
      have h1 := hinc s hs
      rw [hz, List.cons_append] at h1 hx
      rw [← hzt]
      rcases List.mem_cons.1 hx with rfl | hx
      · exact UInt64.le_refl _
      · exact UInt64.le_of_lt ((List.pairwise_cons.1 h1).1 x hx)
    rcases h with ⟨o', e1, e2, e3, p, hp, _, e5⟩ | ⟨hd, e0, o', e1, e2, e3⟩
    · refine ⟨[], o', e1, wrap o' _ e3 (fun p _ => dropT_sublist t (B p)) ?_ ⟨p, hp, ?_⟩⟩
      · intro x hx q hq
        have hx' : x ∈ B s ++ fut s := by
          rcases List.mem_append.1 hx with hx | hx
          · exact List.mem_append_left _ (dropT_sub _ _ _ hx)
          · exact List.mem_append_right _ hx
        obtain ⟨y, hy, e⟩ := hJ x hx' q hq
        refine ⟨y, ?_, e⟩
        rcases List.mem_append.1 hy with hy | hy
        · exact List.mem_append_left _ (mem_dropT hy (by rw [e]; exact hge x hx'))
        · exact List.mem_append_right _ hy
      · cases hc : Sync.dropT t (B p) with
        | nil => rfl
        | cons y ys =>
          exfalso
          have h1 := e5 y ys hc
          obtain ⟨y', hy', e⟩ := hJ z (by rw [hz]; simp) p hp
          rw [hzt] at e
          have hi := hinc p hp
          have hmem : y ∈ B p := dropT_sub t _ y (by rw [hc]; simp)
          rcases List.mem_append.1 hy' with hy' | hy'
          · have h2 := mem_dropT hy' (by rw [e]; exact UInt64.le_refl _)
            obtain ⟨d, h3, _⟩ := Sync.dropT_split t (B p)
            rw [h3, hc, List.append_assoc] at hi
            have h4 := (List.pairwise_append.1 hi).2.1
            rw [List.cons_append] at h4
            rw [hc] at h2
            rcases List.mem_cons.1 h2 with rfl | h2
            · rw [e] at h1; exact absurd h1 (UInt64.lt_irrefl _)
            · have := (List.pairwise_cons.1 h4).1 y' (List.mem_append_left _ h2)
              rw [e] at this
              exact absurd (UInt64.lt_trans h1 this) (UInt64.lt_irrefl _)
          · have := (List.pairwise_append.1 hi).2.2 y hmem y' hy'
            rw [e] at this
            exact absurd (UInt64.lt_trans h1 this) (UInt64.lt_irrefl _)
    · refine ⟨F hd, o', e1, wrap o' _ e3 (fun p _ => (List.tail_sublist _).trans (dropT_sublist t (B p))) ?_ ⟨r, hr, ?_⟩⟩
      · intro x hx q hq
        obtain ⟨hs0, ms0, hs1⟩ := e0 s hs
        have hx' : x ∈ B s ++ fut s ∧ t < x.time := by
          have hi := hinc s hs
          obtain ⟨d, h3, _⟩ := Sync.dropT_split t (B s)
          rw [h3, hs1, List.append_assoc] at hi
          have h4 := (List.pairwise_append.1 hi).2.1
          rw [List.cons_append] at h4
          dsimp only at hx
          rw [hs1, List.tail_cons] at hx
          refine ⟨?_, by rw [← hs0]; exact (List.pairwise_cons.1 h4).1 x hx⟩
          rcases List.mem_append.1 hx with hx | hx
          · exact List.mem_append_left _ (dropT_sub t _ _ (by rw [hs1]; exact List.mem_cons_of_mem _ hx))
          · exact List.mem_append_right _ hx
        obtain ⟨y, hy, e⟩ := hJ x hx'.1 q hq
        refine ⟨y, ?_, e⟩
        rcases List.mem_append.1 hy with hy | hy
        · have h2 := mem_dropT hy (t := t) (by rw [e]; exact UInt64.le_of_lt hx'.2)
          obtain ⟨hq0, mq, hq1⟩ := e0 q hq
          rw [hq1] at h2
          rcases List.mem_cons.1 h2 with rfl | h2
          · rw [hq0] at e
            rw [← e] at hx'
            exact absurd hx'.2 (UInt64.lt_irrefl _)
          · exact List.mem_append_left _ (by dsimp only; rw [hq1]; exact h2)
        · exact List.mem_append_right _ hy
      · obtain ⟨_, ms, hr1⟩ := e0 r hr
        obtain ⟨d, h3, _⟩ := Sync.dropT_split t (B r)
        rw [hr1] at h3
        rw [h3] at hrl
        simp only [List.length_append, List.length_cons] at hrl
        rw [hr1, List.tail_cons]
        exact List.length_eq_zero_iff.1 (by omega)

/-- A synchronising operator that is executed between any two messages for the same port, one of whose streams has only times of the others: unless something has arrived since the
last execution, one of the ports is empty. -/
theorem syncs_empty {o : Op V} {K : Kind V} {ps : List Str} {F : (Str → Msg V) → OpMsg V} (hS : Syncs o K ps F) {T : Str → List (Msg V)} (hT : ∀ p ∈ ps, Increasing (T p))
    {s : Str} (hs : s ∈ ps) (hin : ∀ p ∈ ps, TimesIn (T s) (T p)) {as : List (Act V)} {fs : List Str} (hv : Singly as fs) :
    ∀ fut : Str → List (Msg V), (∀ p ∈ ps, T p = sentTo p as ++ fut p) → (∀ a ∈ as, DataOnly ps a) →
      (∀ p ∈ ps, Increasing (buffered (after o as) p ++ fut p)) ∧ Rest ps s (buffered (after o as)) fut ∧ ∃ r ∈ ps, (buffered (after o as) r).length ≤ if r ∈ fs then 1 else 0 := by
  induction hv with
  | start =>
    intro fut hf _
    obtain ⟨r, hr⟩ := List.exists_mem_of_ne_nil _ hS.some
    have he : ∀ p ∈ ps, buffered (after o ([] : List (Act V))) p = [] := fun p hp => buffered_of hS.bufs hp
    refine ⟨fun p hp => ?_, fun x hx p hp => ?_, r, hr, by rw [he r hr]; simp⟩
    · rw [he p hp, List.nil_append]
      have h2 : T p = fut p := hf p hp
      rw [← h2]
      exact hT p hp
    rw [he s hs, List.nil_append] at hx
    rw [he p hp, List.nil_append]
    have h1 : T s = fut s := hf s hs
    have h2 : T p = fut p := hf p hp
    have := hin p hp x (by rw [h1]; exact hx)
    rw [hasTime, List.any_eq_true, h2] at this
    obtain ⟨y, hy, e⟩ := this
    exact ⟨y, hy, by simpa using e⟩
  | @recv as fs q m hv hq ih =>
    intro fut hf hd
    have hd' : ∀ a ∈ as, DataOnly ps a := fun a ha => hd a (List.mem_append_left _ ha)
    have hqp : q ∈ ps := hd (.recvData q m) (by simp)
    have hf' : ∀ p ∈ ps, T p = sentTo p as ++ ((if q = p then [m] else []) ++ fut p) := by
      intro p hp
      rw [hf p hp, sentTo_snoc, List.append_assoc]
    obtain ⟨hI, hJ, r, hr, hrl⟩ := ih _ hf' hd'
    have hinc' : ∀ p ∈ ps, Increasing (sentTo p as) := by
      intro p hp
      have := hT p hp
      rw [hf' p hp] at this
      exact (List.pairwise_append.1 this).1
    have hne : q ≠ [] := fun h => hS.named (by rw [← h]; exact hqp)
    obtain ⟨hk, hb, _⟩ := syncs_state hS hd' hinc'
    obtain ⟨i, hfi, _⟩ := hb.find q hqp
    have hrec : (after o as).recvData m q = .ok { (after o as) with core := { (after o as).core with dataIn := (after o as).core.dataIn.put q (i.push m) } } := by
      have : (after o as).core.receiveDataJoin m q = .ok { (after o as).core with dataIn := (after o as).core.dataIn.put q (i.push m) } := by
        unfold Core.receiveDataJoin
        rw [if_neg hne, hfi]
      unfold Op.recvData
      have hK := hS.join
      rw [hk]
      cases K <;> first | (cases hK; done) | (simp only [this, hk]; rfl)
    have hbuf : ∀ p, buffered (after o (as ++ [.recvData q m])) p = buffered (after o as) p ++ if q = p then [m] else [] := by
      intro p
      rw [after_snoc]
      simp only [act, hrec, buffered]
      by_cases he : q = p
      · subst he
        rw [if_pos rfl, Map.find?_put_self, hfi]
        rfl
      · rw [if_neg he, Map.find?_put_ne _ _ (fun e => he e.symm), List.append_nil]
    refine ⟨fun p hp => by rw [hbuf, List.append_assoc]; exact hI p hp, fun x hx p hp => ?_, r, hr, ?_⟩
    · rw [hbuf, List.append_assoc] at hx
      rw [hbuf, List.append_assoc]
      exact hJ x hx p hp
    · rw [hbuf]
      by_cases he : q = r
      · subst he
        rw [if_neg hq] at hrl
        simp only [List.length_append, if_true, List.length_singleton, List.mem_cons, true_or]
        omega
      · rw [if_neg he, List.append_nil]
        refine hrl.trans ?_
        simp [List.mem_cons, Ne.symm he]
  | @exec as fs hv ih =>
    intro fut hf hd
    have hd' : ∀ a ∈ as, DataOnly ps a := fun a ha => hd a (List.mem_append_left _ ha)
    have hf' : ∀ p ∈ ps, T p = sentTo p as ++ fut p := by
      intro p hp
      rw [hf p hp]
      unfold sentTo
      simp
    obtain ⟨hI, hJ, r, hr, hrl⟩ := ih _ hf' hd'
    have hinc' : ∀ p ∈ ps, Increasing (sentTo p as) := by
      intro p hp
      have := hT p hp
      rw [hf' p hp] at this
      exact (List.pairwise_append.1 this).1
    obtain ⟨hk, hb, hi⟩ := syncs_state hS hd' hinc'
    obtain ⟨out, o', hx, h0, h1, r', hr', h2⟩ := exec_rest hS.join hS.some hS.emits hk hb hI hs hJ hr (hrl.trans (by split <;> simp))
    rw [after_snoc]
    simp only [act, hx]
    exact ⟨fun p hp => (hI p hp).sublist ((h0 p hp).append_right _), h1, r', hr', by rw [h2]; simp⟩

/-- So no complete match is left in the buffers. -/
theorem syncs_drained {o : Op V} {K : Kind V} {ps : List Str} {F : (Str → Msg V) → OpMsg V} (hS : Syncs o K ps F) {as : List (Act V)} (hv : Singly as [])
    (hd : ∀ a ∈ as, DataOnly ps a) (hinc : ∀ p ∈ ps, Increasing (sentTo p as)) {s : Str} (hs : s ∈ ps) (hin : ∀ p ∈ ps, TimesIn (sentTo s as) (sentTo p as))
    {qs : List Str} (hqs : ∀ p, p ∈ qs ↔ p ∈ ps) : commonTimes (qs.map (buffered (after o as))) = [] := by
  obtain ⟨_, _, r, hr, he⟩ := syncs_empty hS (T := fun p => sentTo p as) hinc hs hin hv (fun _ => []) (fun p _ => (List.append_nil _).symm) hd
  rw [if_neg (by simp)] at he
  have he : buffered (after o as) r = [] := List.length_eq_zero_iff.1 (by omega)
  rw [← hqs] at hr
  cases qs with
  | nil => rfl
  | cons q qs =>
    rw [List.map_cons, commonTimes]
    rcases List.mem_cons.1 hr with rfl | hr
    · rw [he]; rfl
    · rw [List.filter_eq_nil_iff]
      intro t _ hh
      rw [List.all_eq_true] at hh
      have := hh (buffered (after o as) r) (List.mem_map.2 ⟨r, hr, rfl⟩)
      rw [he] at this
      cases this

/-! ## Output -/

/-- The ports waiting to be processed have received a message since the last execution. -/
theorem base_fresh {o0 : Op V} (hb : Built o0) (hk : o0.kind.isBase = true) (hnil : ([] : Str) ∉ o0.core.dataIn.keys) {as : List (Act V)} {fs : List Str} (hs : Singly as fs) :
    ExecOk o0 as → (∀ a ∈ as, DataOnly o0.core.dataIn.keys a) → ∀ p ∈ (after o0 as).core.toProcess, p ∈ fs ∧ ∃ l, (sentTo p as).getLast? = some l := by
  induction hs with
  | start =>
    intro _ _ p hp
    rw [show (after o0 ([] : List (Act V))) = o0 from rfl, hb.new.core.idle] at hp
    cases hp
  | @recv as fs q m hs hq ih =>
    intro hok hv p hp
    have ih := ih (execOk_prefix hok) fun a ha => hv a (List.mem_append_left _ ha)
    have hqk : q ∈ o0.core.dataIn.keys := hv (.recvData q m) (by simp)
    have hqn : q ≠ [] := fun h => hnil (by rw [← h]; exact hqk)
    rw [sentTo_snoc]
    have hold : p ∈ (after o0 as).core.toProcess → p ∈ q :: fs ∧ ∃ l, (sentTo p as ++ if q = p then [m] else []).getLast? = some l := by
      intro hp
      obtain ⟨h1, l, h2⟩ := ih p hp
      refine ⟨List.mem_cons_of_mem _ h1, ?_⟩
      split
      · exact ⟨m, by simp⟩
      · rw [List.append_nil]; exact ⟨l, h2⟩
    rw [after_snoc] at hp
    simp only [act] at hp
    rw [recvData_base (base_after hb hk as)] at hp
    unfold Core.receiveDataBase at hp
    have hres : (after o0 as).core.resolveData q = q := by
      unfold Core.resolveData
      simp [hqn]
    dsimp only at hp
    rw [hres] at hp
    cases hf : (after o0 as).core.dataIn.find? q with
    | none => rw [hf] at hp; exact hold hp
    | some i =>
      rw [hf] at hp
      dsimp only at hp
      cases hr : i.receive m with
      | error e => rw [hr] at hp; exact hold hp
      | ok i' =>
        rw [hr] at hp
        simp only [bind, Except.bind] at hp
        rcases (mem_setInsert _ _ _).1 hp with rfl | hp
        · exact ⟨by simp, m, by simp⟩
        · exact hold hp
  | @exec as fs hs ih =>
    intro hok _ p hp
    exfalso
    obtain ⟨out, o', hx⟩ := execOk_exec hok
    rw [after_snoc] at hp
    simp only [act, hx] at hp
    rw [execData_base (base_after hb hk as)] at hx
    unfold Op.execBase at hx
    split at hx
    · cases hx
    · dsimp only at hx
      split at hx
      · next hr => cases hx; rw [hr] at hp; cases hp
      · split at hx
        · cases hx
        · cases hx; cases hp

/-- Everything sent to an Output that is executed between any two messages for the same port is passed on at the next `executeData`. -/
theorem output_passes {ident : Str} {n : Nat} {o0 : Op V} (ho : Op.newOutput ident n = .ok o0) {k : Nat} (hk1 : 1 ≤ k) (hk2 : k ≤ n) {as : List (Act V)} {fs : List Str}
    (hs : Singly as fs) : ExecOk o0 as → (∀ a ∈ as, DataOnly o0.core.dataIn.keys a) →
      collected (oPort k) (results o0 as) ++ (if iPort k ∈ (after o0 as).core.toProcess then (sentTo (iPort k) as).getLast?.toList else []) = sentTo (iPort k) as := by
  have hb : Built o0 := .output ho
  unfold Op.newOutput at ho
  obtain ⟨⟨c0, pm⟩, hadd, ho⟩ := bind_eq_ok.1 ho
  cases ho
  have hbase : (Op.mk c0 (.output pm) : Op V).kind.isBase = true := rfl
  obtain ⟨c1, pm1, h1, hports, _, _, _, _, _, _, hkeys, hpmk⟩ := addPorts_spec (V := V) ident 1 n
  rw [hadd] at h1
  cases h1
  have hpm : ∀ p q, pm.find? p = some q → ∃ j, p = iPort j ∧ q = oPort j := by
    intro p q h
    obtain ⟨k, h1, h2, rfl⟩ := (hkeys p).1 (by rw [← Map.find?_isSome_iff, h]; rfl)
    rw [hpmk k h1 h2] at h
    cases h
    exact ⟨k, rfl, rfl⟩
  have hnil : ([] : Str) ∉ c0.dataIn.keys := by
    intro h
    obtain ⟨k, _, _, h⟩ := (hports.keys _).1 h
    exact iPort_ne_nil k h.symm
  have hmax : ∀ p i, c0.dataIn.find? p = some i → i.max = 1 := by
    intro p i hi
    obtain ⟨k, h1, h2, rfl⟩ := (hports.keys p).1 (by rw [← Map.find?_isSome_iff, hi]; rfl)
    rw [hports.find k h1 h2] at hi
    cases hi
    rfl
  have hfind := hports.find k hk1 hk2
  generalize hog : (Op.mk c0 (.output pm) : Op V) = o0 at *
  have hdc : o0.core.dataIn = c0.dataIn := by rw [← hog]
  have hbuf : ∀ as : List (Act V), (∀ a ∈ as, DataOnly o0.core.dataIn.keys a) → ∀ p i, (after o0 as).core.dataIn.find? p = some i → i.max = 1 ∧ i.data = (sentTo p as).getLast?.toList := by
    intro as hv p i hi
    obtain ⟨i0, h1, h2, _, h3⟩ := buf_after hb hbase as hi
    rw [hdc] at h1
    rw [hmax _ _ h1] at h2 h3
    refine ⟨h2, ?_⟩
    rw [h3, lastN_one, addressed_data (by rw [hdc]; exact hnil) _ _ hv]
  induction hs with
  | start =>
    intro _ _
    rw [show (after o0 ([] : List (Act V))) = o0 from rfl, hb.new.core.idle]
    rfl
  | @recv as fs q m hs hm ih =>
    intro hok hv
    have hok' := execOk_prefix hok
    have hv' : ∀ a ∈ as, DataOnly o0.core.dataIn.keys a := fun a ha => hv a (List.mem_append_left _ ha)
    have ih := ih hok' hv'
    have hq : q ∈ o0.core.dataIn.keys := hv (.recvData q m) (by simp)
    have hq0 : ∃ i0, o0.core.dataIn.find? q = some i0 := by
      rw [← Map.find?_isSome_iff] at hq
      exact Option.isSome_iff_exists.1 hq
    obtain ⟨i0, hi0⟩ := hq0
    obtain ⟨i, hi⟩ := port_there hb as hi0
    obtain ⟨hm1, hdat⟩ := hbuf as hv' q i hi
    have hqn : q ≠ [] := fun h => hnil (by rw [← hdc, ← h]; exact hq)
    have hres : (after o0 as).core.resolveData q = q := by
      unfold Core.resolveData
      simp [hqn]
    have hrecv : ∃ i', i.receive m = .ok i' := by
      unfold Inp.receive
      rw [hm1]
      cases hl : (sentTo q as).getLast? with
      | none =>
        rw [hl] at hdat
        rw [hdat]
        exact ⟨_, rfl⟩
      | some l =>
        rw [hl] at hdat
        have hd : i.data = [l] := hdat
        unfold Inp.popSum
        rw [hd]
        exact ⟨_, rfl⟩
    obtain ⟨i', hi'⟩ := hrecv
    have hact : act (after o0 as) (.recvData q m) = ({ (after o0 as) with core := { (after o0 as).core with dataIn := (after o0 as).core.dataIn.put q i', toProcess := setInsert (after o0 as).core.toProcess q } }, .ok []) := by
      simp only [act]
      rw [recvData_base (base_after hb hbase as)]
      unfold Core.receiveDataBase
      dsimp only
      rw [hres, hi]
      dsimp only
      rw [hi']
      rfl
    rw [after_snoc, hact, Sync.results_append, collected_append]
    have hcol : collected (oPort k) (results (after o0 as) [.recvData q m]) = [] := by
      simp only [results, hact]
      rfl
    rw [hcol, List.append_nil, sentTo_snoc]
    dsimp only
    by_cases hqk : q = iPort k
    · subst hqk
      have hnot : iPort k ∉ (after o0 as).core.toProcess := by
        intro hp
        exact hm (base_fresh hb hbase (by rw [hdc]; exact hnil) hs hok' hv' _ hp).1
      rw [if_neg hnot, List.append_nil] at ih
      rw [if_pos ((mem_setInsert _ _ _).2 (Or.inl rfl)), if_pos rfl, ih]
      simp
    · have : iPort k ∈ setInsert (after o0 as).core.toProcess q ↔ iPort k ∈ (after o0 as).core.toProcess := by
        rw [mem_setInsert]
        simp [Ne.symm hqk]
      rw [if_neg hqk, List.append_nil]
      by_cases hp : iPort k ∈ (after o0 as).core.toProcess
      · rw [if_pos hp] at ih
        rw [if_pos (this.2 hp)]
        exact ih
      · rw [if_neg hp] at ih
        rw [if_neg fun h => hp (this.1 h)]
        exact ih
  | @exec as fs hs ih =>
    intro hok hv
    have hok' := execOk_prefix hok
    have hv' : ∀ a ∈ as, DataOnly o0.core.dataIn.keys a := fun a ha => hv a (List.mem_append_left _ ha)
    have hsame : ∀ p, sentTo p (as ++ [.execData]) = sentTo p as := fun p => by unfold sentTo; simp
    rw [hsame]
    have ih := ih hok' hv'
    obtain ⟨out, o', hx⟩ := execOk_exec hok
    have hact : act (after o0 as) .execData = (o', .ok out) := by simp only [act, hx]
    rw [after_snoc, hact, Sync.results_append, collected_append]
    have hcol : collected (oPort k) (results (after o0 as) [.execData]) = msgsOn (oPort k) out := by
      simp only [results, hact]
      simp [collected]
    rw [hcol]
    have hpend := base_fresh hb hbase (by rw [hdc]; exact hnil) hs hok' hv'
    rw [execData_base (base_after hb hbase as)] at hx
    unfold Op.execBase at hx
    have hkf : (after o0 as).kind.fresh = o0.kind.fresh := congrArg Op.kind (after_fresh ⟨hb.new.core.data, hb.new.core.ctrl⟩ as)
    have hko : (after o0 as).kind = .output pm := by
      rw [← hog] at hkf ⊢
      generalize hkk : (after (Op.mk c0 (.output pm) : Op V) as).kind = kk at hkf
      cases kk <;> first | (cases hkf; rfl) | cases hkf
    split at hx
    · cases hx
    · next ready hready =>
      have hin : iPort k ∈ ready ↔ iPort k ∈ (after o0 as).core.toProcess := by
        refine ⟨fun h => (ready_mem hready h).1, fun h => ?_⟩
        unfold Core.readyPorts at hready
        split at hready
        · next hall =>
          cases hready
          obtain ⟨_, l, h1⟩ := hpend _ h
          obtain ⟨i, hi⟩ := port_there hb as (by rw [hdc]; exact hfind)
          obtain ⟨h2, h3⟩ := hbuf as hv' _ i hi
          rw [h1] at h3
          have h3 : i.data = [l] := h3
          rw [List.mem_filter]
          refine ⟨h, ?_⟩
          rw [hi]
          simp [h2, h3]
        · cases hready
      dsimp only at hx
      split at hx
      · next hr =>
        cases hx
        rw [hr] at hin
        have hnot : iPort k ∉ (after o0 as).core.toProcess := fun h => by cases hin.2 h
        rw [if_neg hnot, List.append_nil] at ih
        rw [hr, if_neg (by simp), ih]
        simp [msgsOn, Map.find?]
      · split at hx
        · cases hx
        · next out1 kk hr =>
          cases hx
          rw [if_neg (by simp), List.append_nil]
          unfold Op.process at hr
          simp only [hko] at hr
          obtain ⟨x, hx, hr⟩ := bind_eq_ok.1 hr
          cases hr
          obtain ⟨f1, f2, _⟩ := output_fold (k := k) hpm ready hx
          rw [← ih]
          congr 1
          by_cases hmem : iPort k ∈ ready
          · rw [if_pos (hin.1 hmem)]
            obtain ⟨m, hm, hf⟩ := f2 hmem rfl
            obtain ⟨_, l, h1⟩ := hpend _ (hin.1 hmem)
            obtain ⟨i, hi⟩ := port_there hb as (by rw [hdc]; exact hfind)
            obtain ⟨h2, h3⟩ := hbuf as hv' _ i hi
            rw [h1] at h3
            have h3 : i.data = [l] := h3
            unfold Core.dataLast at hm
            dsimp only at hm
            rw [hi] at hm
            simp only [h3] at hm
            cases hm
            unfold msgsOn
            rw [hf, h1]
            rfl
          · rw [if_neg (fun h => hmem (hin.2 h))]
            have := f1 hmem
            unfold msgsOn
            rw [this]
            rfl

end Served
end Rtbot
