import Verif.Spec.Demux
import Verif.Lemmas.SyncRun

/-! # Demultiplexer -/

set_option linter.unusedSectionVars false

namespace Rtbot
open Spec
variable {V : Type} [Num V]

namespace Demux
open Sync

theorem mem_cPorts {n : Nat} {p : Str} : p ∈ cPorts n ↔ IsPort cPort n p := by
  simp only [cPorts, List.mem_map, List.mem_range]
  constructor
  · rintro ⟨k, h1, rfl⟩
    exact ⟨k + 1, by omega, by omega, rfl⟩
  · rintro ⟨k, h1, h2, rfl⟩
    exact ⟨k - 1, by omega, by rw [Nat.sub_add_cancel h1]⟩

/-! ## The scan -/

/-- The front instruction that `demuxScan` looks at is acceptable or absent. -/
def Fine (t : UInt64) (l : List (Msg V)) : Prop := ∀ c cs, dropT t l = c :: cs → c.time = t ∧ isInstruction c.value = true

theorem scan_fine (t : UInt64) (m : Map (Inp V)) (h : ∀ e ∈ m, Fine t e.2.data) :
    ∃ n, demuxScan t m = (m.map (fun e => (e.1, e.2.dropOlder t)), .ok n) ∧ n ≤ m.length ∧
      (n = m.length ↔ ∀ e ∈ m, dropT t e.2.data ≠ []) := by
  induction m with
  | nil => exact ⟨0, rfl, Nat.le_refl _, by simp⟩
  | cons e m ih =>
    obtain ⟨p, i⟩ := e
    obtain ⟨n, h1, h2, h3⟩ := ih (fun e he => h e (List.mem_cons_of_mem _ he))
    have hf := h (p, i) (by simp)
    simp only [demuxScan, h1]
    match hd : (i.dropOlder t).data with
    | [] =>
      rw [dropOlder_data] at hd
      refine ⟨n, rfl, by simp only [List.length_cons]; omega, ?_⟩
      constructor
      · intro hn; simp only [List.length_cons] at hn; omega
      · intro hall; exact absurd hd (hall (p, i) (by simp))
    | c :: cs =>
      rw [dropOlder_data] at hd
      obtain ⟨ht, hv⟩ := hf c cs hd
      have hcond : (decide (c.time = t) && (Num.eq c.value (Num.ofNat 1) || Num.eq c.value (Num.ofNat 0))) = true := by
        rw [ht]; simpa [isInstruction] using hv
      simp only [hcond, if_true]
      refine ⟨n + 1, rfl, by simp only [List.length_cons]; omega, ?_⟩
      simp only [List.length_cons, Nat.add_right_cancel_iff, h3, List.forall_mem_cons, hd, ne_eq, reduceCtorEq, not_false_eq_true, true_and]

theorem scan_bad (t : UInt64) (m : Map (Inp V)) (h : ∃ e ∈ m, ¬ Fine t e.2.data) :
    ∃ m', demuxScan t m = (m', .error (.exc .runtime)) ∧ Map.keys m' = Map.keys m ∧
      ∀ p i, Map.find? m p = some i → ∃ i', Map.find? m' p = some i' ∧ (i'.data = i.data ∨ i'.data = dropT t i.data) := by
  induction m with
  | nil => obtain ⟨e, he, _⟩ := h; simp at he
  | cons e m ih =>
    obtain ⟨p, i⟩ := e
    simp only [demuxScan]
    by_cases hf : Fine t i.data
    · obtain ⟨m', h1, h2, h3⟩ := ih (by
        obtain ⟨e, he, hb⟩ := h
        rcases List.mem_cons.1 he with rfl | he
        · exact absurd hf hb
        · exact ⟨e, he, hb⟩)
      rw [h1]
      have hfind : ∀ q j, Map.find? ((p, i) :: m) q = some j → ∃ i', Map.find? ((p, i.dropOlder t) :: m') q = some i' ∧
          (i'.data = j.data ∨ i'.data = dropT t j.data) := by
        intro q j hj
        rw [Map.find?_cons] at hj ⊢
        split at hj
        · rename_i he; rw [if_pos he]; cases hj; exact ⟨_, rfl, Or.inr (dropOlder_data _ _)⟩
        · rename_i he; rw [if_neg he]; exact h3 q j hj
      have hkeys : Map.keys ((p, i.dropOlder t) :: m') = Map.keys ((p, i) :: m) := by
        simp only [Map.keys, List.map_cons] at h2 ⊢; rw [h2]
      match hd : (i.dropOlder t).data with
      | [] => exact ⟨_, rfl, hkeys, hfind⟩
      | c :: cs =>
        have hd' := hd
        rw [dropOlder_data] at hd'
        obtain ⟨ht, hv⟩ := hf c cs hd'
        have hcond : (decide (c.time = t) && (Num.eq c.value (Num.ofNat 1) || Num.eq c.value (Num.ofNat 0))) = true := by
          rw [ht]; simpa [isInstruction] using hv
        simp only [hcond, if_true]
        exact ⟨_, rfl, hkeys, hfind⟩
    · match hd : (i.dropOlder t).data with
      | [] =>
        exfalso; apply hf
        intro c cs hc
        rw [dropOlder_data, hc] at hd; cases hd
      | c :: cs =>
        have hd' := hd
        rw [dropOlder_data] at hd'
        have hcond : (decide (c.time = t) && (Num.eq c.value (Num.ofNat 1) || Num.eq c.value (Num.ofNat 0))) ≠ true := by
          intro hc
          apply hf
          intro c' cs' hc'
          rw [hd'] at hc'; cases hc'
          simpa [isInstruction] using hc
        simp only [hcond]
        refine ⟨_, rfl, rfl, ?_⟩
        intro q j hj
        rw [Map.find?_cons] at hj ⊢
        split at hj
        · rename_i he; rw [if_pos he]; cases hj; exact ⟨_, rfl, Or.inr (dropOlder_data _ _)⟩
        · rename_i he; rw [if_neg he]; exact ⟨j, hj, Or.inl rfl⟩

theorem messages_spec (cm : Map Str) (g : Str → Str) (m : Msg V) (h : Str → Msg V) (l : Map (Inp V)) (out : OpMsg V)
    (hg : ∀ a ∈ Map.keys l, ∀ b ∈ Map.keys l, g a = g b → a = b) (hcm : ∀ e ∈ l, cm.find? e.1 = some (g e.1)) (hl : ∀ e ∈ l, ∃ cs, e.2.data = h e.1 :: cs) (hnd : (Map.keys l).Nodup)
    (hout : ∀ e ∈ l, out.find? (g e.1) = none) :
    ∃ out', demuxMessages cm m l out = .ok out' ∧
      (∀ p ∈ Map.keys l, out'.find? (g p) = if Num.eq (h p).value (Num.ofNat 1) then some [m] else none) ∧
      (∀ q, (∀ p ∈ Map.keys l, q ≠ g p) → out'.find? q = out.find? q) := by
  induction l generalizing out with
  | nil => exact ⟨out, rfl, by simp [Map.keys], fun _ _ => rfl⟩
  | cons e l ih =>
    obtain ⟨p, i⟩ := e
    obtain ⟨cs, hcs⟩ := hl (p, i) (by simp)
    simp only at hcs
    have hnd' : p ∉ Map.keys l ∧ (Map.keys l).Nodup := by simpa [Map.keys] using hnd
    have hpn : Map.find? out (g p) = none := hout (p, i) (by simp)
    have hpm : cm.find? p = some (g p) := hcm (p, i) (by simp)
    have hmem : ∀ e ∈ l, e.1 ∈ Map.keys l := fun e he => List.mem_map.2 ⟨e, he, rfl⟩
    have hp0 : p ∈ Map.keys ((p, i) :: l) := by simp [Map.keys]
    have hsub : ∀ q ∈ Map.keys l, q ∈ Map.keys ((p, i) :: l) := fun q hq => by
      simp only [Map.keys, List.map_cons, List.mem_cons]; exact Or.inr hq
    have hdis : ∀ q ∈ Map.keys l, g q ≠ g p := fun q hq hc => by
      have := hg q (hsub q hq) p hp0 hc
      subst this; exact hnd'.1 hq
    have hg' : ∀ a ∈ Map.keys l, ∀ b ∈ Map.keys l, g a = g b → a = b := fun a ha b hb => hg a (hsub a ha) b (hsub b hb)
    simp only [demuxMessages, hcs, hpm]
    by_cases h1 : Num.eq (h p).value (Num.ofNat 1) = true
    · simp only [h1, if_true]
      have hemp : ∀ q, (out.emplace (g p) [m]).find? q = if q = g p then some [m] else out.find? q := by
        intro q
        have : Map.has out (g p) = false := by unfold Map.has; rw [hpn]; rfl
        simp only [Map.emplace, this, Bool.false_eq_true, if_false]
        rw [Map.find?_put]
      obtain ⟨out', e1, e2, e3⟩ := ih (out.emplace (g p) [m]) hg' (fun e he => hcm e (List.mem_cons_of_mem _ he))
        (fun e he => hl e (List.mem_cons_of_mem _ he)) hnd'.2 (by
          intro e he
          rw [hemp, if_neg (hdis _ (hmem e he))]
          exact hout e (List.mem_cons_of_mem _ he))
      refine ⟨out', e1, ?_, ?_⟩
      · intro q hq
        have : q = p ∨ q ∈ Map.keys l := by simpa [Map.keys] using hq
        rcases this with rfl | hq
        · rw [e3 _ (fun r hr => Ne.symm (hdis r hr)), hemp, if_pos rfl, h1]; rfl
        · exact e2 q hq
      · intro q hq
        rw [e3 q (fun r hr => hq r (by simp only [Map.keys, List.map_cons, List.mem_cons]; exact Or.inr hr)), hemp,
          if_neg (hq p (by simp [Map.keys]))]
    · simp only [h1]
      obtain ⟨out', e1, e2, e3⟩ := ih out hg' (fun e he => hcm e (List.mem_cons_of_mem _ he))
        (fun e he => hl e (List.mem_cons_of_mem _ he)) hnd'.2 (fun e he => hout e (List.mem_cons_of_mem _ he))
      refine ⟨out', e1, ?_, ?_⟩
      · intro q hq
        have : q = p ∨ q ∈ Map.keys l := by simpa [Map.keys] using hq
        rcases this with rfl | hq
        · rw [e3 _ (fun r hr => Ne.symm (hdis r hr)), hpn]; simp [h1]
        · exact e2 q hq
      · intro q hq
        rw [e3 q (fun r hr => hq r (by simp only [Map.keys, List.map_cons, List.mem_cons]; exact Or.inr hr))]

/-! ## One execution -/

/-- The state of a demultiplexer with `n` outputs: data buffer `D`, control buffers `C k`. -/
structure Is (n : Nat) (o : Op V) (D : List (Msg V)) (C : Nat → List (Msg V)) : Prop where
  kind : ∃ cm, o.kind = .demux cm ∧ ∀ k, 1 ≤ k → k ≤ n → cm.find? (cPort k) = some (oPort k)
  data : ∃ i, o.core.dataIn = [(i1, i)] ∧ i.data = D
  sorted : o.core.ctrlIn.Sorted
  keys : ∀ p, p ∈ o.core.ctrlIn.keys ↔ IsPort cPort n p
  ctrl : ∀ k, 1 ≤ k → k ≤ n → ∃ i, o.core.ctrlIn.find? (cPort k) = some i ∧ i.data = C k

theorem Is.mem {n : Nat} {o : Op V} {D : List (Msg V)} {C : Nat → List (Msg V)} (h : Is n o D C) {e : Str × Inp V} (he : e ∈ o.core.ctrlIn) :
    ∃ k, 1 ≤ k ∧ k ≤ n ∧ e.1 = cPort k ∧ e.2.data = C k := by
  obtain ⟨k, h1, h2, h3⟩ := (h.keys e.1).1 (List.mem_map.2 ⟨e, he, rfl⟩)
  obtain ⟨i, h4, h5⟩ := h.ctrl k h1 h2
  have := find_of_mem h.sorted (p := e.1) (i := e.2) he
  rw [h3, h4] at this; cases this
  exact ⟨k, h1, h2, h3, h5⟩

theorem Is.buffered {n : Nat} {o : Op V} {D : List (Msg V)} {C : Nat → List (Msg V)} (h : Is n o D C) : buffered o i1 = D := by
  obtain ⟨i, h1, h2⟩ := h.data
  simp only [Spec.buffered, h1, Map.find?_cons, if_true, h2]

theorem Is.bufferedCtrl {n : Nat} {o : Op V} {D : List (Msg V)} {C : Nat → List (Msg V)} (h : Is n o D C) {k : Nat} (h1 : 1 ≤ k) (h2 : k ≤ n) :
    bufferedCtrl o (cPort k) = C k := by
  obtain ⟨i, h3, h4⟩ := h.ctrl k h1 h2
  simp only [Spec.bufferedCtrl, h3, h4]

/-- `executeData` and `executeControl` are the same function. -/
theorem exec_eq {n : Nat} {o : Op V} {D : List (Msg V)} {C : Nat → List (Msg V)} (h : Is n o D C) : o.execCtrl = o.execData := by
  obtain ⟨cm, h1, _⟩ := h.kind
  unfold Op.execCtrl Op.execData
  rw [h1]

theorem exec_cases {n : Nat} {o : Op V} {D : List (Msg V)} {C : Nat → List (Msg V)} (h : Is n o D C) :
    (D = [] ∧ o.execData = .ok [] o) ∨
    ∃ m ms, D = m :: ms ∧
      ((∃ o' C', (∃ k, 1 ≤ k ∧ k ≤ n ∧ ¬ Fine m.time (C k)) ∧ o.execData = .err (.exc .runtime) o' ∧ Is n o' D C' ∧
          ∀ k, C' k = C k ∨ C' k = dropT m.time (C k)) ∨
       (∃ o', (∀ k, 1 ≤ k → k ≤ n → Fine m.time (C k)) ∧ (∃ k, 1 ≤ k ∧ k ≤ n ∧ dropT m.time (C k) = []) ∧ o.execData = .ok [] o' ∧
          Is n o' D (fun k => dropT m.time (C k))) ∨
       (∃ o' out, (∀ k, 1 ≤ k → k ≤ n → ∃ c cs, dropT m.time (C k) = c :: cs ∧ c.time = m.time ∧ isInstruction c.value = true ∧
            msgsOn (oPort k) out = if Num.eq c.value (Num.ofNat 1) then [m] else []) ∧
          (∀ q, ¬ IsPort oPort n q → msgsOn q out = []) ∧ o.execData = .ok out o' ∧ Is n o' ms (fun k => (dropT m.time (C k)).tail))) := by
  obtain ⟨cm, hk, hcm⟩ := h.kind
  obtain ⟨i, hi, hD⟩ := h.data
  have hex : o.execData = o.execDemux cm := by unfold Op.execData; rw [hk]
  rw [hex]
  unfold Op.execDemux
  rw [hi]
  simp only
  match hDm : D with
  | [] => left; rw [hD]; exact ⟨rfl, rfl⟩
  | m :: ms =>
    right
    refine ⟨m, ms, rfl, ?_⟩
    rw [hD]
    simp only
    by_cases hfine : ∀ e ∈ o.core.ctrlIn, Fine m.time e.2.data
    · right
      obtain ⟨cnt, h1, h2, h3⟩ := scan_fine m.time o.core.ctrlIn hfine
      rw [h1]
      simp only
      have hfine' : ∀ k, 1 ≤ k → k ≤ n → Fine m.time (C k) := by
        intro k k1 k2
        obtain ⟨j, j1, j2⟩ := h.ctrl k k1 k2
        have := hfine _ (mem_of_find j1)
        rw [j2] at this; exact this
      have hkeys' : Map.keys (o.core.ctrlIn.map fun e => (e.1, e.2.dropOlder m.time)) = o.core.ctrlIn.keys := by
        simp [Map.keys, Function.comp_def]
      have hfind' : ∀ k, 1 ≤ k → k ≤ n → ∃ j, Map.find? (o.core.ctrlIn.map fun e => (e.1, e.2.dropOlder m.time)) (cPort k) = some j ∧
          j.data = dropT m.time (C k) := by
        intro k k1 k2
        obtain ⟨j, j1, j2⟩ := h.ctrl k k1 k2
        refine ⟨j.dropOlder m.time, ?_, by rw [dropOlder_data, j2]⟩
        rw [find_map o.core.ctrlIn (fun _ i => i.dropOlder m.time), j1]; rfl
      have hsort' : (Map.Sorted (o.core.ctrlIn.map fun e => (e.1, e.2.dropOlder m.time))) := by
        unfold Map.Sorted; rw [hkeys']; exact h.sorted
      by_cases hcnt : cnt = o.core.ctrlIn.length
      · right
        have hne := h3.1 hcnt
        rw [if_pos (by rw [List.length_map]; exact hcnt)]
        have hmem' : ∀ e ∈ (o.core.ctrlIn.map fun e => (e.1, e.2.dropOlder m.time)), ∃ k, 1 ≤ k ∧ k ≤ n ∧ e.1 = cPort k ∧
            e.2.data = dropT m.time (C k) ∧ e.2.data ≠ [] := by
          intro e he
          obtain ⟨e0, he0, rfl⟩ := List.mem_map.1 he
          obtain ⟨k, k1, k2, k3, k4⟩ := h.mem he0
          refine ⟨k, k1, k2, k3, by simp only [dropOlder_data, k4], ?_⟩
          simp only [dropOlder_data]; exact hne e0 he0
        obtain ⟨out, e1, e2, e3⟩ := messages_spec cm (fun p => 111 :: p.tail)
          m
          (fun p => ((Map.find? (o.core.ctrlIn.map fun e => (e.1, e.2.dropOlder m.time)) p).bind fun i => i.data.head?).getD Msg.zero)
          (o.core.ctrlIn.map fun e => (e.1, e.2.dropOlder m.time)) [] (by
            intro a ha b hb hab
            rw [hkeys'] at ha hb
            obtain ⟨ka, _, _, rfl⟩ := (h.keys a).1 ha
            obtain ⟨kb, _, _, rfl⟩ := (h.keys b).1 hb
            simp only [cPort, List.tail_cons, List.cons.injEq, true_and] at hab
            rw [cPort, cPort, hab]) (by
            intro e he
            obtain ⟨k, k1, k2, k3, _⟩ := hmem' e he
            rw [k3, hcm k k1 k2]; rfl) (by
            intro e he
            obtain ⟨k, k1, k2, k3, k4, k5⟩ := hmem' e he
            rw [find_of_mem hsort' (p := e.1) (i := e.2) he]
            simp only [Option.bind_some]
            match hd : e.2.data with
            | [] => exact absurd hd k5
            | c :: cs => exact ⟨cs, rfl⟩) (by rw [hkeys']; exact List.Pairwise.imp (fun h => strLt_ne h) h.sorted) (by intro e _; rfl)
        rw [e1]
        simp only
        obtain ⟨m', p1, p2, p3⟩ := popAll_spec (m := o.core.ctrlIn.map fun e => (e.1, e.2.dropOlder m.time)) (by
          intro e he
          obtain ⟨k, _, _, _, _, k5⟩ := hmem' e he
          exact k5)
        rw [p1]
        simp only
        refine ⟨_, out, ?_, ?_, rfl, ⟨⟨cm, hk, hcm⟩, ⟨_, rfl, rfl⟩, ?_, ?_, ?_⟩⟩
        · intro k k1 k2
          obtain ⟨j, j1, j2⟩ := hfind' k k1 k2
          have hne' : dropT m.time (C k) ≠ [] := by
            obtain ⟨j', q1, q2⟩ := h.ctrl k k1 k2
            have := hne _ (mem_of_find q1)
            rw [q2] at this; exact this
          match hdd : dropT m.time (C k) with
          | [] => exact absurd hdd hne'
          | c :: cs =>
            obtain ⟨f1, f2⟩ := hfine' k k1 k2 c cs hdd
            refine ⟨c, cs, rfl, f1, f2, ?_⟩
            have := e2 (cPort k) (by rw [hkeys']; exact (h.keys _).2 ⟨k, k1, k2, rfl⟩)
            rw [j1] at this
            simp only [Option.bind_some, j2, hdd, List.head?_cons, Option.getD_some] at this
            unfold msgsOn
            rw [show oPort k = 111 :: (cPort k).tail from rfl, this]
            by_cases hv : Num.eq c.value (Num.ofNat 1) = true
            · rw [if_pos hv, if_pos hv]
            · rw [if_neg hv, if_neg hv]
        · intro q hq
          unfold msgsOn
          rw [e3 q (by
            intro p hp hc
            rw [hkeys'] at hp
            obtain ⟨k, k1, k2, rfl⟩ := (h.keys p).1 hp
            exact hq ⟨k, k1, k2, hc⟩)]
          rfl
        · unfold Map.Sorted; simp only [p2]; exact hsort'
        · intro p; simp only [p2, hkeys']; exact h.keys p
        · intro k k1 k2
          obtain ⟨j, j1, j2⟩ := hfind' k k1 k2
          obtain ⟨i', q1, q2⟩ := p3 _ _ j1
          exact ⟨i', q1, by rw [q2, j2]⟩
      · left
        rw [if_neg (by rw [List.length_map]; exact hcnt)]
        refine ⟨_, hfine', ?_, rfl, ⟨⟨cm, hk, hcm⟩, ⟨i, hi, hD⟩, hsort', by intro p; simp only [hkeys']; exact h.keys p, hfind'⟩⟩
        have : ∃ e ∈ o.core.ctrlIn, dropT m.time e.2.data = [] := by
          apply Classical.byContradiction
          intro hcon
          exact hcnt (h3.2 fun e he hc => hcon ⟨e, he, hc⟩)
        obtain ⟨e, he, hd⟩ := this
        obtain ⟨k, k1, k2, _, k4⟩ := h.mem he
        exact ⟨k, k1, k2, by rw [← k4]; exact hd⟩
    · left
      have : ∃ e ∈ o.core.ctrlIn, ¬ Fine m.time e.2.data := by
        apply Classical.byContradiction
        intro hcon
        exact hfine fun e he => Classical.byContradiction fun hc => hcon ⟨e, he, hc⟩
      obtain ⟨m', h1, h2, h3⟩ := scan_bad m.time o.core.ctrlIn this
      rw [h1]
      simp only
      refine ⟨_, fun k => match Map.find? m' (cPort k) with | some i => if 1 ≤ k ∧ k ≤ n then i.data else C k | none => C k, ?_, rfl,
        ⟨⟨cm, hk, hcm⟩, ⟨i, hi, hD⟩, ?_, by intro p; simp only [h2]; exact h.keys p, ?_⟩, ?_⟩
      · obtain ⟨e, he, hd⟩ := this
        obtain ⟨k, k1, k2, _, k4⟩ := h.mem he
        exact ⟨k, k1, k2, by rw [← k4]; exact hd⟩
      · unfold Map.Sorted; simp only [h2]; exact h.sorted
      · intro k k1 k2
        obtain ⟨j, j1, j2⟩ := h.ctrl k k1 k2
        obtain ⟨i', q1, q2⟩ := h3 _ _ j1
        exact ⟨i', q1, by simp only [q1, k1, k2, and_self, if_true]⟩
      · intro k
        by_cases hk : 1 ≤ k ∧ k ≤ n
        · obtain ⟨j, j1, j2⟩ := h.ctrl k hk.1 hk.2
          obtain ⟨i', q1, q2⟩ := h3 _ _ j1
          simp only [q1, hk, and_self, if_true]
          rw [← j2]; exact q2
        · left
          simp only [hk, if_false]
          split <;> rfl

/-! ## Receiving -/

/-- Replace the value at one index. -/
def updN {α : Type} (f : Nat → α) (k : Nat) (a : α) : Nat → α := fun j => if j = k then a else f j

theorem recvData_spec {n : Nat} {o : Op V} {D : List (Msg V)} {C : Nat → List (Msg V)} (h : Is n o D C) {p : Str} (hp : p = i1 ∨ p = []) (m : Msg V) :
    ∃ o', o.recvData m p = .ok o' ∧ Is n o' (D ++ [m]) C := by
  obtain ⟨cm, hk, hcm⟩ := h.kind
  obtain ⟨i, hi, hD⟩ := h.data
  have hr : o.core.resolveData p = i1 := by
    unfold Core.resolveData
    rcases hp with rfl | rfl
    · rw [if_neg (by decide)]
    · rw [if_pos rfl, hi]
  have : o.core.receiveDataDemux m p = .ok { o.core with dataIn := [(i1, i.push m)] } := by
    unfold Core.receiveDataDemux
    simp only [hr, hi, Map.find?_cons, if_true, Map.put]
  refine ⟨⟨{ o.core with dataIn := [(i1, i.push m)] }, o.kind⟩, ?_, ⟨cm, hk, hcm⟩, ⟨i.push m, rfl, ?_⟩, h.sorted, h.keys, h.ctrl⟩
  · unfold Op.recvData
    rw [hk]
    simp only [this, bind, Except.bind]
  · simp [Inp.push, hD]

theorem recvCtrl_spec {n : Nat} {o : Op V} {D : List (Msg V)} {C : Nat → List (Msg V)} (h : Is n o D C) {k : Nat} (k1 : 1 ≤ k) (k2 : k ≤ n) (m : Msg V) :
    ∃ o', o.recvCtrl m (cPort k) = .ok o' ∧ Is n o' D (updN C k (C k ++ [m])) := by
  obtain ⟨cm, hk, hcm⟩ := h.kind
  obtain ⟨i, hi, hC⟩ := h.ctrl k k1 k2
  have hr : o.core.resolveCtrl (cPort k) = cPort k := by
    unfold Core.resolveCtrl
    rw [if_neg (cPort_ne_nil k)]
  have : o.core.receiveCtrlDemux m (cPort k) = .ok { o.core with ctrlIn := o.core.ctrlIn.put (cPort k) (i.push m) } := by
    unfold Core.receiveCtrlDemux
    simp only [hr, hi]
  have hin : cPort k ∈ o.core.ctrlIn.keys := (h.keys _).2 ⟨k, k1, k2, rfl⟩
  refine ⟨⟨{ o.core with ctrlIn := o.core.ctrlIn.put (cPort k) (i.push m) }, o.kind⟩, ?_, ⟨cm, hk, hcm⟩, h.data, h.sorted.put _ _, ?_, ?_⟩
  · unfold Op.recvCtrl
    rw [hk]
    simp only [this, bind, Except.bind]
  · intro p
    simp only
    rw [Map.keys_put_of_mem _ _ h.sorted hin]; exact h.keys p
  · intro j j1 j2
    simp only [Map.find?_put, updN]
    by_cases he : j = k
    · subst he; rw [if_pos rfl, if_pos rfl]; exact ⟨_, rfl, by simp [Inp.push, hC]⟩
    · rw [if_neg (fun hc => he (cPort_inj hc)), if_neg he]; exact h.ctrl j j1 j2

theorem addressed_recv (m : Msg V) {p : Str} (hp : p = i1 ∨ p = []) (as : List (Act V)) :
    addressed true i1 (.recvData p m :: as) = m :: addressed true i1 as := by
  unfold addressed
  rw [List.filterMap_cons]
  simp only [and_true]
  rw [if_pos hp]

theorem ctrlTo_recv (p q : Str) (m : Msg V) (as : List (Act V)) :
    ctrlTo p (.recvCtrl q m :: as) = if q = p then m :: ctrlTo p as else ctrlTo p as := by
  by_cases h : q = p
  · simp [ctrlTo, h]
  · simp [ctrlTo, h]

theorem dropT_sub {t : UInt64} {l : List (Msg V)} : ∀ m ∈ dropT t l, m ∈ l := by
  obtain ⟨d, h1, _⟩ := dropT_split t l
  intro m hm
  rw [h1]; exact List.mem_append_right _ hm

/-! ## Without assumptions on the streams -/

/-- `R`, `RC`: received so far. -/
structure Weak (n : Nat) (o : Op V) (R : List (Msg V)) (RC : Nat → List (Msg V)) : Prop where
  is : ∃ H D C, Is n o D C ∧ R = H ++ D ∧ ∀ k, 1 ≤ k → k ≤ n → ∀ c ∈ C k, c ∈ RC k

/-- An answer is nothing, or routes one received message according to received instructions. -/
def Routed (n : Nat) (R : List (Msg V)) (RC : Nat → List (Msg V)) (out : OpMsg V) : Prop :=
  (∀ q, msgsOn q out = []) ∨
  ∃ m ∈ R, ∃ ins : Nat → Msg V, (∀ k, 1 ≤ k → k ≤ n → ins k ∈ RC k ∧ (ins k).time = m.time ∧ isInstruction (ins k).value = true ∧
      msgsOn (oPort k) out = if Num.eq (ins k).value (Num.ofNat 1) then [m] else []) ∧
    ∀ q, ¬ IsPort oPort n q → msgsOn q out = []

theorem Routed.mono {n : Nat} {R R' : List (Msg V)} {RC RC' : Nat → List (Msg V)} {out : OpMsg V} (h : Routed n R RC out)
    (h1 : ∀ m ∈ R, m ∈ R') (h2 : ∀ k, 1 ≤ k → k ≤ n → ∀ m ∈ RC k, m ∈ RC' k) : Routed n R' RC' out := by
  rcases h with h | ⟨m, hm, ins, h3, h4⟩
  · exact Or.inl h
  · exact Or.inr ⟨m, h1 m hm, ins, fun k a b => ⟨h2 k a b _ (h3 k a b).1, (h3 k a b).2⟩, h4⟩

theorem weak_exec {n : Nat} {o : Op V} {R : List (Msg V)} {RC : Nat → List (Msg V)} (h : Weak n o R RC) :
    (∃ o', o.execData = .err (.exc .runtime) o' ∧ Weak n o' R RC) ∨
    ∃ out o', o.execData = .ok out o' ∧ Weak n o' R RC ∧ Routed n R RC out := by
  obtain ⟨H, D, C, h1, h2, h3⟩ := h.is
  rcases exec_cases h1 with ⟨_, e⟩ | ⟨m, ms, hD, ⟨o', C', _, e, e1, e2⟩ | ⟨o', _, _, e, e1⟩ | ⟨o', out, e2, e3, e, e1⟩⟩
  · right; exact ⟨_, _, e, h, Or.inl fun _ => rfl⟩
  · left
    refine ⟨o', e, ⟨H, D, C', e1, h2, ?_⟩⟩
    intro k k1 k2 c hc
    rcases e2 k with he | he
    · rw [he] at hc; exact h3 k k1 k2 c hc
    · rw [he] at hc; exact h3 k k1 k2 c (dropT_sub c hc)
  · right
    exact ⟨_, o', e, ⟨H, D, _, e1, h2, fun k k1 k2 c hc => h3 k k1 k2 c (dropT_sub c hc)⟩, Or.inl fun _ => rfl⟩
  · right
    refine ⟨_, o', e, ⟨H ++ [m], ms, _, e1, by rw [h2, hD]; simp, fun k k1 k2 c hc => h3 k k1 k2 c (dropT_sub c (List.mem_of_mem_tail hc))⟩, Or.inr ?_⟩
    refine ⟨m, by rw [h2, hD]; simp, fun k => ((dropT m.time (C k)).head?).getD Msg.zero, ?_, e3⟩
    intro k k1 k2
    obtain ⟨c, cs, q1, q2, q3, q4⟩ := e2 k k1 k2
    simp only [q1, List.head?_cons, Option.getD_some]
    exact ⟨h3 k k1 k2 c (dropT_sub c (by rw [q1]; simp)), q2, q3, q4⟩

theorem weak_run {n : Nat} : ∀ (as : List (Act V)) {o : Op V} {R : List (Msg V)} {RC : Nat → List (Msg V)}, Weak n o R RC →
    (∀ a ∈ as, DemuxCall n a) →
    Weak n (after o as) (R ++ addressed true i1 as) (fun k => RC k ++ ctrlTo (cPort k) as) ∧
    ∀ r ∈ results o as, r = .error (.exc .runtime) ∨
      ∃ out, r = .ok out ∧ Routed n (R ++ addressed true i1 as) (fun k => RC k ++ ctrlTo (cPort k) as) out := by
  intro as
  induction as with
  | nil => intro o R RC h _; exact ⟨by simpa [after, addressed, ctrlTo] using h, by simp [results]⟩
  | cons a as ih =>
    intro o R RC h hv
    have hva := hv a (by simp)
    have hv' : ∀ a ∈ as, DemuxCall n a := fun x hx => hv x (List.mem_cons_of_mem _ hx)
    have hexec : ∀ x, o.execData = x → (a = .execData ∨ a = .execCtrl) → results o (a :: as) = (match x with | .ok out _ => .ok out | .err e _ => .error e) :: results x.state as ∧
        after o (a :: as) = after x.state as := by
      intro x hx ha
      obtain ⟨H, D, C, h1, _⟩ := h.is
      have hcx : o.execCtrl = x := by rw [exec_eq h1]; exact hx
      rcases ha with rfl | rfl
      · simp only [results, after, act, hx]
        cases x <;> exact ⟨rfl, rfl⟩
      · simp only [results, after, act, hcx]
        cases x <;> exact ⟨rfl, rfl⟩
    have hE : (a = .execData ∨ a = .execCtrl) → Weak n (after o (a :: as)) (R ++ addressed true i1 (a :: as)) (fun k => RC k ++ ctrlTo (cPort k) (a :: as)) ∧
        ∀ r ∈ results o (a :: as), r = .error (.exc .runtime) ∨
          ∃ out, r = .ok out ∧ Routed n (R ++ addressed true i1 (a :: as)) (fun k => RC k ++ ctrlTo (cPort k) (a :: as)) out := by
      intro ha
      have e1 : addressed true i1 (a :: as) = addressed true i1 as := by rcases ha with rfl | rfl <;> rfl
      have e2 : ∀ k, ctrlTo (cPort k) (a :: as) = ctrlTo (cPort k) as := by rcases ha with rfl | rfl <;> (intro k; rfl)
      rw [e1]; simp only [e2]
      rcases weak_exec h with ⟨o', e, e3⟩ | ⟨out, o', e, e3, e4⟩
      · obtain ⟨h1, h2⟩ := hexec _ e ha
        rw [h1, h2]
        obtain ⟨i1', i2'⟩ := ih e3 hv'
        refine ⟨i1', ?_⟩
        intro r hr
        rcases List.mem_cons.1 hr with rfl | hr
        · exact Or.inl rfl
        · exact i2' r hr
      · obtain ⟨h1, h2⟩ := hexec _ e ha
        rw [h1, h2]
        obtain ⟨i1', i2'⟩ := ih e3 hv'
        refine ⟨i1', ?_⟩
        intro r hr
        rcases List.mem_cons.1 hr with rfl | hr
        · exact Or.inr ⟨out, rfl, e4.mono (fun m hm => List.mem_append_left _ hm) (fun k _ _ m hm => List.mem_append_left _ hm)⟩
        · exact i2' r hr
    cases a with
    | execData => exact hE (Or.inl rfl)
    | execCtrl => exact hE (Or.inr rfl)
    | recvData p m =>
      obtain ⟨H, D, C, h1, h2, h3⟩ := h.is
      obtain ⟨o', e1, e2⟩ := recvData_spec h1 hva m
      obtain ⟨i1', i2'⟩ := ih (o := o') (R := R ++ [m]) (RC := RC) ⟨H, D ++ [m], C, e2, by rw [h2]; simp, h3⟩ hv'
      rw [addressed_recv m hva]
      have hr : results o (.recvData p m :: as) = .ok [] :: results o' as := by simp [results, act, e1]
      have ha : after o (.recvData p m :: as) = after o' as := by simp [after, act, e1]
      rw [hr, ha]
      rw [List.append_assoc, List.singleton_append] at i1' i2'
      refine ⟨i1', ?_⟩
      intro r hr
      rcases List.mem_cons.1 hr with rfl | hr
      · exact Or.inr ⟨_, rfl, Or.inl fun _ => rfl⟩
      · exact i2' r hr
    | recvCtrl p m =>
      obtain ⟨H, D, C, h1, h2, h3⟩ := h.is
      obtain ⟨k, k1, k2, rfl⟩ := mem_cPorts.1 hva
      obtain ⟨o', e1, e2⟩ := recvCtrl_spec h1 k1 k2 m
      have hRC : ∀ j, updN RC k (RC k ++ [m]) j ++ ctrlTo (cPort j) as = RC j ++ ctrlTo (cPort j) (.recvCtrl (cPort k) m :: as) := by
        intro j
        rw [ctrlTo_recv]
        unfold updN
        by_cases he : j = k
        · subst he; rw [if_pos rfl, if_pos rfl]; simp
        · rw [if_neg he, if_neg (fun hc => he (cPort_inj hc).symm)]
      obtain ⟨i1', i2'⟩ := ih (o := o') (R := R) (RC := updN RC k (RC k ++ [m])) ⟨H, D, _, e2, h2, by
        intro j j1 j2 c hc
        unfold updN at hc ⊢
        by_cases he : j = k
        · rw [if_pos he] at hc ⊢
          rcases List.mem_append.1 hc with hc | hc
          · exact List.mem_append_left _ (h3 k k1 k2 c hc)
          · exact List.mem_append_right _ hc
        · rw [if_neg he] at hc ⊢; exact h3 j j1 j2 c hc⟩ hv'
      simp only [hRC] at i1' i2'
      have hr : results o (.recvCtrl (cPort k) m :: as) = .ok [] :: results o' as := by simp [results, act, e1]
      have ha : after o (.recvCtrl (cPort k) m :: as) = after o' as := by simp [after, act, e1]
      rw [hr, ha]
      refine ⟨i1', ?_⟩
      intro r hr
      rcases List.mem_cons.1 hr with rfl | hr
      · exact Or.inr ⟨_, rfl, Or.inl fun _ => rfl⟩
      · exact i2' r hr

end Demux
end Rtbot
