import Verif.Lemmas.DemuxRun
import Verif.Spec.Exact

/-! # Properties of the Demultiplexer: C25 -/

namespace Rtbot
open Spec
variable {V : Type} [Num V]

/-- C25, routing. `ds` and `cs k` are the complete data and instruction streams: increasing, with an instruction (0 or 1) for every
data message on every control port; the calls deliver prefixes of them in any interleaving. Then no call fails; the messages handled so
far (`handled`) followed by the buffered ones are the data messages received; and port ok has emitted, unmodified and in order, exactly the handled
messages at whose time control ck carries 1; no other port exists. -/
theorem C25_routing (id : Str) (n : Nat) (hn : 1 ≤ n) (ds : List (Msg V)) (cs : Nat → List (Msg V)) (hds : Increasing ds)
    (hcs : ∀ k, 1 ≤ k → k ≤ n → Increasing (cs k))
    (hins : ∀ k, 1 ≤ k → k ≤ n → ∀ m ∈ ds, ∃ c ∈ cs k, c.time = m.time ∧ isInstruction c.value = true)
    (as : List (Act V)) (hv : ∀ a ∈ as, DemuxCall n a) (hd : addressed true i1 as <+: ds)
    (hc : ∀ k, 1 ≤ k → k ≤ n → ctrlTo (cPort k) as <+: cs k) :
    ∃ o outs handled, Op.newDemux id n = .ok o ∧ results o as = outs.map .ok ∧
      handled ++ buffered (after o as) i1 = addressed true i1 as ∧
      (∀ k, 1 ≤ k → k ≤ n → emittedOn (oPort k) outs = handled.filter fun m => selects (cs k) m.time) ∧
      ∀ q, (∀ k, 1 ≤ k → k ≤ n → q ≠ oPort k) → emittedOn q outs = [] := by
  obtain ⟨o, h1, h2⟩ := Demux.newDemux_spec (V := V) id n hn
  obtain ⟨outs, H', D', F', X', C', G', p1, p2, p3, p4, p5, p6⟩ := Demux.good_run (ds := ds) (cs := cs) ⟨hds, hcs, hins⟩ as
    (o := o) (H := []) (D := []) (F := ds) (X := fun _ => []) (C := fun _ => []) (G := cs)
    ⟨h2, rfl, fun _ _ _ => rfl, by simp, by simp⟩ hv hd hc
  refine ⟨o, outs, H', h1, p1, ?_, p5, ?_⟩
  · rw [p2.is.buffered, p3]; rfl
  · intro q hq
    apply p6
    rintro ⟨k, k1, k2, hk⟩
    exact hq k k1 k2 hk

/-- C25, completeness: once the instructions for every received data message are received on every control port, as many further executions as
there are received messages hand out all of them. -/
theorem C25_complete (id : Str) (n : Nat) (hn : 1 ≤ n) (ds : List (Msg V)) (cs : Nat → List (Msg V)) (hds : Increasing ds)
    (hcs : ∀ k, 1 ≤ k → k ≤ n → Increasing (cs k))
    (hins : ∀ k, 1 ≤ k → k ≤ n → ∀ m ∈ ds, ∃ c ∈ cs k, c.time = m.time ∧ isInstruction c.value = true)
    (as : List (Act V)) (hv : ∀ a ∈ as, DemuxCall n a) (hd : addressed true i1 as <+: ds)
    (hc : ∀ k, 1 ≤ k → k ≤ n → ctrlTo (cPort k) as <+: cs k)
    (hall : ∀ k, 1 ≤ k → k ≤ n → ∀ m ∈ addressed true i1 as, ∃ c ∈ ctrlTo (cPort k) as, c.time = m.time)
    (L : Nat) (hL : (addressed true i1 as).length ≤ L) :
    ∃ o outs, Op.newDemux id n = .ok o ∧ results o (as ++ List.replicate L .execData) = outs.map .ok ∧
      ∀ k, 1 ≤ k → k ≤ n → emittedOn (oPort k) outs = (addressed true i1 as).filter fun m => selects (cs k) m.time := by
  have hvr : ∀ a ∈ (List.replicate L .execData : List (Act V)), DemuxCall n a := by
    intro a ha
    rw [List.eq_of_mem_replicate ha]; trivial
  obtain ⟨o, h1, h2⟩ := Demux.newDemux_spec (V := V) id n hn
  obtain ⟨outs, H, D, F, X, C, G, p1, p2, p3, p4, p5, p6⟩ := Demux.good_run (ds := ds) (cs := cs) ⟨hds, hcs, hins⟩ as
    (o := o) (H := []) (D := []) (F := ds) (X := fun _ => []) (C := fun _ => []) (G := cs)
    ⟨h2, rfl, fun _ _ _ => rfl, by simp, by simp⟩ hv hd hc
  have had0 : addressed true i1 (List.replicate L .execData : List (Act V)) = [] := by
    simp [addressed]
  have hct0 : ∀ p, ctrlTo p (List.replicate L .execData : List (Act V)) = [] := by
    simp [ctrlTo]
  obtain ⟨outs2, H2, D2, F2, X2, C2, G2, q1, q2, q3, q4, q5, q6⟩ := Demux.good_run (ds := ds) (cs := cs) ⟨hds, hcs, hins⟩ (List.replicate L .execData) p2
    hvr (by rw [had0]; exact ⟨_, rfl⟩) (by intro k _ _; rw [hct0]; exact ⟨_, rfl⟩)
  have hlast := Demux.good_drain (ds := ds) (cs := cs) ⟨hds, hcs, hins⟩ L p2 (Or.inl (by
    have := congrArg List.length p3
    rw [List.length_append, List.nil_append] at this; omega)) q2
  rw [had0, List.append_nil] at q3
  have hD2 : D2 = [] := by
    cases hD : D2 with
    | nil => rfl
    | cons m ms =>
      exfalso
      obtain ⟨k, k1, k2, hk⟩ := hlast m ms hD
      obtain ⟨c, c1, c2⟩ := hall k k1 k2 m (by
        rw [List.nil_append] at p3
        rw [← p3, ← q3, hD]; simp)
      have := p4 k k1 k2
      simp only [List.nil_append] at this
      have := hk c (by rw [this]; exact c1)
      rw [c2] at this
      exact absurd this (UInt64.lt_irrefl _)
  refine ⟨o, outs ++ outs2, h1, ?_, ?_⟩
  · rw [Sync.results_append, p1, q1, List.map_append]
  · intro k k1 k2
    rw [hD2, List.append_nil] at q3
    rw [List.nil_append] at p3
    have : emittedOn (oPort k) (outs ++ outs2) = emittedOn (oPort k) outs ++ emittedOn (oPort k) outs2 := by simp [emittedOn]
    rw [this, p5 k k1 k2, q5 k k1 k2, ← List.filter_append, q3, p3]

/-- C25, no misrouting: whatever the streams, every call either throws a runtime error, emits nothing, or emits one received data message
exactly on the ports whose control port received the instruction 1 for that time, all control ports having received an instruction (0 or 1) for it. -/
theorem C25_no_misrouting (id : Str) (n : Nat) (hn : 1 ≤ n) (as : List (Act V)) (hv : ∀ a ∈ as, DemuxCall n a) :
    ∃ o, Op.newDemux id n = .ok o ∧ ∀ r ∈ results o as, r = .error (.exc .runtime) ∨
      ∃ out, r = .ok out ∧ ((∀ q, msgsOn q out = []) ∨
        ∃ m ∈ addressed true i1 as, ∃ ins : Nat → Msg V,
          (∀ k, 1 ≤ k → k ≤ n → ins k ∈ ctrlTo (cPort k) as ∧ (ins k).time = m.time ∧ isInstruction (ins k).value = true ∧
            msgsOn (oPort k) out = if Num.eq (ins k).value (Num.ofNat 1) then [m] else []) ∧
          ∀ q, (∀ k, 1 ≤ k → k ≤ n → q ≠ oPort k) → msgsOn q out = []) := by
  obtain ⟨o, h1, h2⟩ := Demux.newDemux_spec (V := V) id n hn
  refine ⟨o, h1, ?_⟩
  have := (Demux.weak_run as (o := o) (R := []) (RC := fun _ => []) ⟨[], [], _, h2, rfl, by simp⟩ hv).2
  simp only [List.nil_append] at this
  intro r hr
  rcases this r hr with h | ⟨out, h3, h4 | ⟨m, hm, ins, h5, h6⟩⟩
  · exact Or.inl h
  · exact Or.inr ⟨out, h3, Or.inl h4⟩
  · refine Or.inr ⟨out, h3, Or.inr ⟨m, hm, ins, h5, ?_⟩⟩
    intro q hq
    apply h6
    rintro ⟨k, k1, k2, hk⟩
    exact hq k k1 k2 hk

/-- C25, rejection: an execution with data front `m` raises a runtime error when on some control port the first instruction not older than
`m` is later than `m` or is not 0 or 1. Here after any calls. -/
theorem C25_rejects (id : Str) (n : Nat) (hn : 1 ≤ n) (as : List (Act V)) (hv : ∀ a ∈ as, DemuxCall n a) :
    ∃ o, Op.newDemux id n = .ok o ∧ ∀ m ms k c rest, buffered (after o as) i1 = m :: ms → 1 ≤ k → k ≤ n →
      (bufferedCtrl (after o as) (cPort k)).dropWhile (fun x => decide (x.time < m.time)) = c :: rest →
      (c.time ≠ m.time ∨ isInstruction c.value = false) →
      results (after o as) [.execData] = [.error (.exc .runtime)] := by
  obtain ⟨o, h1, h2⟩ := Demux.newDemux_spec (V := V) id n hn
  refine ⟨o, h1, ?_⟩
  intro m ms k c rest hb k1 k2 hcs hbad
  obtain ⟨H, D, C, h3, _⟩ := (Demux.weak_run as (o := o) (R := []) (RC := fun _ => []) ⟨[], [], _, h2, rfl, by simp⟩ hv).1.is
  rw [h3.buffered] at hb
  rw [h3.bufferedCtrl k1 k2] at hcs
  have hnf : ¬ Demux.Fine m.time (C k) := by
    intro hf
    obtain ⟨f1, f2⟩ := hf c rest hcs
    rcases hbad with h | h
    · exact h f1
    · rw [f2] at h; cases h
  rcases Demux.exec_cases h3 with ⟨hD, _⟩ | ⟨m', ms', hD, h⟩
  · rw [hD] at hb; cases hb
  · rw [hb] at hD; cases hD
    rcases h with ⟨o', C', _, e, _⟩ | ⟨o', hf, _⟩ | ⟨o', out, hf, _⟩
    · simp [results, act, e]
    · exact absurd (hf k k1 k2) hnf
    · exfalso
      obtain ⟨c', cs', q1, q2, q3, _⟩ := hf k k1 k2
      rw [show Sync.dropT m.time (C k) = c :: rest from hcs] at q1
      cases q1
      rcases hbad with h | h
      · exact h q2
      · rw [q3] at h; cases h

/-- A case: two outputs, three messages; the third still waits for its instruction on c2. -/
def demuxCase : List (Act ℚ) :=
  [.recvData i1 ⟨1, 11⟩, .execData, .recvCtrl (cPort 1) ⟨1, 1⟩, .execCtrl, .recvCtrl (cPort 2) ⟨1, 0⟩, .execCtrl,
   .recvCtrl (cPort 2) ⟨2, 1⟩, .recvCtrl (cPort 1) ⟨2, 1⟩, .recvData [] ⟨2, 22⟩, .execData, .recvData i1 ⟨3, 33⟩, .recvCtrl (cPort 1) ⟨3, 1⟩, .execCtrl]

example : (∀ a ∈ demuxCase, DemuxCall 2 a) ∧ addressed true i1 demuxCase = [⟨1, 11⟩, ⟨2, 22⟩, ⟨3, 33⟩] ∧
    ctrlTo (cPort 1) demuxCase = [⟨1, 1⟩, ⟨2, 1⟩, ⟨3, 1⟩] ∧ ctrlTo (cPort 2) demuxCase = [⟨1, 0⟩, ⟨2, 1⟩] ∧
    (∀ m ∈ addressed true i1 demuxCase, ∃ c ∈ ctrlTo (cPort 2) demuxCase ++ [⟨3, 1⟩], c.time = m.time ∧ isInstruction c.value = true) := by
  refine ⟨by decide, by decide +kernel, by decide +kernel, by decide +kernel, by decide +kernel⟩

/-- A case for the rejection: the instruction for the buffered message was skipped. -/
example : ∃ o : Op ℚ, Op.newDemux [] 1 = .ok o ∧
    results o [.recvData i1 ⟨1, 11⟩, .execData, .recvCtrl (cPort 1) ⟨2, 1⟩, .execCtrl] = [.ok [], .ok [], .ok [], .error (.exc .runtime)] ∧
    results o [.recvData i1 ⟨1, 11⟩, .execData, .recvCtrl (cPort 1) ⟨1, 3⟩, .execCtrl] = [.ok [], .ok [], .ok [], .error (.exc .runtime)] := by
  refine ⟨_, rfl, by decide +kernel, by decide +kernel⟩

end Rtbot
