import Verif.Lemmas.SyncRun
import Verif.Spec.Exact
import Verif.Spec.Gate

/-! # Properties of Join: C19, C20, C21, C22 -/

namespace Rtbot
open Spec
variable {V : Type} [Num V]

/-- C19: whatever is sent (any timestamps), every call succeeds; every answer is empty or carries on each oK exactly one message
received on iK, all of the same time, and nothing else; what oK emits in total is a sublist of what iK received (unmodified, in order,
no message twice). With increasing timestamps on iK the emitted timestamps increase. -/
theorem C19_join (id : Str) (n : Nat) (hn : 2 ≤ n) (as : List (Act V)) (hv : ∀ a ∈ as, DataOnly (iPorts n) a) :
    ∃ o outs, Op.newJoin id n = .ok o ∧ results o as = outs.map .ok ∧
      (∀ out ∈ outs, out = ([] : OpMsg V) ∨ ∃ t, (∀ k, 1 ≤ k → k ≤ n → ∃ m ∈ sentTo (iPort k) as, m.time = t ∧ Map.find? out (oPort k) = some [m]) ∧
        ∀ q ∈ Map.keys out, IsPort oPort n q) ∧
      ∀ k, 1 ≤ k → k ≤ n → (emittedOn (oPort k) outs).Sublist (sentTo (iPort k) as) ∧
        (Increasing (sentTo (iPort k) as) → Increasing (emittedOn (oPort k) outs)) := by
  obtain ⟨o, cm, ps, h1, h2, h3, h4, h5, h6, h7, h8⟩ := Sync.newJoin_spec (V := V) id n hn
  have hport : ∀ k, 1 ≤ k → k ≤ n → iPort k ∈ ps := fun k a b => (h4 _).2 (Sync.mem_iPorts.2 ⟨k, a, b, rfl⟩)
  obtain ⟨outs, T, e1, e2, e3, e4, e5⟩ := Sync.main0 (K := .join cm) rfl h6 h7 (Sync.emits_join (by
    intro p hp
    obtain ⟨k, a, b, rfl⟩ := Sync.mem_iPorts.1 ((h4 p).1 hp)
    exact ⟨_, h8 k a b⟩)) h2 h3 as (by
      intro a ha
      have := hv a ha
      cases a <;> simp only [DataOnly] at this ⊢
      exact (h4 _).2 this)
  refine ⟨o, outs, h1, e1, ?_, ?_⟩
  · intro out ho
    rcases e4 out ho with h | ⟨x, hx, h⟩
    · exact Or.inl h
    · right
      obtain ⟨f1, f2⟩ := Sync.joinOut_spec h8 h5 h4 x.2
      refine ⟨x.1, ?_, by rw [h]; exact f2⟩
      intro k a b
      exact ⟨_, (e2 _ (hport k a b)).subset (List.mem_map.2 ⟨x, hx, rfl⟩), e3 x hx _ (hport k a b), by rw [h]; exact f1 k a b⟩
  · intro k a b
    have hm : ∀ x : UInt64 × (Str → Msg V), msgsOn (oPort k) (Sync.joinOut cm ps x.2) = [x.2 (iPort k)] := by
      intro x
      unfold msgsOn; rw [(Sync.joinOut_spec h8 h5 h4 x.2).1 k a b]
    have he : emittedOn (oPort k) outs = T.map fun x => x.2 (iPort k) := by
      rw [e5]
      simp only [hm]
      exact (List.map_eq_flatMap ..).symm
    rw [he]
    exact ⟨e2 _ (hport k a b), fun hinc => hinc.sublist (e2 _ (hport k a b))⟩

/-- A case: three ports, three matches, one of them incomplete. -/
example : (∀ a ∈ ([.recvData (iPort 1) ⟨1, 10⟩, .recvData (iPort 2) ⟨1, 20⟩, .recvData (iPort 3) ⟨1, 30⟩, .execData] : List (Act ℚ)),
    DataOnly (iPorts 3) a) ∧ ∃ o outs, Op.newJoin [] 3 = .ok o ∧
    results o ([.recvData (iPort 1) ⟨1, 10⟩, .recvData (iPort 2) ⟨1, 20⟩, .recvData (iPort 3) ⟨1, 30⟩, .execData] : List (Act ℚ)) = outs.map .ok ∧
    emittedOn (oPort 2) outs = [⟨1, 20⟩] := by
  refine ⟨by decide, _, [[], [], [], [(oPort 1, [⟨1, 10⟩]), (oPort 2, [⟨1, 20⟩]), (oPort 3, [⟨1, 30⟩])]], rfl, ?_, ?_⟩ <;>
    decide +kernel

/-- C20: for increasing timestamps on every port, the emitted times `ts` followed by the times still buffered on all ports are all
the times common to all ports, in order; port oK has emitted exactly the messages of iK at the times `ts`. -/
theorem C20_join (id : Str) (n : Nat) (hn : 2 ≤ n) (as : List (Act V)) (hv : ∀ a ∈ as, DataOnly (iPorts n) a)
    (hinc : ∀ p ∈ iPorts n, Increasing (sentTo p as)) :
    ∃ o outs ts, Op.newJoin id n = .ok o ∧ results o as = outs.map .ok ∧
      ts ++ commonTimes ((iPorts n).map (buffered (after o as))) = commonTimes ((iPorts n).map fun p => sentTo p as) ∧
      ∀ k, 1 ≤ k → k ≤ n → emittedOn (oPort k) outs = atTimes ts (sentTo (iPort k) as) := by
  obtain ⟨o, cm, ps, h1, h2, h3, h4, h5, h6, h7, h8⟩ := Sync.newJoin_spec (V := V) id n hn
  have hport : ∀ k, 1 ≤ k → k ≤ n → iPort k ∈ ps := fun k a b => (h4 _).2 (Sync.mem_iPorts.2 ⟨k, a, b, rfl⟩)
  obtain ⟨outs, T, e1, e2, e3, e4, e5, e6, _⟩ := Sync.main (K := .join cm) rfl h6 h7 (Sync.emits_join (by
    intro p hp
    obtain ⟨k, a, b, rfl⟩ := Sync.mem_iPorts.1 ((h4 p).1 hp)
    exact ⟨_, h8 k a b⟩)) h2 h3 as (by
      intro a ha
      have := hv a ha
      cases a <;> simp only [DataOnly] at this ⊢
      exact (h4 _).2 this) (fun p hp => hinc p ((h4 p).1 hp)) (qs := iPorts n) (fun p => (h4 p).symm)
  refine ⟨o, outs, T.map (·.1), h1, e1, e2, ?_⟩
  intro k a b
  rw [← e3 _ (hport k a b), e6]
  have : ∀ x : UInt64 × (Str → Msg V), msgsOn (oPort k) (Sync.joinOut cm ps x.2) = [x.2 (iPort k)] := by
    intro x
    obtain ⟨f1, _⟩ := Sync.joinOut_spec h8 h5 h4 x.2
    unfold msgsOn; rw [f1 k a b]
  simp only [this]
  exact (List.map_eq_flatMap ..).symm

/-- The witness of `C21_violated` and `C22_violated`: every message is followed by an execution. -/
def joinWitness1 : List (Act ℚ) :=
  oneByOne [(iPort 1, ⟨1, 0⟩), (iPort 1, ⟨6, 0⟩), (iPort 1, ⟨7, 71⟩), (iPort 1, ⟨8, 0⟩), (iPort 2, ⟨5, 0⟩), (iPort 2, ⟨7, 72⟩)]
/-- The same streams with port i2 first. -/
def joinWitness2 : List (Act ℚ) :=
  oneByOne [(iPort 2, ⟨5, 0⟩), (iPort 2, ⟨7, 72⟩), (iPort 1, ⟨1, 0⟩), (iPort 1, ⟨6, 0⟩), (iPort 1, ⟨7, 71⟩), (iPort 1, ⟨8, 0⟩)]

/-- C21 is violated: after the last `executeData` the match at time 7 is complete, but it stays in the buffers. -/
theorem C21_violated : ∃ o : Op ℚ, Op.newJoin [] 2 = .ok o ∧ results o joinWitness1 = List.replicate 12 (.ok []) ∧
    commonTimes ((iPorts 2).map (buffered (after o joinWitness1))) = [7] ∧ ∀ p ∈ iPorts 2, Increasing (sentTo p joinWitness1) := by
  refine ⟨_, rfl, by decide +kernel, by decide +kernel, ?_⟩
  intro p hp
  simp only [iPorts, List.range, List.range.loop, List.map_cons, List.map_nil, List.mem_cons, List.not_mem_nil, or_false] at hp
  unfold Increasing
  rcases hp with rfl | rfl <;> decide +kernel

/-- C21, what holds: as many further executions as there were calls empty the buffers of complete matches; then everything common has
been emitted. (Missing: one execution is not enough, see `C21_violated`.) -/
theorem C21_join_partial (id : Str) (n : Nat) (hn : 2 ≤ n) (as : List (Act V)) (hv : ∀ a ∈ as, DataOnly (iPorts n) a)
    (hinc : ∀ p ∈ iPorts n, Increasing (sentTo p as)) (k : Nat) (hk : as.length ≤ k) :
    ∃ o outs, Op.newJoin id n = .ok o ∧ results o (as ++ List.replicate k .execData) = outs.map .ok ∧
      commonTimes ((iPorts n).map (buffered (after o (as ++ List.replicate k .execData)))) = [] ∧
      ∀ j, 1 ≤ j → j ≤ n → emittedOn (oPort j) outs = atTimes (commonTimes ((iPorts n).map fun p => sentTo p as)) (sentTo (iPort j) as) := by
  have hs : ∀ p, sentTo p (as ++ List.replicate k .execData) = sentTo p as := by
    intro p
    rw [Sync.sentTo_append]
    have : sentTo p (List.replicate k (.execData : Act V)) = [] := by
      induction k with
      | zero => rfl
      | succ k ih => rw [List.replicate_succ, Sync.sentTo_exec]; cases k <;> simp_all [sentTo]
    rw [this, List.append_nil]
  obtain ⟨o, outs, ts, h1, h2, h3, h4⟩ := C20_join id n hn (as ++ List.replicate k .execData) (by
    intro a ha
    rcases List.mem_append.1 ha with ha | ha
    · exact hv a ha
    · rw [List.eq_of_mem_replicate ha]; trivial) (by intro p hp; rw [hs]; exact hinc p hp)
  obtain ⟨o', cm, ps, e1, e2, e3, e4, e5, e6, e7, e8⟩ := Sync.newJoin_spec (V := V) id n hn
  rw [h1] at e1; cases e1
  have hd := Sync.drained (K := .join cm) rfl e6 e7 e5 (Sync.emits_join (by
    intro p hp
    obtain ⟨k, a, b, rfl⟩ := Sync.mem_iPorts.1 ((e4 p).1 hp)
    exact ⟨_, e8 k a b⟩)) e2 e3 as (by
      intro a ha
      have := hv a ha
      cases a <;> simp only [DataOnly] at this ⊢
      exact (e4 _).2 this) (fun p hp => hinc p ((e4 p).1 hp)) (qs := iPorts n) (fun p => (e4 p).symm) k hk
  refine ⟨o, outs, h1, h2, hd, ?_⟩
  intro j hj1 hj2
  rw [hd, List.append_nil] at h3
  rw [h4 j hj1 hj2, h3, hs]
  simp only [hs]

/-- C22 is violated: the same two streams, each message followed by an execution, give different outputs in two arrival orders. -/
theorem C22_violated : ∃ o : Op ℚ, Op.newJoin [] 2 = .ok o ∧
    (∀ p ∈ iPorts 2, sentTo p joinWitness1 = sentTo p joinWitness2 ∧ Increasing (sentTo p joinWitness1)) ∧
    (∃ outs, results o joinWitness1 = outs.map .ok ∧ emittedOn (oPort 1) outs = []) ∧
    (∃ outs, results o joinWitness2 = outs.map .ok ∧ emittedOn (oPort 1) outs = [⟨7, 71⟩]) := by
  refine ⟨_, rfl, ?_, ⟨List.replicate 12 [], by decide +kernel, by decide +kernel⟩,
    ⟨List.replicate 9 [] ++ [[(oPort 1, [⟨7, 71⟩]), (oPort 2, [⟨7, 72⟩])], [], []], by decide +kernel, by decide +kernel⟩⟩
  intro p hp
  simp only [iPorts, List.range, List.range.loop, List.map_cons, List.map_nil, List.mem_cons, List.not_mem_nil, or_false] at hp
  unfold Increasing
  rcases hp with rfl | rfl <;> exact ⟨by decide +kernel, by decide +kernel⟩

/-- The witnesses meet the hypotheses of `C19_join`, `C20_join`, `C21_join_partial` and `C22_join_partial`, and have common times. -/
example : (∀ a ∈ joinWitness1, DataOnly (iPorts 2) a) ∧ (∀ a ∈ joinWitness2, DataOnly (iPorts 2) a) ∧
    commonTimes ((iPorts 2).map fun p => sentTo p joinWitness1) = [7] := by
  exact ⟨by decide +kernel, by decide +kernel, by decide +kernel⟩

/-- C22, what holds: for two call sequences with the same streams per port, on every output port one output is a prefix of the
other. (Missing: equality, see `C22_violated`; it holds after enough executions by `C21_join_partial`.) -/
theorem C22_join_partial (id : Str) (n : Nat) (hn : 2 ≤ n) (as bs : List (Act V)) (hva : ∀ a ∈ as, DataOnly (iPorts n) a)
    (hvb : ∀ a ∈ bs, DataOnly (iPorts n) a) (hinc : ∀ p ∈ iPorts n, Increasing (sentTo p as)) (hsame : ∀ p ∈ iPorts n, sentTo p as = sentTo p bs) :
    ∃ o outs1 outs2, Op.newJoin id n = .ok o ∧ results o as = outs1.map .ok ∧ results o bs = outs2.map .ok ∧
      ((∀ k, 1 ≤ k → k ≤ n → emittedOn (oPort k) outs1 <+: emittedOn (oPort k) outs2) ∨
       (∀ k, 1 ≤ k → k ≤ n → emittedOn (oPort k) outs2 <+: emittedOn (oPort k) outs1)) := by
  obtain ⟨o, outs1, ts1, h1, h2, h3, h4⟩ := C20_join id n hn as hva hinc
  obtain ⟨o', outs2, ts2, e1, e2, e3, e4⟩ := C20_join id n hn bs hvb (fun p hp => by rw [← hsame p hp]; exact hinc p hp)
  rw [h1] at e1; cases e1
  have hC : ((iPorts n).map fun p => sentTo p as) = (iPorts n).map fun p => sentTo p bs := List.map_congr_left hsame
  rw [← hC] at e3
  have hCinc : (commonTimes ((iPorts n).map fun p => sentTo p as)).Pairwise (· < ·) := Sync.commonTimes_inc (by
    intro s hs
    obtain ⟨p, hp, rfl⟩ := List.mem_map.1 hs
    exact hinc p hp)
  have hport : ∀ k, 1 ≤ k → k ≤ n → iPort k ∈ iPorts n := fun k a b => Sync.mem_iPorts.2 ⟨k, a, b, rfl⟩
  refine ⟨o, outs1, outs2, h1, h2, e2, ?_⟩
  have p1 : ts1 <+: commonTimes ((iPorts n).map fun p => sentTo p as) := ⟨_, h3⟩
  have p2 : ts2 <+: commonTimes ((iPorts n).map fun p => sentTo p as) := ⟨_, e3⟩
  rcases List.prefix_or_prefix_of_prefix p1 p2 with ⟨r, hr⟩ | ⟨r, hr⟩
  · left
    intro k a b
    rw [h4 k a b, e4 k a b, ← hsame _ (hport k a b), ← hr, Sync.atTimes_append (by rw [hr]; exact hCinc.sublist p2.sublist) (hinc _ (hport k a b))]
    exact ⟨_, rfl⟩
  · right
    intro k a b
    rw [h4 k a b, e4 k a b, ← hsame _ (hport k a b), ← hr, Sync.atTimes_append (by rw [hr]; exact hCinc.sublist p1.sublist) (hinc _ (hport k a b))]
    exact ⟨_, rfl⟩

end Rtbot
