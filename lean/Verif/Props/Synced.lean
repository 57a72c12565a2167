import Verif.Lemmas.SyncOps
import Verif.Spec.Gate

/-! # Properties of the operators on synchronised streams: C23, C24 -/

namespace Rtbot
open Spec

section
variable {V : Type} [Field V] [LinearOrder V] [IsStrictOrderedRing V] [Num V] [Exact V]

/-- C23: for increasing timestamps per port every call succeeds; the matches handled so far (`ts`) followed by the matches still
buffered are all common times in order; the operator has emitted on o1, for the matched pairs at the times `ts` and in their order,
the messages with the values of the specification (none for a division by zero or a failed comparison), and nothing on other ports. -/
theorem C23_binary (id : Str) (op : BinOp) (as : List (Act V)) (hv : ∀ a ∈ as, DataOnly [i1, i2] a)
    (hinc : ∀ p ∈ [i1, i2], Increasing (sentTo p as)) :
    ∃ outs ts, results (Op.newBinary id op) as = outs.map .ok ∧
      ts ++ commonTimes [buffered (after (Op.newBinary id op) as) i1, buffered (after (Op.newBinary id op) as) i2] =
        commonTimes [sentTo i1 as, sentTo i2 as] ∧
      emittedOn o1 outs = pairs (pairValue op) (atTimes ts (sentTo i1 as)) (atTimes ts (sentTo i2 as)) ∧
      ∀ q, q ≠ o1 → emittedOn q outs = [] := by
  obtain ⟨outs, T, e1, e2, e3, e4, e5, e6, e7⟩ := Sync.main (K := (.binary op : Kind V)) rfl (by simp) (by decide) (Sync.emits_binary op)
    (o := Op.newBinary id op) rfl (Sync.newBinary_bufs id op) as hv hinc (qs := [i1, i2]) (fun _ => Iff.rfl)
  refine ⟨outs, T.map (·.1), e1, e2, ?_, ?_⟩
  · rw [e6, ← e3 i1 (by simp), ← e3 i2 (by simp)]
    unfold pairs
    rw [List.zip_map', List.filterMap_map]
    clear e2 e3 e4 e5 e6 e7
    induction T with
    | nil => rfl
    | cons x T ih =>
      rw [List.flatMap_cons, List.filterMap_cons, ih]
      simp only [Function.comp_apply, Sync.binOut, Sync.eval_exact]
      cases pairValue op (x.2 i1).value (x.2 i2).value <;> simp [msgsOn, single]
  · intro q hq
    rw [e6]
    apply List.flatMap_eq_nil_iff.2
    intro x _
    unfold Sync.binOut
    cases op.eval (x.2 i1).value (x.2 i2).value
    · rfl
    · simp [msgsOn, single, Ne.symm hq]

end

/-- A case: a division with one division by zero and one unmatched message. -/
def divCase : List (Act ℚ) :=
  [.recvData i1 ⟨1, 6⟩, .execData, .recvData i2 ⟨1, 3⟩, .execData, .recvData i1 ⟨2, 5⟩, .recvData i2 ⟨2, 0⟩, .execData,
   .recvData i1 ⟨3, 5⟩, .execData, .recvData i2 ⟨4, 2⟩, .execData, .recvData i1 ⟨4, 9⟩, .execData]

example : (∀ a ∈ divCase, DataOnly [i1, i2] a) ∧ (∀ p ∈ [i1, i2], Increasing (sentTo p divCase)) ∧
    commonTimes [sentTo i1 divCase, sentTo i2 divCase] = [1, 2, 4] ∧
    pairs (pairValue .div) (atTimes [1, 2, 4] (sentTo i1 divCase)) (atTimes [1, 2, 4] (sentTo i2 divCase)) = [⟨1, 2⟩, ⟨4, 9 / 2⟩] := by
  refine ⟨by decide, ?_, by decide +kernel, by decide +kernel⟩
  intro p hp
  simp only [List.mem_cons, List.not_mem_nil, or_false] at hp
  unfold Increasing
  rcases hp with rfl | rfl <;> decide +kernel

section
variable {V : Type} [Field V] [LinearOrder V] [IsStrictOrderedRing V] [Num V] [Exact V]

/-- C24, any number of ports: as C23, and for each handled match one message on o1 with the common time and the linear combination
in which coefficient number j belongs to the j-th port **in lexicographic order of the port names**. (Missing: for ten and more
ports that is not port ij, see `C24_violated`.) -/
theorem C24_linear_partial (id : Str) (coeff : List V) (hn : 2 ≤ coeff.length) (as : List (Act V))
    (hv : ∀ a ∈ as, DataOnly (iPorts coeff.length) a) (hinc : ∀ p ∈ iPorts coeff.length, Increasing (sentTo p as)) :
    ∃ o outs ts, ∃ ps : List Str, Op.newLinear id coeff = .ok o ∧ results o as = outs.map .ok ∧ ps.Perm (iPorts coeff.length) ∧
      ps.Pairwise (fun a b => strLt a b = true) ∧
      ts ++ commonTimes ((iPorts coeff.length).map (buffered (after o as))) = commonTimes ((iPorts coeff.length).map fun p => sentTo p as) ∧
      (emittedOn o1 outs).map some = ts.map (combineAt coeff (ps.map fun p => sentTo p as)) ∧
      ∀ q, q ≠ o1 → emittedOn q outs = [] := by
  obtain ⟨o, ps, h1, h2, h3, h4, h5, h6, h7, h8⟩ := Sync.newLinear_spec (V := V) id coeff hn
  obtain ⟨outs, T, e1, e2, e3, e4, e5, e6, e7⟩ := Sync.main (K := (.linear coeff : Kind V)) rfl h6 h7 (Sync.emits_linear coeff (by omega))
    h2 h3 as (by
      intro a ha
      have := hv a ha
      cases a <;> simp only [DataOnly] at this ⊢
      exact (h4 _).2 this) (fun p hp => hinc p ((h4 p).1 hp)) (qs := iPorts coeff.length) (fun p => (h4 p).symm)
  refine ⟨o, outs, T.map (·.1), ps, h1, e1, ?_, h5, e2, ?_, ?_⟩
  · have hnd : ps.Nodup := List.Pairwise.imp (fun h => strLt_ne h) h5
    have hnd2 : (iPorts coeff.length).Nodup := by
      unfold iPorts
      rw [List.nodup_iff_pairwise_ne, List.pairwise_map]
      refine List.Pairwise.imp ?_ List.pairwise_lt_range
      intro a b hab he
      have := iPort_inj he
      omega
    exact (List.perm_ext_iff_of_nodup hnd hnd2).2 h4
  · rw [e6]
    clear e2 e3 e5 e6 e7
    induction T with
    | nil => rfl
    | cons x T ih =>
      rw [List.flatMap_cons, List.map_append, ih (fun y hy => e4 y (List.mem_cons_of_mem _ hy)), List.map_cons, List.map_cons]
      have hx := e4 x (by simp)
      have hc : combineAt coeff (ps.map fun p => sentTo p as) x.1 = some (Sync.linFold x.2 ps coeff ⟨0, Num.ofNat 0⟩) := by
        unfold combineAt
        rw [Sync.mapM_find (fun p => sentTo p as) x.2 x.1 ps (fun p hp => ⟨(hx p hp).2, (hx p hp).1, hinc p ((h4 p).1 hp)⟩)]
        simp only [Option.map_some]
        congr 1
        have ht := Sync.linFold_time x.2 x.1 ps coeff ⟨0, Num.ofNat 0⟩ (by omega) (fun p hp => (hx p hp).1) (Or.inl h6)
        have hval := Sync.linFold_value x.2 ps coeff ⟨0, Num.ofNat 0⟩
        simp only [Exact.ofNat_eq, Nat.cast_zero, zero_add] at hval
        simp only [List.map_map]
        rw [Exact.ofNat_eq] at ht
        simp only [Exact.ofNat_eq, Nat.cast_zero] at ht ⊢
        cases hm : Sync.linFold x.2 ps coeff ⟨0, 0⟩ with
        | mk t v =>
          rw [hm] at ht hval
          simp only at ht hval
          rw [ht, hval]; rfl
      rw [hc]
      simp [msgsOn, single]
  · intro q hq
    rw [e6]
    apply List.flatMap_eq_nil_iff.2
    intro x _
    simp [msgsOn, single, Ne.symm hq]

/-- C24 for at most nine ports: coefficient k belongs to port ik. -/
theorem C24_linear_le_nine (id : Str) (coeff : List V) (hn : 2 ≤ coeff.length) (hn9 : coeff.length ≤ 9) (as : List (Act V))
    (hv : ∀ a ∈ as, DataOnly (iPorts coeff.length) a) (hinc : ∀ p ∈ iPorts coeff.length, Increasing (sentTo p as)) :
    ∃ o outs ts, Op.newLinear id coeff = .ok o ∧ results o as = outs.map .ok ∧
      ts ++ commonTimes ((iPorts coeff.length).map (buffered (after o as))) = commonTimes ((iPorts coeff.length).map fun p => sentTo p as) ∧
      (emittedOn o1 outs).map some = ts.map (combineAt coeff ((iPorts coeff.length).map fun p => sentTo p as)) ∧
      ∀ q, q ≠ o1 → emittedOn q outs = [] := by
  obtain ⟨o, outs, ts, ps, h1, h2, h3, h4, h5, h6, h7⟩ := C24_linear_partial id coeff hn as hv hinc
  have hs : (iPorts coeff.length).Pairwise (fun a b => strLt a b = true) := by
    generalize coeff.length = n at hn9
    have : ∀ n : Fin 10, (iPorts n).Pairwise (fun a b => strLt a b = true) := by decide
    exact this ⟨n, by omega⟩
  have : ps = iPorts coeff.length := Sync.sorted_ext (fun a b => strLt a b = true) (fun a h => by rw [strLt_irrefl] at h; cases h)
    (fun a b h h' => by rw [strLt_asymm h] at h'; cases h') h4 hs (fun x => h3.mem_iff)
  rw [this] at h6
  exact ⟨o, outs, ts, h1, h2, h5, h6, h7⟩

end

/-- A case for the previous two theorems. -/
def linCase : List (Act ℚ) := [.recvData (iPort 1) ⟨1, 6⟩, .recvData (iPort 3) ⟨1, 7⟩, .execData, .recvData (iPort 2) ⟨1, 3⟩, .execData]

example : (∀ a ∈ linCase, DataOnly (iPorts 3) a) ∧ (∀ p ∈ iPorts 3, Increasing (sentTo p linCase)) ∧
    combineAt [1, 10, 100] ((iPorts 3).map fun p => sentTo p linCase) 1 = some ⟨1, 736⟩ := by
  refine ⟨by decide, ?_, by decide +kernel⟩
  intro p hp
  have : p ∈ [iPort 1, iPort 2, iPort 3] := hp
  simp only [List.mem_cons, List.not_mem_nil, or_false] at this
  unfold Increasing
  rcases this with rfl | rfl | rfl <;> decide +kernel

/-- C24 is violated for ten ports: with coefficients 0,1,0,…,0 the output should be the value on i2; it is the value on i10. -/
theorem C24_violated : ∃ o : Op ℚ, Op.newLinear [] [0, 1, 0, 0, 0, 0, 0, 0, 0, 0] = .ok o ∧
    (∃ outs, results o ((List.range 10).map (fun k => .recvData (iPort (k + 1)) ⟨1, (k + 1 : ℕ)⟩) ++ [.execData]) = outs.map .ok ∧
      emittedOn o1 outs = [⟨1, 10⟩]) ∧
    combineAt [0, 1, 0, 0, 0, 0, 0, 0, 0, 0] ((iPorts 10).map fun p =>
      sentTo p ((List.range 10).map (fun k => .recvData (iPort (k + 1)) ⟨1, ((k + 1 : ℕ) : ℚ)⟩) ++ [.execData])) 1 = some ⟨1, 2⟩ := by
  refine ⟨_, rfl, ⟨List.replicate 10 [] ++ [[(o1, [⟨1, 10⟩])]], ?_, ?_⟩, ?_⟩ <;> decide +kernel

end Rtbot
