import Verif.Lemmas.ServedRun
import Verif.Props.Lockstep

/-! # C90: in a program without cycles every message is executed before the next, and what is delayed finds its match -/

set_option linter.unusedSectionVars false

namespace Rtbot
open Spec Flow
variable {V : Type} [Num V]

namespace Served
open Lockstep

/-- A Join that is executed between any two messages for the same port, and one of whose streams has only times of the others, has emitted all matches. -/
theorem join_all {id : Str} {n : Nat} {o : Op V} (ho : Op.newJoin id n = .ok o) {as : List (Act V)} (hs : Singly as []) (hv : ∀ a ∈ as, DataOnly (iPorts n) a)
    (hinc : ∀ p ∈ iPorts n, Increasing (sentTo p as)) {s : Str} (hsp : s ∈ iPorts n) (hin : ∀ p ∈ iPorts n, TimesIn (sentTo s as) (sentTo p as)) {k : Nat} (hk1 : 1 ≤ k) (hk2 : k ≤ n) :
    collected (oPort k) (results o as) = atTimes (commonTimes ((iPorts n).map fun p => sentTo p as)) (sentTo (iPort k) as) := by
  obtain ⟨K, ps, F, hS, hps⟩ := syncs_join ho
  have hv2 : ∀ a ∈ as, DataOnly ps a := fun a ha => by
    have := hv a ha
    cases a <;> simp only [DataOnly] at this ⊢
    exact (hps _).2 this
  obtain ⟨o', outs, ts, h1, h2, h3, h4⟩ := C20_join id n (newJoin_two ho) as hv hinc
  rw [ho] at h1; cases h1
  rw [syncs_drained hS hs hv2 (fun p hp => hinc p ((hps p).1 hp)) ((hps s).2 hsp) (fun p hp => hin p ((hps p).1 hp)) (qs := iPorts n) (fun p => (hps p).symm), List.append_nil] at h3
  rw [h2, collected_ok, h4 k hk1 hk2, h3]

/-- The same for a binary operator. -/
theorem binary_all (id : Str) (op : BinOp) {as : List (Act V)} (hs : Singly as []) (hv : ∀ a ∈ as, DataOnly [i1, i2] a)
    (hinc : ∀ p ∈ [i1, i2], Increasing (sentTo p as)) {s : Str} (hsp : s ∈ [i1, i2]) (hin : ∀ p ∈ [i1, i2], TimesIn (sentTo s as) (sentTo p as)) :
    collected o1 (results (Op.newBinary id op) as) =
      matched op.eval (atTimes (commonTimes [sentTo i1 as, sentTo i2 as]) (sentTo i1 as)) (atTimes (commonTimes [sentTo i1 as, sentTo i2 as]) (sentTo i2 as)) := by
  have hd := syncs_drained (syncs_binary (V := V) id op) hs hv hinc hsp hin (qs := [i1, i2]) fun _ => Iff.rfl
  obtain ⟨outs, T, e1, e2, e3, e4, e5, e6, e7⟩ := Sync.main (K := (.binary op : Kind V)) rfl (by simp) (by decide) (Sync.emits_binary op)
    (o := Op.newBinary id op) rfl (Sync.newBinary_bufs id op) as hv hinc (qs := [i1, i2]) (fun _ => Iff.rfl)
  rw [hd, List.append_nil] at e2
  have e0 : T.map (·.1) = commonTimes [sentTo i1 as, sentTo i2 as] := e2
  rw [e1, collected_ok, e6, ← e0, ← e3 i1 (by simp), ← e3 i2 (by simp)]
  unfold matched
  rw [List.zip_map', List.filterMap_map]
  clear e0 e2 e3 e4 e5 e6 e7
  induction T with
  | nil => rfl
  | cons x T ih =>
    rw [List.flatMap_cons, List.filterMap_cons, ih]
    simp only [Function.comp_apply, Sync.binOut]
    cases op.eval (x.2 i1).value (x.2 i2).value <;> simp [msgsOn, single]

end Served

open Lockstep

/-- C90: a Join that is executed between any two messages for the same port, and one of whose streams has only times of all the others, has nothing complete left waiting when it was
executed after the last message; it has emitted all matches. -/
theorem C90_join {id : Str} {n : Nat} {o : Op V} (ho : Op.newJoin id n = .ok o) {as : List (Act V)} (hs : Singly as []) (hv : ∀ a ∈ as, DataOnly (iPorts n) a)
    (hinc : ∀ p ∈ iPorts n, Increasing (sentTo p as)) {s : Str} (hsp : s ∈ iPorts n) (hin : ∀ p ∈ iPorts n, TimesIn (sentTo s as) (sentTo p as)) {k : Nat} (hk1 : 1 ≤ k) (hk2 : k ≤ n) :
    collected (oPort k) (results o as) = atTimes (commonTimes ((iPorts n).map fun p => sentTo p as)) (sentTo (iPort k) as) :=
  Served.join_all ho hs hv hinc hsp hin hk1 hk2

/-- C90: in successful calls of a program without cycles, in which each port is reached by at most one connection, every operator to whose data ports alone connections lead is executed
after every message it receives before the next for the same port, and has received on each port all that is emitted at the other end of the connection. -/
theorem C90_served {P P' : Prog V} {x : Nat} {ox : Op V} (hP : Plain P x ox) {fuel : Nat} {calls : List (OpMsg V)} {rs : List (ProgMsg V)} (h : debugRun fuel calls P = .ok rs P')
    {evs : List (Ev V)} (hl : P'.st.log = P.st.log ++ evs) {b : Nat} {o : Op V} (hb : b ≠ x) (hd : OnlyData P.st.heap b) (ho : P.st.heap b = some o) :
    Singly (actsOf b evs) [] ∧ ∀ a p q, (⟨b, q⟩ : Conn) ∈ connsOf P.st.heap a p → sentTo q (actsOf b evs) = emittedBy a p evs :=
  have h1 := Served.served_run hP h hl hb hd ho
  ⟨h1.1, h1.2.2.2⟩

/-- C90: the streams of the program are the functions of one another that the connections spell out; no match is lost or left waiting at a Join or a binary operator one of whose streams
has only times of the others, however late that stream is, and every Output passes on everything. -/
theorem C90_streams {P P' : Prog V} {x c : Nat} {ox : Op V} {pc : Str} (hP : Plain P x ox) {fuel : Nat} {calls : List (OpMsg V)} {rs : List (ProgMsg V)}
    (h : debugRun fuel calls P = .ok rs P') (hord : Ordered P P' ox calls) {evs : List (Ev V)} (hl : P'.st.log = P.st.log ++ evs) {b : Nat} {p : Str} {ms : List (Msg V)}
    (hf : Streams P.st.heap x c pc (emittedBy c pc evs) b p ms) : emittedBy b p evs = ms := by
  have hincr : ∀ b p, Increasing (emittedBy b p evs) := by
    have hafter := debugRun_after calls h
    obtain ⟨⟨evs', h1, h2⟩, _⟩ := C82_order_cond hP.ops hP.acyclic hP.entry hP.there hP.one fuel (calls.map .receiveDebug) hord.given (by rw [hafter]; exact hord.own)
    rw [hafter] at h1
    cases log_cancel hl h1
    exact h2
  have hemit : ∀ b o p, P.st.heap b = some o → emittedBy b p evs = collected p (results o (actsOf b evs)) := by
    intro b o p ho
    obtain ⟨evs', k1, k2, _⟩ := C32_emits hP.ops hP.acyclic hP.entry ho h p
    cases log_cancel hl k1
    exact k2
  induction hf with
  | source => rfl
  | @step a b o f ms p q p' ha hc hd ho hq hf ih =>
    have hxb : x ≠ b := fun e => hP.one.entry a p _ hc e.symm
    obtain ⟨evs', k1, k2⟩ := C32_calls (fine_start hP.ops).wf hP.entry hxb (wire_of_one hP.ops hP.maps hP.acyclic hP.one (fun a' p' y hy hyb => by
      obtain ⟨o', h1, h2⟩ := hd a' p' y hy hyb
      rw [ho] at h1; cases h1
      exact h2) hc ho hq) h
    cases log_cancel hl k1
    obtain ⟨o', k⟩ := hf ms
    rw [hemit b o p' ho, k2, ih, feedOp_collected p' q _ k]
  | @binary b id op w s1 s2 a1 a2 p1 p2 f h1 h2 hc1 hc2 hd ho hf hs ih1 ih2 =>
    obtain ⟨k1, _, k3, k5⟩ := Served.served_run hP h hl (hP.one.entry _ _ _ hc1) hd ho
    have e1 : sentTo i1 (actsOf b evs) = s1 := by rw [k5 _ _ _ hc1, ih1]
    have e2 : sentTo i2 (actsOf b evs) = s2 := by rw [k5 _ _ _ hc2, ih2]
    have hinc : ∀ p ∈ [i1, i2], Increasing (sentTo p (actsOf b evs)) := by
      intro p hp
      simp only [List.mem_cons, List.not_mem_nil, or_false] at hp
      rcases hp with rfl | rfl
      · rw [k5 _ _ _ hc1]; exact hincr _ _
      · rw [k5 _ _ _ hc2]; exact hincr _ _
    have hrefl : ∀ s : List (Msg V), TimesIn s s := fun s y hy => List.any_eq_true.2 ⟨y, hy, by simp⟩
    have key : collected o1 (results (Op.newBinary id op) (actsOf b evs)) =
        matched op.eval (atTimes (commonTimes [sentTo i1 (actsOf b evs), sentTo i2 (actsOf b evs)]) (sentTo i1 (actsOf b evs)))
          (atTimes (commonTimes [sentTo i1 (actsOf b evs), sentTo i2 (actsOf b evs)]) (sentTo i2 (actsOf b evs))) := by
      rcases hs with hs | hs
      · refine Served.binary_all id op k1 k3 hinc (s := i1) (by simp) fun p hp => ?_
        simp only [List.mem_cons, List.not_mem_nil, or_false] at hp
        rcases hp with rfl | rfl
        · exact hrefl _
        · rw [e1, e2]; exact hs
      · refine Served.binary_all id op k1 k3 hinc (s := i2) (by simp) fun p hp => ?_
        simp only [List.mem_cons, List.not_mem_nil, or_false] at hp
        rcases hp with rfl | rfl
        · rw [e1, e2]; exact hs
        · exact hrefl _
    rw [hemit b _ o1 ho, results_wired, key, e1, e2]
    have : op.eval = f := by funext x y; exact hf x y
    rw [this]
  | @join b id n o w src ss hs hc hd hj ho j hj1 hj2 ht k hk1 hk2 ih =>
    obtain ⟨k1, _, k3, k5⟩ := Served.served_run hP h hl (hP.one.entry _ _ _ (hc k hk1 hk2)) hd ho
    have hstr : ∀ j, 1 ≤ j → j ≤ n → sentTo (iPort j) (actsOf b evs) = ss j := fun j h1 h2 => by rw [k5 _ _ _ (hc j h1 h2), ih j h1 h2]
    have hkeys : ∀ q, q ∈ (wired o w).core.dataIn.keys → q ∈ iPorts n := by
      obtain ⟨K, ps, F, hS, hps⟩ := syncs_join hj
      intro q hq
      rw [← hps]
      rw [← hS.bufs.keys]
      exact hq
    have hv : ∀ a ∈ actsOf b evs, DataOnly (iPorts n) a := fun a ha => by
      have := k3 a ha
      cases a <;> simp only [DataOnly] at this ⊢
      exact hkeys _ this
    have hport : ∀ q ∈ iPorts n, ∃ i, 1 ≤ i ∧ i ≤ n ∧ q = iPort i := fun q hq => by
      obtain ⟨i, a, b, rfl⟩ := Sync.mem_iPorts.1 hq
      exact ⟨i, a, b, rfl⟩
    rw [hemit b _ _ ho, results_wired, Served.join_all hj k1 hv ?_ (s := iPort j) (Sync.mem_iPorts.2 ⟨j, hj1, hj2, rfl⟩) ?_ hk1 hk2, hstr k hk1 hk2]
    · congr 2
      unfold iPorts
      rw [List.map_map]
      refine List.map_congr_left fun j hj => ?_
      rw [List.mem_range] at hj
      exact hstr (j + 1) (by omega) (by omega)
    · intro q hq
      obtain ⟨i, h1, h2, rfl⟩ := hport q hq
      rw [k5 _ _ _ (hc i h1 h2)]
      exact hincr _ _
    · intro q hq
      obtain ⟨i, h1, h2, rfl⟩ := hport q hq
      rw [hstr j hj1 hj2, hstr i h1 h2]
      exact ht i h1 h2
  | @output b id n o w k ms a p ha hc hd hj ho hk1 hk2 ih =>
    obtain ⟨k1, k2, k3, k5⟩ := Served.served_run hP h hl (hP.one.entry _ _ _ hc) hd ho
    have := Served.output_passes hj hk1 hk2 k1 (execOk_wired w k2) k3
    have hidle : iPort k ∉ (after o (actsOf b evs)).core.toProcess := by
      intro hp
      refine absurd (Served.base_fresh (.output hj) ?_ ?_ k1 (execOk_wired w k2) k3 _ hp).1 (by simp)
      · unfold Op.newOutput at hj
        obtain ⟨⟨c, pm⟩, _, hj⟩ := bind_eq_ok.1 hj
        cases hj
        rfl
      · unfold Op.newOutput at hj
        obtain ⟨⟨c, pm⟩, hadd, hj⟩ := bind_eq_ok.1 hj
        cases hj
        obtain ⟨c1, pm1, h1, hports, _⟩ := addPorts_spec (V := V) id 1 n
        rw [hadd] at h1
        cases h1
        intro h
        obtain ⟨k, _, _, h⟩ := (hports.keys _).1 h
        exact iPort_ne_nil k h.symm
    rw [if_neg hidle, List.append_nil] at this
    rw [hemit b _ _ ho, results_wired, this, k5 _ _ _ hc, ih]

/-- C90 read off the reports: for operators with ids of their own, what the reports list for an operator is the function of what they list for the source. -/
theorem C90_listed {P P' : Prog V} {x c : Nat} {ox oc : Op V} {pc : Str} (hP : Plain P x ox) {fuel : Nat} {calls : List (OpMsg V)} {rs : List (ProgMsg V)}
    (h : debugRun fuel calls P = .ok rs P') (hord : Ordered P P' ox calls) (hoc : P.st.heap c = some oc) (huc : ∀ y o', P.st.heap y = some o' → o'.core.id = oc.core.id → y = c)
    {ms : List (Msg V)} {b : Nat} {p : Str} (hf : Streams P.st.heap x c pc (rs.flatMap fun r => listed r oc.core.id pc) b p ms) {o : Op V} (ho : P.st.heap b = some o)
    (hu : ∀ y o', P.st.heap y = some o' → o'.core.id = o.core.id → y = b) : (rs.flatMap fun r => listed r o.core.id p) = ms := by
  have hfi := fine_start hP.ops
  obtain ⟨_, evs, h3, h4⟩ := debugRun_listed _ hfi.wf h
  obtain ⟨_, _, evs2, h5, h6⟩ := debugRun_honest _ h hfi.wf hfi.simple
  cases log_cancel h3 h5
  rw [h4, emitted_by h6 hoc huc] at hf
  rw [h4, emitted_by h6 ho hu, C90_streams hP h hord h3 hf]

/-! ### Cases -/

namespace Served

/-- An Input with two ports that leads to a Join. -/
def twoJson : Json ℚ := .obj [(b!"connections", .arr [
    .obj [(b!"from", .str b!"in1"), (b!"fromPort", .str b!"o1"), (b!"to", .str b!"join"), (b!"toPort", .str b!"i1")],
    .obj [(b!"from", .str b!"in1"), (b!"fromPort", .str b!"o2"), (b!"to", .str b!"join"), (b!"toPort", .str b!"i2")]]),
  (b!"entryOperator", .str b!"in1"), (b!"operators", .arr [
    .obj [(b!"id", .str b!"in1"), (b!"numPorts", .uint 2), (b!"type", .str b!"Input")],
    .obj [(b!"id", .str b!"join"), (b!"numPorts", .uint 2), (b!"type", .str b!"Join")]])]

/-- What is reported for a port, over all calls. -/
def twoRun (calls : List (OpMsg ℚ)) (id p : Str) : Option (List (Msg ℚ)) :=
  match Prog.initWith (fun _ => (0, 0)) [] twoJson with
  | .ok P => match debugRun 9 calls P with
    | .ok rs _ => some (rs.flatMap fun r => listed r id p)
    | .err _ _ => none
  | .error _ => none

/-- A run in which the second stream has only times of the first, and one in which neither has only times of the other. -/
def inside : List (OpMsg ℚ) := [[(i1, [⟨1, 10⟩, ⟨5, 50⟩])], [(i1, [⟨8, 80⟩]), (i2, [⟨5, 500⟩])], [(i2, [⟨8, 800⟩])]]
def across : List (OpMsg ℚ) := [[(i1, [⟨1, 10⟩, ⟨5, 50⟩])], [(i1, [⟨8, 80⟩]), (i2, [⟨3, 300⟩])], [(i2, [⟨8, 800⟩])]]

/-- Calls on a Join of which the second port has only times of the first and is late. -/
def late : List (Act ℚ) := [.recvData i1 ⟨1, 10⟩, .execData, .recvData i1 ⟨5, 50⟩, .execData, .recvData i2 ⟨5, 500⟩, .execData]

theorem late_singly : Singly late [] :=
  .exec (as := [.recvData i1 ⟨1, 10⟩, .execData, .recvData i1 ⟨5, 50⟩, .execData, .recvData i2 ⟨5, 500⟩])
    (.recv (as := [.recvData i1 ⟨1, 10⟩, .execData, .recvData i1 ⟨5, 50⟩, .execData]) _ _
      (.exec (as := [.recvData i1 ⟨1, 10⟩, .execData, .recvData i1 ⟨5, 50⟩]) (.recv (as := [.recvData i1 ⟨1, 10⟩, .execData]) _ _ (.exec (as := [.recvData i1 ⟨1, 10⟩]) (.recv (as := []) _ _
        .start (by simp))) (by simp))) (by simp))

example : (∃ o, (Op.newJoin b!"j" 2 : Except Err (Op ℚ)) = .ok o) ∧ (∀ a ∈ late, DataOnly (iPorts 2) a) ∧ (∀ p ∈ iPorts 2, Increasing (sentTo p late)) ∧
    (∀ p ∈ iPorts 2, TimesIn (sentTo i2 late) (sentTo p late)) ∧ atTimes (commonTimes ((iPorts 2).map fun p => sentTo p late)) (sentTo (iPort 1) late) = [⟨5, 50⟩] := by
  refine ⟨⟨_, rfl⟩, ?_, ?_, ?_, ?_⟩
  · intro a ha
    simp only [late, List.mem_cons, List.not_mem_nil, or_false] at ha
    rcases ha with rfl | rfl | rfl | rfl | rfl | rfl <;> first | trivial | (show _ ∈ iPorts 2; decide)
  · unfold Increasing; decide +kernel
  · unfold TimesIn; decide +kernel
  · decide +kernel

end Served

/-- C90: the condition on the times is needed. A program without cycles is given messages in the order of time on each port; with times of one stream that occur in the other every match is
reported, but with times of which neither has all of the other the message with time 8 has come on both ports of the Join, every call has returned, and it is not reported. -/
theorem C90_left_waiting :
    (Served.twoRun Served.inside b!"join" o1 = some [⟨5, 50⟩, ⟨8, 80⟩] ∧ Served.twoRun Served.inside b!"join" b!"o2" = some [⟨5, 500⟩, ⟨8, 800⟩]) ∧
    Served.twoRun Served.across b!"in1" o1 = some [⟨1, 10⟩, ⟨5, 50⟩, ⟨8, 80⟩] ∧ Served.twoRun Served.across b!"in1" b!"o2" = some [⟨3, 300⟩, ⟨8, 800⟩] ∧
    Served.twoRun Served.across b!"join" o1 = some [] ∧ Served.twoRun Served.across b!"join" b!"o2" = some [] := by
  refine ⟨⟨?_, ?_⟩, ?_, ?_, ?_, ?_⟩ <;> decide +kernel

end Rtbot
