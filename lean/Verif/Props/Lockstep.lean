import Verif.Lemmas.LockstepProg
import Verif.Lemmas.LockstepOut
import Verif.Props.Join
import Verif.Props.Synced
import Verif.Props.Compose
import Verif.Lemmas.Finite
import Verif.Lemmas.Trail

/-! # C88: a part of a program that is driven by one stream keeps step with it, and loses no match -/

set_option linter.unusedSectionVars false

namespace Rtbot
open Spec Flow
variable {V : Type} [Num V]

namespace Lockstep

theorem collected_ok (p : Str) (outs : List (OpMsg V)) : collected p (outs.map .ok) = emittedOn p outs := by
  unfold collected emittedOn
  rw [List.flatMap_map]

theorem keys_wired {o : Op V} {w : Map (List Conn)} : (wired o w).core.dataIn = o.core.dataIn := rfl

/-- A Join whose calls are in step has emitted all matches. -/
theorem join_all {id : Str} {n : Nat} {o : Op V} (ho : Op.newJoin id n = .ok o) {as : List (Act V)} {t : UInt64} (hs : InStep as t false)
    (hv : ∀ a ∈ as, DataOnly o.core.dataIn.keys a) (hinc : ∀ p ∈ o.core.dataIn.keys, Increasing (sentTo p as)) {k : Nat} (hk1 : 1 ≤ k) (hk2 : k ≤ n) :
    collected (oPort k) (results o as) = atTimes (commonTimes ((iPorts n).map fun p => sentTo p as)) (sentTo (iPort k) as) := by
  obtain ⟨K, ps, F, hS, hps⟩ := syncs_join ho
  have hkeys : ∀ p, p ∈ o.core.dataIn.keys ↔ p ∈ iPorts n := by
    intro p
    rw [← hps, hS.bufs.keys]
  have hv' : ∀ a ∈ as, DataOnly (iPorts n) a := fun a ha => by
    have := hv a ha
    cases a <;> simp only [DataOnly] at this ⊢
    exact (hkeys _).1 this
  have hv2 : ∀ a ∈ as, DataOnly ps a := fun a ha => by
    have := hv' a ha
    cases a <;> simp only [DataOnly] at this ⊢
    exact (hps _).2 this
  obtain ⟨o', outs, ts, h1, h2, h3, h4⟩ := C20_join id n (newJoin_two ho) as hv' fun p hp => hinc p ((hkeys p).2 hp)
  rw [ho] at h1; cases h1
  rw [syncs_drained hS hs hv2 (fun p hp => hinc p ((hkeys p).2 ((hps p).1 hp))) (qs := iPorts n) (fun p => (hps p).symm), List.append_nil] at h3
  rw [h2, collected_ok, h4 k hk1 hk2, h3]

/-- A binary operator whose calls are in step has emitted the values of all matches. -/
theorem binary_all (id : Str) (op : BinOp) {as : List (Act V)} {t : UInt64} (hs : InStep as t false) (hv : ∀ a ∈ as, DataOnly [i1, i2] a)
    (hinc : ∀ p ∈ [i1, i2], Increasing (sentTo p as)) : collected o1 (results (Op.newBinary id op) as) =
      matched op.eval (atTimes (commonTimes [sentTo i1 as, sentTo i2 as]) (sentTo i1 as)) (atTimes (commonTimes [sentTo i1 as, sentTo i2 as]) (sentTo i2 as)) := by
  have hd := syncs_drained (syncs_binary (V := V) id op) hs hv hinc (qs := [i1, i2]) fun _ => Iff.rfl
  obtain ⟨outs, T, e1, e2, e3, e4, e5, e6, e7⟩ := Sync.main (K := (.binary op : Kind V)) rfl (by simp) (by decide) (Sync.emits_binary op)
    (o := Op.newBinary id op) rfl (Sync.newBinary_bufs id op) as hv hinc (qs := [i1, i2]) (fun _ => Iff.rfl)
  rw [hd, List.append_nil] at e2
  have e0 : T.map (·.1) = commonTimes [sentTo i1 as, sentTo i2 as] := e2
  rw [e1, collected_ok, e6, ← e0, ← e3 i1 (by simp), ← e3 i2 (by simp)]
  unfold matched
  rw [List.zip_map', List.filterMap_map]
  clear e0 e2 e3 e4 e5 e6 e7
  induction T with
  | nil => rfl
  | cons x T ih =>
    rw [List.flatMap_cons, List.filterMap_cons, ih]
    simp only [Function.comp_apply, Sync.binOut]
    cases op.eval (x.2 i1).value (x.2 i2).value <;> simp [msgsOn, single]

/-- With one data port, the connection to it is a wire. -/
theorem wire_of_one {P : Prog V} {x : Nat} (hops : ∀ b o, P.st.heap b = some o → Connected o) (hmaps : ∀ b o, P.st.heap b = some o → o.core.outputs.Sorted)
    (hac : Acyclic P.st.heap) (hone : OneInto P.st.heap x) {a b : Nat} {p q : Str} {o : Op V}
    (hsrc : ∀ a' p' y, y ∈ connsOf P.st.heap a' p' → y.target = b → o.core.dataIn.has y.port = true)
    (hc : (⟨b, q⟩ : Conn) ∈ connsOf P.st.heap a p) (ho : P.st.heap b = some o) (hq : o.core.dataIn.keys = [q]) : Wire P.st.heap a p b q := by
  have hf := fine_start hops
  have hport : ∀ a' p' y, y ∈ connsOf P.st.heap a' p' → y.target = b → y = ⟨b, q⟩ ∧ a' = a ∧ p' = p := by
    intro a' p' y hy hyb
    have := mem_keys (hsrc a' p' y hy hyb)
    rw [hq, List.mem_singleton] at this
    have hy' : y = ⟨b, q⟩ := by cases y; simp_all
    subst hy'
    obtain ⟨e1, e2⟩ := hone.sole _ _ _ _ _ hy hc
    exact ⟨rfl, e1, e2⟩
  have hedge := edge_of_conns hc
  refine ⟨?_, ⟨o, ho, hf.simple b o ho, ?_⟩, ?_, ?_, fun y hy => hac a y hy⟩
  · obtain ⟨oa, hoa, _⟩ := hedge
    exact ⟨oa, hoa, hf.simple a oa hoa⟩
  · have : q ∈ o.core.dataIn.keys := by rw [hq]; simp
    rw [← Map.find?_isSome_iff] at this
    exact this
  · rintro y ⟨oy, hoy, hb⟩
    have hs := hf.simple y oy hoy
    simp only [nexts, List.mem_append, List.mem_flatMap] at hb
    rcases hb with ⟨e, he, hb⟩ | hb
    · obtain ⟨z, hz, rfl⟩ := List.mem_map.1 hb
      have : z ∈ connsOf P.st.heap y e.1 := by
        unfold connsOf
        rw [hoy]
        dsimp only
        rw [Sync.find_of_mem (hmaps y oy hoy) he]
        exact hz
      exact (hport y e.1 z this rfl).2.1
    · cases hk : oy.kind with
      | composite => rw [hk] at hb; simp [Simple, hk] at hs
      | pipeline => rw [hk] at hb; simp [Simple, hk] at hs
      | _ => rw [hk] at hb; simp at hb
  · intro p'
    split
    · next hpp =>
      subst hpp
      have hl : (connsOf P.st.heap a p').filter (fun y => y.target = b) = (connsOf P.st.heap a p').filter (fun y => y = ⟨b, q⟩) := by
        refine List.filter_congr fun y hy => ?_
        rw [decide_eq_decide]
        exact ⟨fun e => (hport a p' y hy e).1, fun e => by rw [e]⟩
      rw [hl]
      have hcount : (connsOf P.st.heap a p').count ⟨b, q⟩ = 1 := List.count_eq_one_of_mem (hone.once a p') hc
      have hb : (fun y : Conn => decide (y = ⟨b, q⟩)) = fun y => y == ⟨b, q⟩ := by funext y; rw [beq_eq_decide]
      rw [hb, List.filter_beq, hcount]
      rfl
    · next hpp =>
      rw [List.filter_eq_nil_iff]
      intro y hy
      simp only [decide_eq_true_eq]
      intro hyb
      exact hpp (hport a p' y hy hyb).2.2

theorem wire_of {P : Prog V} {x c : Nat} {ox : Op V} {pc : Str} {D : Nat → Prop} (hd : Driven P x ox c pc D) {a b : Nat} {p q : Str} {o : Op V} (hD : D b)
    (hc : (⟨b, q⟩ : Conn) ∈ connsOf P.st.heap a p) (ho : P.st.heap b = some o) (hq : o.core.dataIn.keys = [q]) : Wire P.st.heap a p b q := by
  refine wire_of_one hd.ops hd.maps hd.acyclic hd.one (fun a' p' y hy hyb => ?_) hc ho hq
  obtain ⟨_, o', h1, h2⟩ := hd.part.source a' p' y hy (by rw [hyb]; exact hD)
  rw [hyb, ho] at h1; cases h1
  exact h2

end Lockstep

open Lockstep

/-- C88: during successful calls every operator of a part of the program that is driven by one stream is called in step: it never sees a message older or newer than the current one
before everything is executed. What it receives on a port is what is emitted at the other end of the connection. -/
theorem C88_lockstep {P P' : Prog V} {x c : Nat} {ox : Op V} {pc : Str} {D : Nat → Prop} (hd : Driven P x ox c pc D) {fuel : Nat} {calls : List (OpMsg V)} {rs : List (ProgMsg V)}
    (h : debugRun fuel calls P = .ok rs P') (hord : Ordered P P' ox calls) :
    ∃ evs, P'.st.log = P.st.log ++ evs ∧ ∀ b o, D b → P.st.heap b = some o → (∃ t, InStep (actsOf b evs) t false) ∧ ExecOk o (actsOf b evs) ∧
      (∀ a ∈ actsOf b evs, DataOnly o.core.dataIn.keys a) ∧ (∀ q ∈ o.core.dataIn.keys, Increasing (sentTo q (actsOf b evs))) ∧
      ∀ a p q, (⟨b, q⟩ : Conn) ∈ connsOf P.st.heap a p → sentTo q (actsOf b evs) = emittedBy a p evs := by
  obtain ⟨evs, h1, _, h3⟩ := clocked_run hd.ops hd.acyclic hd.entry hd.there hd.one hd.part hd.outside h hord.given hord.own
  refine ⟨evs, h1, fun b o hD ho => ?_⟩
  obtain ⟨k1, k2, k3, k4, k5⟩ := h3 b o hD ho
  exact ⟨k3, k1, k2, k4, k5⟩

/-- C88: every stream of the part is the function of the clock's stream that the connections spell out; in particular no match of a Join or of a binary operator is lost or left
waiting, and every Output has passed on everything. -/
theorem C88_flows {P P' : Prog V} {x c : Nat} {ox : Op V} {pc : Str} {D : Nat → Prop} (hd : Driven P x ox c pc D) {fuel : Nat} {calls : List (OpMsg V)} {rs : List (ProgMsg V)}
    (h : debugRun fuel calls P = .ok rs P') (hord : Ordered P P' ox calls) {evs : List (Ev V)} (hl : P'.st.log = P.st.log ++ evs) {b : Nat} {p : Str} {ms : List (Msg V)}
    (hf : Flows P.st.heap c pc D (emittedBy c pc evs) b p ms) : emittedBy b p evs = ms := by
  obtain ⟨evs', h1, hall⟩ := C88_lockstep hd h hord
  cases log_cancel hl h1
  have hemit : ∀ b o p, P.st.heap b = some o → emittedBy b p evs = collected p (results o (actsOf b evs)) := by
    intro b o p ho
    obtain ⟨evs', k1, k2, _⟩ := C32_emits hd.ops hd.acyclic hd.entry ho h p
    cases log_cancel hl k1
    exact k2
  induction hf with
  | clock => rfl
  | @step a b o f ms p q p' ha hb hc ho hq hf ih =>
    have hxb : x ≠ b := fun e => hd.outside (e ▸ hb)
    obtain ⟨evs', k1, k2⟩ := C32_calls (fine_start hd.ops).wf hd.entry hxb (wire_of hd hb hc ho hq) h
    cases log_cancel hl k1
    obtain ⟨o', k⟩ := hf ms
    rw [hemit b o p' ho, k2, ih, feedOp_collected p' q _ k]
  | @binary b id op w s1 s2 a1 a2 p1 p2 f h1 h2 hb hc1 hc2 ho hf ih1 ih2 =>
    obtain ⟨⟨t, k1⟩, _, k3, k4, k5⟩ := hall b _ hb ho
    rw [hemit b _ o1 ho, results_wired, binary_all id op k1 k3 k4, k5 _ _ _ hc1, k5 _ _ _ hc2, ih1, ih2]
    have : op.eval = f := by funext x y; exact hf x y
    rw [this]
  | @join b id n o w src ss hs hb hc hj ho k hk1 hk2 ih =>
    obtain ⟨⟨t, k1⟩, _, k3, k4, k5⟩ := hall b _ hb ho
    have hstr : ∀ j, 1 ≤ j → j ≤ n → sentTo (iPort j) (actsOf b evs) = ss j := fun j h1 h2 => by rw [k5 _ _ _ (hc j h1 h2), ih j h1 h2]
    rw [hemit b _ _ ho, results_wired, join_all hj k1 k3 k4 hk1 hk2, hstr k hk1 hk2]
    congr 2
    unfold iPorts
    rw [List.map_map]
    refine List.map_congr_left fun j hj => ?_
    rw [List.mem_range] at hj
    exact hstr (j + 1) (by omega) (by omega)
  | @output b id n o w k ms a p ha hb hc hj ho hk1 hk2 ih =>
    obtain ⟨⟨t, k1⟩, k2, k3, k4, k5⟩ := hall b _ hb ho
    have := output_passes hj hk1 hk2 k1 (execOk_wired w k2) k3 (by
      rw [k5 _ _ _ hc]
      rw [← k5 _ _ _ hc]
      refine k4 _ ?_
      obtain ⟨_, o', q1, q2⟩ := hd.part.source _ _ _ hc hb
      dsimp only at q1 q2
      rw [ho] at q1; cases q1
      exact mem_keys q2)
    have hidle : iPort k ∉ (after o (actsOf b evs)).core.toProcess := by
      intro hp
      have := base_pend (.output hj) (by unfold Op.newOutput at hj; obtain ⟨⟨c, pm⟩, _, hj⟩ := bind_eq_ok.1 hj; cases hj; rfl) k1 (execOk_wired w k2) _ hp
      exact absurd this.1 (by simp)
    rw [if_neg hidle, List.append_nil] at this
    rw [hemit b _ _ ho, results_wired, this, k5 _ _ _ hc, ih]

/-- C88 read off the reports: for an operator with an id of its own, the reports list the stream it computes from the clock's stream, which comes from the given messages as in C32. -/
theorem C88_reports {P P' : Prog V} {x c : Nat} {ox : Op V} {pc p0 : Str} {D : Nat → Prop} (hd : Driven P x ox c pc D) {fuel : Nat} {mss : List (List (Msg V))} {rs : List (ProgMsg V)}
    (h : debugRun fuel (mss.map fun ms => [(p0, ms)]) P = .ok rs P') (hord : Ordered P P' ox (mss.map fun ms => [(p0, ms)])) {clock ms : List (Msg V)}
    (hy : Yields P.st.heap x p0 mss.flatten c pc clock) {b : Nat} {p : Str} (hf : Flows P.st.heap c pc D clock b p ms) {o : Op V} (ho : P.st.heap b = some o)
    (hu : ∀ y o', P.st.heap y = some o' → o'.core.id = o.core.id → y = b) : (rs.flatMap fun r => listed r o.core.id p) = ms := by
  have hfi := fine_start hd.ops
  obtain ⟨evs, h1, h2⟩ := C32_composition hd.ops hd.acyclic hd.entry h hy
  subst h2
  obtain ⟨_, evs', h3, h4⟩ := debugRun_listed _ hfi.wf h
  obtain ⟨_, _, evs2, h5, h6⟩ := debugRun_honest _ h hfi.wf hfi.simple
  cases log_cancel h1 h3
  cases log_cancel h1 h5
  rw [h4, emitted_by h6 ho hu, C88_flows hd h hord h1 hf]

/-- C88 read off the reports alone: for operators with ids of their own, what the reports list for an operator of the part is the function of what they list for the clock. -/
theorem C88_listed {P P' : Prog V} {x c : Nat} {ox oc : Op V} {pc : Str} {D : Nat → Prop} (hd : Driven P x ox c pc D) {fuel : Nat} {calls : List (OpMsg V)} {rs : List (ProgMsg V)}
    (h : debugRun fuel calls P = .ok rs P') (hord : Ordered P P' ox calls) (hoc : P.st.heap c = some oc) (huc : ∀ y o', P.st.heap y = some o' → o'.core.id = oc.core.id → y = c)
    {ms : List (Msg V)} {b : Nat} {p : Str} (hf : Flows P.st.heap c pc D (rs.flatMap fun r => listed r oc.core.id pc) b p ms) {o : Op V} (ho : P.st.heap b = some o)
    (hu : ∀ y o', P.st.heap y = some o' → o'.core.id = o.core.id → y = b) : (rs.flatMap fun r => listed r o.core.id p) = ms := by
  have hfi := fine_start hd.ops
  obtain ⟨_, evs, h3, h4⟩ := debugRun_listed _ hfi.wf h
  obtain ⟨_, _, evs2, h5, h6⟩ := debugRun_honest _ h hfi.wf hfi.simple
  cases log_cancel h3 h5
  rw [h4, emitted_by h6 hoc huc] at hf
  rw [h4, emitted_by h6 ho hu, C88_flows hd h hord h3 hf]

/-! ### Concrete cases -/

/-- In the diamond, the three operators after the entry are driven by it. -/
theorem diamond_driven (f : Map (List Str)) : Driven (diamond f) 0 (wired (Op.newIdentity [97]) [(o1, [⟨1, i1⟩, ⟨2, i1⟩])]) 0 o1 (fun b => b = 1 ∨ b = 2 ∨ b = 3) where
  ops := diamond_connected f
  maps := by
    intro b o ho
    match b, ho with
    | 0, ho | 1, ho | 2, ho | 3, ho => cases ho; unfold Map.Sorted; decide
    | b + 4, ho => cases ho
  acyclic := diamond_acyclic f
  entry := rfl
  there := rfl
  one := by
    refine Finite.oneInto (l := _) ?_ ?_
    · decide +kernel
    · decide +kernel
  part := by
    refine Finite.clocked (by decide) ?_ ?_
    · intro e he hD
      have he : e ∈ [(0, o1, (⟨1, i1⟩ : Conn)), (0, o1, ⟨2, i1⟩), (1, o1, ⟨3, i1⟩), (2, o1, ⟨3, i2⟩)] := he
      simp only [List.mem_cons, List.not_mem_nil, or_false] at he
      rcases he with rfl | rfl | rfl | rfl
      · exact ⟨Or.inr ⟨rfl, rfl⟩, _, rfl, rfl⟩
      · exact ⟨Or.inr ⟨rfl, rfl⟩, _, rfl, rfl⟩
      · exact ⟨Or.inl (Or.inl rfl), _, rfl, rfl⟩
      · exact ⟨Or.inl (Or.inr (Or.inl rfl)), _, rfl, rfl⟩
    · rintro b o (rfl | rfl | rfl) ho <;> cases ho <;> trivial
  outside := by decide

/-- What a sequence of calls gives to a sole port. -/
theorem Lockstep.givenTo_sole {q : Str} (mss : List (List (Msg V))) : givenTo true q ((mss.map fun ms => [(q, ms)]).map Feed.receiveDebug) = mss.flatten := by
  induction mss with
  | nil => rfl
  | cons ms mss ih =>
    unfold givenTo at *
    rw [List.map_cons, List.map_cons, List.flatMap_cons, ih]
    simp [Feed.msgs]

theorem diamond_ordered (f : Map (List Str)) (mss : List (List (Msg ℚ))) (hinc : Increasing mss.flatten) (P' : Prog ℚ) :
    Ordered (diamond f) P' (wired (Op.newIdentity [97]) [(o1, [⟨1, i1⟩, ⟨2, i1⟩])]) (mss.map fun ms => [(i1, ms)]) where
  given p hp := by
    have : p = i1 := by
      by_contra hn
      have h : Map.has ([(i1, Inp.new i1 1)] : Map (Inp ℚ)) p = true := hp
      simp [Map.has, Map.find?_cons, Ne.symm hn] at h
    subst this
    rw [show ((wired (Op.newIdentity [97]) [(o1, [⟨1, i1⟩, ⟨2, i1⟩])] : Op ℚ).core.dataIn.length == 1) = true from rfl, givenTo_sole]
    exact hinc
  own evs _ b o ho := by
    match b, ho with
    | 0, ho | 1, ho | 2, ho | 3, ho => cases ho; trivial
    | b + 4, ho => cases ho

/-- Whatever is fed to the diamond in the order of time, in whatever batches, no difference is lost. -/
example (f : Map (List Str)) (fuel : Nat) (mss : List (List (Msg ℚ))) (hinc : Increasing mss.flatten) (rs P') (h : debugRun fuel (mss.map fun ms => [(i1, ms)]) (diamond f) = .ok rs P') :
    (rs.flatMap fun r => listed r [100] o1) = mss.flatten.map fun m => ⟨m.time, (m.value + 1) - m.value * 2⟩ := by
  have hy : Yields (diamond f).st.heap 0 i1 mss.flatten 0 o1 mss.flatten := by
    have h0 := Yields.entry (h := (diamond f).st.heap) (entry := 0) (input := mss.flatten) o1 rfl ((C09_identity [97]).wired [(o1, [⟨1, i1⟩, ⟨2, i1⟩])])
    rwa [show emittedOn o1 (answers (fun _ m => [(o1, [m])]) [] mss.flatten) = mss.flatten from (emittedOn_map o1 id _ []).trans (List.map_id _)] at h0
  have hc : Flows (diamond f).st.heap 0 o1 (fun b => b = 1 ∨ b = 2 ∨ b = 3) mss.flatten 0 o1 mss.flatten := .clock
  have h1 := Flows.step (b := 1) (q := i1) o1 hc (Or.inl rfl) (show _ ∈ ([⟨1, i1⟩, ⟨2, i1⟩] : List Conn) by decide) rfl rfl ((C09_add [98] 1).wired [(o1, [⟨3, i1⟩])])
  have h2 := Flows.step (b := 2) (q := i1) o1 hc (Or.inr (Or.inl rfl)) (show _ ∈ ([⟨1, i1⟩, ⟨2, i1⟩] : List Conn) by decide) rfl rfl ((C09_scale [99] 2).wired [(o1, [⟨3, i2⟩])])
  rw [emittedOn_map o1 (fun m : Msg ℚ => ⟨m.time, m.value +. 1⟩)] at h1
  rw [emittedOn_map o1 (fun m : Msg ℚ => ⟨m.time, m.value *. 2⟩)] at h2
  have h3 := Flows.binary (b := 3) (id := [100]) (op := .minus) (w := []) (fun x y => some (x - y)) h1 h2 (Or.inr (Or.inr rfl)) (show _ ∈ ([⟨3, i1⟩] : List Conn) by decide)
    (show _ ∈ ([⟨3, i2⟩] : List Conn) by decide) rfl (fun _ _ => rfl)
  rw [Trail.matched_images] at h3
  refine (C88_reports (diamond_driven f) h (diamond_ordered f mss hinc P') hy h3 rfl ?_).trans ?_
  · intro x o' ho hid
    match x, ho with
    | 0, ho => cases ho; exact absurd hid (by decide)
    | 1, ho => cases ho; exact absurd hid (by decide)
    | 2, ho => cases ho; exact absurd hid (by decide)
    | 3, ho => rfl
    | n + 4, ho => cases ho
  · rw [List.filterMap_eq_map_iff_forall_eq_some]
    intro m _
    rfl

/-- Such a run. -/
example : (match debugRun 9 [[(i1, [⟨1, 5⟩, ⟨3, 7⟩])], [(i1, [⟨4, 1⟩])]] (diamond []) with
    | .ok rs _ => rs.flatMap fun r => listed r [100] o1
    | .err _ _ => []) = [⟨1, -4⟩, ⟨3, -6⟩, ⟨4, 0⟩] := by decide +kernel

end Rtbot
