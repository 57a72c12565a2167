import Verif.Props.Bands
import Verif.Props.Returns

/-! # C89: the example program "Join Operator Test" -/

set_option linter.unusedSectionVars false

namespace Rtbot
open Spec Flow
variable {V : Type} [Num V]

/-- examples/data/program-test-3.json. -/
def Spec.joinJson (V : Type) : Json V := .obj [(b!"apiVersion", .str b!"v1"), (b!"author", .str b!"Eduardo"), (b!"connections", .arr [
    .obj [(b!"from", .str b!"in1"), (b!"fromPort", .str b!"o1"), (b!"to", .str b!"id1"), (b!"toPort", .str b!"i1")],
    .obj [(b!"from", .str b!"id1"), (b!"fromPort", .str b!"o1"), (b!"to", .str b!"join"), (b!"toPort", .str b!"i1")],
    .obj [(b!"from", .str b!"id1"), (b!"fromPort", .str b!"o1"), (b!"to", .str b!"join"), (b!"toPort", .str b!"i2")],
    .obj [(b!"from", .str b!"join"), (b!"fromPort", .str b!"o1"), (b!"to", .str b!"sc1"), (b!"toPort", .str b!"i1")],
    .obj [(b!"from", .str b!"join"), (b!"fromPort", .str b!"o2"), (b!"to", .str b!"sc2"), (b!"toPort", .str b!"i1")],
    .obj [(b!"from", .str b!"sc1"), (b!"fromPort", .str b!"o1"), (b!"to", .str b!"out1"), (b!"toPort", .str b!"i1")],
    .obj [(b!"from", .str b!"sc2"), (b!"fromPort", .str b!"o1"), (b!"to", .str b!"out1"), (b!"toPort", .str b!"i2")]]),
  (b!"date", .str b!"now"), (b!"description", .str b!"This is a program to test the join operator"), (b!"entryOperator", .str b!"in1"), (b!"license", .str b!"MIT"), (b!"operators", .arr [
    .obj [(b!"id", .str b!"in1"), (b!"type", .str b!"Input")],
    .obj [(b!"id", .str b!"id1"), (b!"type", .str b!"Identity")],
    .obj [(b!"id", .str b!"join"), (b!"numPorts", .uint 2), (b!"type", .str b!"Join")],
    .obj [(b!"id", .str b!"sc1"), (b!"type", .str b!"Scale"), (b!"value", .uint 2)],
    .obj [(b!"id", .str b!"sc2"), (b!"type", .str b!"Scale"), (b!"value", .uint 3)],
    .obj [(b!"id", .str b!"out1"), (b!"numPorts", .uint 2), (b!"type", .str b!"Output")]]),
  (b!"title", .str b!"Join Operator Test")]

namespace JoinTest

def in1 : Op V := match Op.newInput b!"in1" 1 with | .ok o => o | .error _ => Op.newIdentity []
def join2 : Op V := match Op.newJoin b!"join" 2 with | .ok o => o | .error _ => Op.newIdentity []
def out2 : Op V := match Op.newOutput b!"out1" 2 with | .ok o => o | .error _ => Op.newIdentity []
theorem in1_eq : (Op.newInput b!"in1" 1 : Except Err (Op V)) = .ok in1 := rfl
theorem join2_eq : (Op.newJoin b!"join" 2 : Except Err (Op V)) = .ok join2 := rfl
theorem out2_eq : (Op.newOutput b!"out1" 2 : Except Err (Op V)) = .ok out2 := rfl

/-- The operators of the program, by address. -/
def ops : List (Op V) := [
  wired in1 [(o1, [⟨1, i1⟩])],
  wired (Op.newIdentity b!"id1") [(o1, [⟨2, i1⟩, ⟨2, i2⟩])],
  wired join2 [(o1, [⟨3, i1⟩]), (b!"o2", [⟨4, i1⟩])],
  wired (Op.newScale b!"sc1" (Num.ofNat 2)) [(o1, [⟨5, i1⟩])],
  wired (Op.newScale b!"sc2" (Num.ofNat 3)) [(o1, [⟨5, i2⟩])],
  wired out2 []]

theorem made (junk : Junk V) (json : Str) : ∃ P, Prog.initWith junk json (joinJson V) = .ok P ∧ P.st.heap = heapOf ops ∧ P.ops.find? P.entry = some 0 := by
  refine ⟨_, rfl, ?_, rfl⟩
  funext a
  match a with
  | 0 => rfl
  | 1 => rfl
  | 2 => rfl
  | 3 => rfl
  | 4 => rfl
  | 5 => rfl
  | a + 6 => rfl

theorem arrows_eq : Finite.arrows (ops : List (Op V)) = [(0, o1, ⟨1, i1⟩), (1, o1, ⟨2, i1⟩), (1, o1, ⟨2, i2⟩), (2, o1, ⟨3, i1⟩), (2, b!"o2", ⟨4, i1⟩), (3, o1, ⟨5, i1⟩), (4, o1, ⟨5, i2⟩)] := rfl

theorem simple : ∀ o ∈ (ops : List (Op V)), Simple o := by
  intro o ho
  simp only [ops, List.mem_cons, List.not_mem_nil, or_false] at ho
  rcases ho with rfl | rfl | rfl | rfl | rfl | rfl <;> trivial

theorem acyclic : Acyclic (heapOf (ops : List (Op V))) := by
  refine Finite.acyclic simple id ?_
  rw [arrows_eq]
  decide

/-- The operators after the Input. -/
def part (b : Nat) : Prop := 0 < b

theorem driven {P : Prog V} (hh : P.st.heap = heapOf ops) (he : P.ops.find? P.entry = some 0) : Driven P 0 (wired in1 [(o1, [⟨1, i1⟩])]) 0 o1 part where
  ops := by
    rw [hh]
    refine Finite.all_of_mem ?_
    intro o ho
    simp only [ops, List.mem_cons, List.not_mem_nil, or_false] at ho
    rcases ho with rfl | rfl | rfl | rfl | rfl | rfl
    · exact ⟨_, _, .input in1_eq, rfl⟩
    · exact ⟨_, _, .identity _, rfl⟩
    · exact ⟨_, _, .join join2_eq, rfl⟩
    · exact ⟨_, _, .scale _ _, rfl⟩
    · exact ⟨_, _, .scale _ _, rfl⟩
    · exact ⟨_, _, .output out2_eq, rfl⟩
  maps := by
    rw [hh]
    refine Finite.all_of_mem ?_
    intro o ho
    simp only [ops, List.mem_cons, List.not_mem_nil, or_false] at ho
    rcases ho with rfl | rfl | rfl | rfl | rfl | rfl <;> simp [wired, Map.Sorted, Map.keys] <;> decide
  acyclic := by rw [hh]; exact acyclic
  entry := he
  there := by rw [hh]; rfl
  one := by rw [hh]; refine Finite.oneInto ?_ ?_ <;> rw [arrows_eq] <;> decide
  part := by
    rw [hh]
    refine Finite.clocked (by unfold part; decide) ?_ ?_
    · rw [arrows_eq]
      intro e he hD
      simp only [List.mem_cons, List.not_mem_nil, or_false] at he
      rcases he with rfl | rfl | rfl | rfl | rfl | rfl | rfl
      all_goals first
        | exact ⟨Or.inl (by unfold part; decide), _, rfl, rfl⟩
        | exact ⟨Or.inr ⟨rfl, rfl⟩, _, rfl, rfl⟩
    · intro b o hb ho
      unfold part at hb
      match b, ho with
      | 0, ho => omega
      | 1, ho | 2, ho | 3, ho | 4, ho | 5, ho => cases ho; trivial
      | b + 6, ho => cases ho
  outside := by unfold part; decide

theorem ordered {P P' : Prog V} (hh : P.st.heap = heapOf ops) {mss : List (List (Msg V))} (hinc : Increasing mss.flatten) :
    Ordered P P' (wired in1 [(o1, [⟨1, i1⟩])]) (mss.map fun ms => [(i1, ms)]) where
  given p hp := by
    have : p = i1 := by
      by_contra hn
      have h : Map.has ([(i1, Inp.new i1 1)] : Map (Inp V)) p = true := hp
      simp [Map.has, Map.find?_cons, Ne.symm hn] at h
    subst this
    rw [show ((wired in1 [(o1, [⟨1, i1⟩])] : Op V).core.dataIn.length == 1) = true from rfl, Lockstep.givenTo_sole]
    exact hinc
  own evs hl b o ho := by
    rw [hh] at ho
    match b, ho with
    | 0, ho | 1, ho | 2, ho | 3, ho | 4, ho | 5, ho => cases ho; trivial
    | b + 6, ho => cases ho

/-- Ids are unique. -/
theorem unique {l : List (Op V)} (hn : (l.map fun o => o.core.id).Nodup) {h : Nat → Option (Op V)} (hh : h = heapOf l) {b : Nat} {o : Op V} (ho : h b = some o) :
    ∀ y o', h y = some o' → o'.core.id = o.core.id → y = b := by
  subst hh
  intro y o' hy hid
  have key : ∀ {b : Nat} {o : Op V}, heapOf l b = some o → (l.map fun o : Op V => o.core.id)[b]? = some o.core.id := by
    intro b o h
    rw [List.getElem?_map, show l[b]? = some o from h]
    rfl
  have h2 := key hy
  rw [hid] at h2
  have hlt : y < (l.map fun o => o.core.id).length := (List.getElem?_eq_some_iff.1 h2).1
  exact (List.getElem?_inj hlt hn).1 (h2.trans (key ho).symm)

/-- Successive calls return when each single call does. -/
theorem runs {fuel : Nat} {P : Prog V} {K : OpMsg V → Prop} (hK : ∀ calls msgs, K msgs → ∃ r P', (history fuel calls P).receiveDebug fuel msgs = .ok r P') :
    ∀ (calls done : List (OpMsg V)), (∀ m ∈ calls, K m) → ∃ rs P', debugRun fuel calls (history fuel done P) = .ok rs P'
  | [], _, _ => ⟨_, _, rfl⟩
  | m :: calls, done, h => by
    obtain ⟨r, P1, h1⟩ := hK done m (h m (by simp))
    have h2 : P1 = history fuel (done ++ [m]) P := by
      unfold history
      rw [List.foldl_append]
      change P1 = ((history fuel done P).receiveDebug fuel m).state
      rw [h1]
      rfl
    obtain ⟨rs, P2, h3⟩ := runs hK calls (done ++ [m]) fun x hx => h x (by simp [hx])
    rw [← h2] at h3
    refine ⟨r :: rs, P2, ?_⟩
    unfold debugRun
    rw [h1]
    dsimp only
    rw [h3]

/-- An Input with one port as entry operator passes on all messages that come in the order of time. -/
theorem input_all {P P' : Prog V} (hc : ∀ b o, P.st.heap b = some o → Connected o) (hac : Acyclic P.st.heap) {x : Nat} (he : P.ops.find? P.entry = some x) {id : Str} {o : Op V}
    (ho : Op.newInput id 1 = .ok o) {w : Map (List Conn)} (hx : P.st.heap x = some (wired o w)) {fuel : Nat} {mss : List (List (Msg V))} (hinc : Increasing mss.flatten)
    {rs : List (ProgMsg V)} (h : debugRun fuel (mss.map fun ms => [(i1, ms)]) P = .ok rs P') {evs : List (Ev V)} (hl : P'.st.log = P.st.log ++ evs) : emittedBy x o1 evs = mss.flatten := by
  obtain ⟨evs', k1, k2, _, k4⟩ := C32_emits hc hac he hx h o1
  cases log_cancel hl k1
  obtain ⟨o', outs, g1, g2, g3⟩ := C01_records id 1 (mss.flatten.map fun m => (i1, m)) (by
    intro x hx
    obtain ⟨m, _, rfl⟩ := List.mem_map.1 hx
    exact ⟨1, by decide, by decide, rfl⟩)
  rw [ho] at g1
  cases g1
  rw [k2, k4 rfl, handed_one, Bands.oneByOne_inTurn, results_wired, g2, Lockstep.collected_ok, show o1 = oPort 1 from rfl, (g3 1 (by decide) (by decide)).1]
  rw [List.filter_eq_self.2, List.map_map]
  · rw [show ((fun x : Str × Msg V => x.2) ∘ fun m => (i1, m)) = _root_.id from rfl, List.map_id]
    exact Bands.records_self _ _ (fun _ _ => rfl) hinc
  · intro x hx
    obtain ⟨m, _, rfl⟩ := List.mem_map.1 hx
    rfl

/-- The program answers every sequence of calls on its port. -/
theorem answers {junk : Junk V} {json : Str} {P : Prog V} (hP : Prog.initWith junk json (joinJson V) = .ok P) (hh : P.st.heap = heapOf ops) (he : P.ops.find? P.entry = some 0) :
    ∃ n, ∀ fuel, n < fuel → ∀ mss : List (List (Msg V)), ∃ rs P', debugRun fuel (mss.map fun ms => [(i1, ms)]) P = .ok rs P' := by
  have hk : ∀ b o, P.st.heap b = some o → Sturdy o ∧ Tame o ∧ ∀ ins outs pm, o.kind ≠ .pipeline ins outs pm := by
    rw [hh]
    refine Finite.all_of_mem ?_
    intro o ho
    simp only [ops, List.mem_cons, List.not_mem_nil, or_false] at ho
    rcases ho with rfl | rfl | rfl | rfl | rfl | rfl <;> exact ⟨trivial, trivial, fun _ _ _ h => by cases h⟩
  obtain ⟨n, hn⟩ := C66_returns_partial hP (fun a o ins outs pm ho hk' => ((hk a o ho).2.2 _ _ _ hk').elim)
    ⟨fun a o ho => (hk a o ho).2.1, fun a o ins outs pm ho hk' => ((hk a o ho).2.2 _ _ _ hk').elim⟩ (fun b o ho => (hk b o ho).1) (by rw [hh]; exact acyclic) he
    (show P.st.heap 0 = some (wired in1 [(o1, [⟨1, i1⟩])]) by rw [hh]; rfl)
  refine ⟨n, fun fuel hf mss => ?_⟩
  refine runs (K := fun msgs => ∀ q ∈ msgs.keys, q = i1) (fun calls msgs hK => (hn fuel hf calls msgs fun q hq => ?_).1) _ [] fun m hm q hq => ?_
  · rw [hK q hq]
    exact List.mem_cons_self
  · obtain ⟨ms, _, rfl⟩ := List.mem_map.1 hm
    exact List.mem_singleton.1 hq

end JoinTest

open JoinTest

/-- C89: the program made from examples/data/program-test-3.json answers every sequence of calls; given messages in the order of time in whatever batches, it reports each message on the first
port of "out1" with its value times 2 and on the second with its value times 3, in order, none twice and none missing (any arithmetic). -/
theorem C89_join {junk : Junk V} {json : Str} {P : Prog V} (hP : Prog.initWith junk json (joinJson V) = .ok P) :
    ∃ n, ∀ fuel, n < fuel → ∀ mss : List (List (Msg V)), ∃ rs P', debugRun fuel (mss.map fun ms => [(i1, ms)]) P = .ok rs P' ∧ (Increasing mss.flatten →
      (rs.flatMap fun r => listed r b!"out1" o1) = mss.flatten.map (fun m => ⟨m.time, m.value *. Num.ofNat 2⟩) ∧
      (rs.flatMap fun r => listed r b!"out1" b!"o2") = mss.flatten.map fun m => ⟨m.time, m.value *. Num.ofNat 3⟩) := by
  obtain ⟨P0, e0, hh, he⟩ := JoinTest.made junk json
  rw [hP] at e0
  cases e0
  obtain ⟨n, hn⟩ := JoinTest.answers hP hh he
  refine ⟨n, fun fuel hf mss => ?_⟩
  obtain ⟨rs, P', h⟩ := hn fuel hf mss
  refine ⟨rs, P', h, fun hinc => ?_⟩
  have hd := JoinTest.driven hh he
  have hord : Ordered P P' _ _ := JoinTest.ordered hh hinc
  have hfi := fine_start hd.ops
  obtain ⟨_, evs, h3, h4⟩ := debugRun_listed _ hfi.wf h
  obtain ⟨_, _, evs2, h5, h6⟩ := debugRun_honest _ h hfi.wf hfi.simple
  cases log_cancel h3 h5
  have hin := JoinTest.input_all hd.ops hd.acyclic he JoinTest.in1_eq hd.there hinc h h3
  have h0 : P.st.heap 5 = some (wired out2 []) := by rw [hh]; rfl
  have hD : ∀ {b}, 0 < b → JoinTest.part b := fun h => h
  have fc : Flows P.st.heap 0 o1 JoinTest.part mss.flatten 0 o1 mss.flatten := .clock
  have fi := Flows.step (b := 1) (q := i1) o1 fc (hD (by decide)) (by rw [hh]; exact List.mem_cons_self) (by rw [hh]; rfl) rfl ((C09_identity b!"id1").wired [(o1, [⟨2, i1⟩, ⟨2, i2⟩])])
  rw [show emittedOn o1 (Spec.answers (fun _ m => [(o1, [m])]) [] mss.flatten) = mss.flatten from (emittedOn_map o1 id _ []).trans (List.map_id _)] at fi
  have hs : ∀ k, 1 ≤ k → k ≤ 2 → Flows P.st.heap 0 o1 JoinTest.part mss.flatten 1 o1 mss.flatten := fun _ _ _ => fi
  have hcon : ∀ k, 1 ≤ k → k ≤ 2 → (⟨2, iPort k⟩ : Conn) ∈ connsOf P.st.heap 1 o1 := by
    intro k h1 h2
    rw [hh]
    show _ ∈ ([⟨2, i1⟩, ⟨2, i2⟩] : List Conn)
    have : k = 1 ∨ k = 2 := by omega
    rcases this with rfl | rfl <;> decide
  have fj : ∀ k, 1 ≤ k → k ≤ 2 → Flows P.st.heap 0 o1 JoinTest.part mss.flatten 2 (oPort k) mss.flatten := by
    intro k h1 h2
    have := Flows.join (b := 2) (src := fun _ => (1, o1)) (ss := fun _ => mss.flatten) (w := [(o1, [⟨3, i1⟩]), (b!"o2", [⟨4, i1⟩])]) hs (hD (by decide)) hcon join2_eq (by rw [hh]; rfl) h1 h2
    rwa [Trail.atTimes_self (by simp) (by simp)] at this
  have f1 := Flows.step (b := 3) (q := i1) o1 (fj 1 (by decide) (by decide)) (hD (by decide)) (by rw [hh]; exact List.mem_cons_self) (by rw [hh]; rfl) rfl
    ((C09_scale b!"sc1" (Num.ofNat 2)).wired [(o1, [⟨5, i1⟩])])
  have f2 := Flows.step (b := 4) (q := i1) o1 (fj 2 (by decide) (by decide)) (hD (by decide)) (by rw [hh]; exact List.mem_cons_self) (by rw [hh]; rfl) rfl
    ((C09_scale b!"sc2" (Num.ofNat 3)).wired [(o1, [⟨5, i2⟩])])
  rw [emittedOn_map o1 (fun m : Msg V => ⟨m.time, m.value *. Num.ofNat 2⟩)] at f1
  rw [emittedOn_map o1 (fun m : Msg V => ⟨m.time, m.value *. Num.ofNat 3⟩)] at f2
  have g1 := Flows.output (b := 5) (k := 1) (w := []) f1 (hD (by decide)) (by rw [hh]; exact List.mem_cons_self) out2_eq h0 (by decide) (by decide)
  have g2 := Flows.output (b := 5) (k := 2) (w := []) f2 (hD (by decide)) (by rw [hh]; exact List.mem_cons_self) out2_eq h0 (by decide) (by decide)
  have hu := JoinTest.unique (l := JoinTest.ops) (show ([b!"in1", b!"id1", b!"join", b!"sc1", b!"sc2", b!"out1"] : List Str).Nodup by decide) hh h0
  rw [← hin] at g1 g2
  refine ⟨((h4 b!"out1" o1).trans (emitted_by h6 h0 hu o1)).trans ((C88_flows hd h hord h3 g1).trans ?_), ((h4 b!"out1" b!"o2").trans (emitted_by h6 h0 hu _)).trans
    ((C88_flows hd h hord h3 g2).trans ?_)⟩ <;> rw [hin]

/-- A case: the program can be made, and a run of it. -/
example : (match Prog.initWith (fun _ => (0, 0)) [] (joinJson ℚ) with
    | .ok P => match debugRun 9 [[(i1, [⟨1, 5⟩, ⟨3, 7⟩])], [(i1, [⟨4, 1⟩])]] P with
      | .ok rs _ => some (rs.flatMap fun r => listed r b!"out1" o1, rs.flatMap fun r => listed r b!"out1" b!"o2")
      | .err _ _ => none
    | .error _ => none) = some ([⟨1, 10⟩, ⟨3, 14⟩, ⟨4, 2⟩], [⟨1, 15⟩, ⟨3, 21⟩, ⟨4, 3⟩]) := by decide +kernel

end Rtbot
