import Verif.Props.Served
import Verif.Props.JoinTest
import Verif.Lemmas.Peaks

/-! # C91: the two example programs "Peak detector" -/

set_option linter.unusedSectionVars false

namespace Rtbot
open Spec Flow
variable {V : Type} [Num V]

/-- examples/data/program-test-2.json. -/
def Spec.peakJson (V : Type) : Json V := .obj [(b!"apiVersion", .str b!"v1"), (b!"author", .str b!"Eduardo"), (b!"connections", .arr [
    .obj [(b!"from", .str b!"in1"), (b!"fromPort", .str b!"o1"), (b!"to", .str b!"peak"), (b!"toPort", .str b!"i1")],
    .obj [(b!"from", .str b!"peak"), (b!"fromPort", .str b!"o1"), (b!"to", .str b!"join"), (b!"toPort", .str b!"i1")],
    .obj [(b!"from", .str b!"in1"), (b!"fromPort", .str b!"o1"), (b!"to", .str b!"join"), (b!"toPort", .str b!"i2")]]),
  (b!"date", .str b!"now"), (b!"description", .str b!"This is a program to detect peaks"), (b!"entryOperator", .str b!"in1"), (b!"license", .str b!"MIT"), (b!"operators", .arr [
    .obj [(b!"id", .str b!"in1"), (b!"type", .str b!"Input")],
    .obj [(b!"id", .str b!"peak"), (b!"n", .uint 3), (b!"type", .str b!"PeakDetector")],
    .obj [(b!"id", .str b!"join"), (b!"numPorts", .uint 2), (b!"type", .str b!"Join")]]),
  (b!"title", .str b!"Peak detector")]

/-- examples/data/program-test-1.json. -/
def Spec.ppgJson (V : Type) : Json V := .obj [(b!"apiVersion", .str b!"v1"), (b!"author", .str b!"Someone <someone@gmail.com>"), (b!"connections", .arr [
    .obj [(b!"from", .str b!"in1"), (b!"fromPort", .str b!"o1"), (b!"to", .str b!"ma1"), (b!"toPort", .str b!"i1")],
    .obj [(b!"from", .str b!"ma1"), (b!"fromPort", .str b!"o1"), (b!"to", .str b!"minus"), (b!"toPort", .str b!"i1")],
    .obj [(b!"from", .str b!"minus"), (b!"fromPort", .str b!"o1"), (b!"to", .str b!"peak"), (b!"toPort", .str b!"i1")],
    .obj [(b!"from", .str b!"peak"), (b!"fromPort", .str b!"o1"), (b!"to", .str b!"join"), (b!"toPort", .str b!"i1")],
    .obj [(b!"from", .str b!"join"), (b!"fromPort", .str b!"o2"), (b!"to", .str b!"out1"), (b!"toPort", .str b!"i1")],
    .obj [(b!"from", .str b!"in1"), (b!"fromPort", .str b!"o1"), (b!"to", .str b!"ma2"), (b!"toPort", .str b!"i1")],
    .obj [(b!"from", .str b!"ma2"), (b!"fromPort", .str b!"o1"), (b!"to", .str b!"minus"), (b!"toPort", .str b!"i2")],
    .obj [(b!"from", .str b!"in1"), (b!"fromPort", .str b!"o1"), (b!"to", .str b!"join"), (b!"toPort", .str b!"i2")]]),
  (b!"date", .str b!"1985-04-12"), (b!"description", .str b!"This is a program to detect peaks in PPG..."), (b!"entryOperator", .str b!"in1"), (b!"license", .str b!"MIT"),
  (b!"operators", .arr [
    .obj [(b!"id", .str b!"in1"), (b!"type", .str b!"Input")],
    .obj [(b!"id", .str b!"ma1"), (b!"n", .uint 6), (b!"type", .str b!"MovingAverage")],
    .obj [(b!"id", .str b!"ma2"), (b!"n", .uint 250), (b!"type", .str b!"MovingAverage")],
    .obj [(b!"id", .str b!"minus"), (b!"type", .str b!"Minus")],
    .obj [(b!"id", .str b!"peak"), (b!"n", .uint 13), (b!"type", .str b!"PeakDetector")],
    .obj [(b!"id", .str b!"join"), (b!"numPorts", .uint 2), (b!"type", .str b!"Join")],
    .obj [(b!"id", .str b!"out1"), (b!"numPorts", .uint 1), (b!"type", .str b!"Output")]]),
  (b!"output", .obj [(b!"out1", .arr [.str b!"o1"])]), (b!"title", .str b!"Peak detector")]

namespace Peaks
open JoinTest (in1 in1_eq join2 join2_eq)

theorem onlyData {l : List (Op V)} (h : ∀ e ∈ Finite.arrows l, ∃ o, l[e.2.2.target]? = some o ∧ o.core.dataIn.has e.2.2.port = true) (b : Nat) : OnlyData (heapOf l) b := by
  intro a p c hc hb
  subst hb
  exact h _ (Finite.mem_arrows hc)

/-- A program whose entry operator is an Input with one port answers every sequence of calls on this port. -/
theorem answers {junk : Junk V} {json : Str} {j : Json V} {P : Prog V} (hP : Prog.initWith junk json j = .ok P) {l : List (Op V)} (hh : P.st.heap = heapOf l) {x : Nat} {w : Map (List Conn)}
    (he : P.ops.find? P.entry = some x) (hx : P.st.heap x = some (wired in1 w)) (hac : Acyclic P.st.heap)
    (hk : ∀ o ∈ l, Sturdy o ∧ Tame o ∧ ∀ ins outs pm, o.kind ≠ .pipeline ins outs pm) :
    ∃ n, ∀ fuel, n < fuel → ∀ mss : List (List (Msg V)), ∃ rs P', debugRun fuel (mss.map fun ms => [(i1, ms)]) P = .ok rs P' := by
  have hk : ∀ b o, P.st.heap b = some o → Sturdy o ∧ Tame o ∧ ∀ ins outs pm, o.kind ≠ .pipeline ins outs pm := by
    rw [hh]
    exact Finite.all_of_mem hk
  obtain ⟨n, hn⟩ := C66_returns_partial hP (fun a o ins outs pm ho hk' => ((hk a o ho).2.2 _ _ _ hk').elim)
    ⟨fun a o ho => (hk a o ho).2.1, fun a o ins outs pm ho hk' => ((hk a o ho).2.2 _ _ _ hk').elim⟩ (fun b o ho => (hk b o ho).1) hac he hx
  refine ⟨n, fun fuel hf mss => ?_⟩
  refine JoinTest.runs (K := fun msgs => ∀ q ∈ msgs.keys, q = i1) (fun calls msgs hK => (hn fuel hf calls msgs fun q hq => ?_).1) _ [] fun m hm q hq => ?_
  · rw [hK q hq]
    exact List.mem_cons_self
  · obtain ⟨ms, _, rfl⟩ := List.mem_map.1 hm
    exact List.mem_singleton.1 hq

theorem ordered {P P' : Prog V} {l : List (Op V)} (hh : P.st.heap = heapOf l) (w : Map (List Conn)) (hk : ∀ o ∈ l, ∀ as, OrderCond o.kind as) {mss : List (List (Msg V))}
    (hinc : Increasing mss.flatten) : Ordered P P' (wired in1 w) (mss.map fun ms => [(i1, ms)]) where
  given p hp := by
    have : p = i1 := by
      by_contra hn
      have h : Map.has ([(i1, Inp.new i1 1)] : Map (Inp V)) p = true := hp
      simp [Map.has, Map.find?_cons, Ne.symm hn] at h
    subst this
    rw [show ((wired in1 w : Op V).core.dataIn.length == 1) = true from rfl, Lockstep.givenTo_sole]
    exact hinc
  own evs hl b o ho := by
    rw [hh] at ho
    exact Finite.all_of_mem (Q := fun o => ∀ as, OrderCond o.kind as) hk b o ho _

/-- What is reported for a port of an operator with an id of its own. -/
theorem reported {P P' : Prog V} {x : Nat} {w : Map (List Conn)} (hp : Plain P x (wired in1 w)) {l : List (Op V)} (hh : P.st.heap = heapOf l) (hk : ∀ o ∈ l, ∀ as, OrderCond o.kind as)
    (hn : (l.map fun o => o.core.id).Nodup) {fuel : Nat} {mss : List (List (Msg V))} (hinc : Increasing mss.flatten) {rs : List (ProgMsg V)}
    (h : debugRun fuel (mss.map fun ms => [(i1, ms)]) P = .ok rs P') {b : Nat} {p : Str} {ms : List (Msg V)} (hf : Streams P.st.heap x x o1 mss.flatten b p ms) {o : Op V}
    (ho : P.st.heap b = some o) : (rs.flatMap fun r => listed r o.core.id p) = ms := by
  have hfi := fine_start hp.ops
  obtain ⟨_, evs, h3, h4⟩ := debugRun_listed _ hfi.wf h
  obtain ⟨_, _, evs2, h5, h6⟩ := debugRun_honest _ h hfi.wf hfi.simple
  cases log_cancel h3 h5
  have hin := JoinTest.input_all hp.ops hp.acyclic hp.entry JoinTest.in1_eq hp.there hinc h h3
  rw [← hin] at hf
  rw [h4, emitted_by h6 ho (JoinTest.unique hn hh ho), C90_streams hp h (ordered hh w hk hinc) h3 hf]

/-! ## The small program -/

/-- The operators of the program, by address. -/
def ops : List (Op V) := [
  wired in1 [(o1, [⟨1, i1⟩, ⟨2, i2⟩])],
  wired (Op.newPeak b!"peak" 3) [(o1, [⟨2, i1⟩])],
  wired join2 []]

theorem made (junk : Junk V) (json : Str) : ∃ P, Prog.initWith junk json (peakJson V) = .ok P ∧ P.st.heap = heapOf ops ∧ P.ops.find? P.entry = some 0 := by
  refine ⟨_, rfl, ?_, rfl⟩
  funext a
  match a with
  | 0 => rfl
  | 1 => rfl
  | 2 => rfl
  | a + 3 => rfl

theorem arrows_eq : Finite.arrows (ops : List (Op V)) = [(0, o1, ⟨1, i1⟩), (0, o1, ⟨2, i2⟩), (1, o1, ⟨2, i1⟩)] := rfl

theorem kinds : ∀ o ∈ (ops : List (Op V)), Simple o ∧ Connected o ∧ o.core.outputs.Sorted ∧ (∀ as, OrderCond o.kind as) ∧ Sturdy o ∧ Tame o ∧ ∀ ins outs pm, o.kind ≠ .pipeline ins outs pm := by
  intro o ho
  simp only [ops, List.mem_cons, List.not_mem_nil, or_false] at ho
  rcases ho with rfl | rfl | rfl
  · exact ⟨trivial, ⟨_, _, .input in1_eq, rfl⟩, by simp [wired, Map.Sorted, Map.keys], fun _ => trivial, trivial, trivial, fun _ _ _ h => by cases h⟩
  · exact ⟨trivial, ⟨_, _, .peak _ _, rfl⟩, by simp [wired, Map.Sorted, Map.keys], fun _ => trivial, trivial, trivial, fun _ _ _ h => by cases h⟩
  · exact ⟨trivial, ⟨_, _, .join join2_eq, rfl⟩, by simp [wired, Map.Sorted, Map.keys], fun _ => trivial, trivial, trivial, fun _ _ _ h => by cases h⟩

theorem acyclic : Acyclic (heapOf (ops : List (Op V))) := by
  refine Finite.acyclic (fun o ho => (kinds o ho).1) id ?_
  rw [arrows_eq]
  decide

theorem plain {P : Prog V} (hh : P.st.heap = heapOf ops) (he : P.ops.find? P.entry = some 0) : Plain P 0 (wired in1 [(o1, [⟨1, i1⟩, ⟨2, i2⟩])]) where
  ops := by rw [hh]; exact Finite.all_of_mem fun o ho => (kinds o ho).2.1
  maps := by rw [hh]; exact Finite.all_of_mem fun o ho => (kinds o ho).2.2.1
  acyclic := by rw [hh]; exact acyclic
  entry := he
  there := by rw [hh]; rfl
  one := by rw [hh]; refine Finite.oneInto ?_ ?_ <;> rw [arrows_eq] <;> decide

theorem datas (b : Nat) : OnlyData (heapOf (ops : List (Op V))) b := by
  refine onlyData ?_ b
  rw [arrows_eq]
  intro e he
  simp only [List.mem_cons, List.not_mem_nil, or_false] at he
  rcases he with rfl | rfl | rfl <;> exact ⟨_, rfl, rfl⟩

/-! ## The large program -/

def out1 : Op V := match Op.newOutput b!"out1" 1 with | .ok o => o | .error _ => Op.newIdentity []
theorem out1_eq : (Op.newOutput b!"out1" 1 : Except Err (Op V)) = .ok out1 := rfl

/-- The operators of the program, by address. -/
def ppgOps : List (Op V) := [
  wired in1 [(o1, [⟨1, i1⟩, ⟨2, i1⟩, ⟨5, i2⟩])],
  wired (Op.newMovAvg b!"ma1" 6) [(o1, [⟨3, i1⟩])],
  wired (Op.newMovAvg b!"ma2" 250) [(o1, [⟨3, i2⟩])],
  wired (Op.newBinary b!"minus" .minus) [(o1, [⟨4, i1⟩])],
  wired (Op.newPeak b!"peak" 13) [(o1, [⟨5, i1⟩])],
  wired join2 [(b!"o2", [⟨6, i1⟩])],
  wired out1 []]

theorem ppgMade (junk : Junk V) (json : Str) : ∃ P, Prog.initWith junk json (ppgJson V) = .ok P ∧ P.st.heap = heapOf ppgOps ∧ P.ops.find? P.entry = some 0 := by
  refine ⟨_, rfl, ?_, rfl⟩
  funext a
  match a with
  | 0 => rfl
  | 1 => rfl
  | 2 => rfl
  | 3 => rfl
  | 4 => rfl
  | 5 => rfl
  | 6 => rfl
  | a + 7 => rfl

theorem ppgArrows : Finite.arrows (ppgOps : List (Op V)) =
    [(0, o1, ⟨1, i1⟩), (0, o1, ⟨2, i1⟩), (0, o1, ⟨5, i2⟩), (1, o1, ⟨3, i1⟩), (2, o1, ⟨3, i2⟩), (3, o1, ⟨4, i1⟩), (4, o1, ⟨5, i1⟩), (5, b!"o2", ⟨6, i1⟩)] := rfl

theorem ppgKinds : ∀ o ∈ (ppgOps : List (Op V)),
    Simple o ∧ Connected o ∧ o.core.outputs.Sorted ∧ (∀ as, OrderCond o.kind as) ∧ Sturdy o ∧ Tame o ∧ ∀ ins outs pm, o.kind ≠ .pipeline ins outs pm := by
  intro o ho
  simp only [ppgOps, List.mem_cons, List.not_mem_nil, or_false] at ho
  rcases ho with rfl | rfl | rfl | rfl | rfl | rfl | rfl
  · exact ⟨trivial, ⟨_, _, .input in1_eq, rfl⟩, by simp [wired, Map.Sorted, Map.keys], fun _ => trivial, trivial, trivial, fun _ _ _ h => by cases h⟩
  · exact ⟨trivial, ⟨_, _, .movAvg _ _, rfl⟩, by simp [wired, Map.Sorted, Map.keys], fun _ => trivial, trivial, trivial, fun _ _ _ h => by cases h⟩
  · exact ⟨trivial, ⟨_, _, .movAvg _ _, rfl⟩, by simp [wired, Map.Sorted, Map.keys], fun _ => trivial, trivial, trivial, fun _ _ _ h => by cases h⟩
  · exact ⟨trivial, ⟨_, _, .binary _ _, rfl⟩, by simp [wired, Map.Sorted, Map.keys], fun _ => trivial, trivial, trivial, fun _ _ _ h => by cases h⟩
  · exact ⟨trivial, ⟨_, _, .peak _ _, rfl⟩, by simp [wired, Map.Sorted, Map.keys], fun _ => trivial, trivial, trivial, fun _ _ _ h => by cases h⟩
  · exact ⟨trivial, ⟨_, _, .join join2_eq, rfl⟩, by simp [wired, Map.Sorted, Map.keys], fun _ => trivial, trivial, trivial, fun _ _ _ h => by cases h⟩
  · exact ⟨trivial, ⟨_, _, .output out1_eq, rfl⟩, by simp [wired, Map.Sorted, Map.keys], fun _ => trivial, trivial, trivial, fun _ _ _ h => by cases h⟩

theorem ppgAcyclic : Acyclic (heapOf (ppgOps : List (Op V))) := by
  refine Finite.acyclic (fun o ho => (ppgKinds o ho).1) id ?_
  rw [ppgArrows]
  decide

theorem ppgPlain {P : Prog V} (hh : P.st.heap = heapOf ppgOps) (he : P.ops.find? P.entry = some 0) : Plain P 0 (wired in1 [(o1, [⟨1, i1⟩, ⟨2, i1⟩, ⟨5, i2⟩])]) where
  ops := by rw [hh]; exact Finite.all_of_mem fun o ho => (ppgKinds o ho).2.1
  maps := by rw [hh]; exact Finite.all_of_mem fun o ho => (ppgKinds o ho).2.2.1
  acyclic := by rw [hh]; exact ppgAcyclic
  entry := he
  there := by rw [hh]; rfl
  one := by rw [hh]; refine Finite.oneInto ?_ ?_ <;> rw [ppgArrows] <;> decide

theorem ppgDatas (b : Nat) : OnlyData (heapOf (ppgOps : List (Op V))) b := by
  refine onlyData ?_ b
  rw [ppgArrows]
  intro e he
  simp only [List.mem_cons, List.not_mem_nil, or_false] at he
  rcases he with rfl | rfl | rfl | rfl | rfl | rfl | rfl | rfl <;> exact ⟨_, rfl, rfl⟩

/-- The streams of a Join with two ports, of which the first has only times of the second. -/
theorem join_two {h : Nat → Option (Op V)} {x c : Nat} {pc : Str} {input s1 s2 : List (Msg V)} {a1 a2 b : Nat} {p1 p2 : Str} {w : Map (List Conn)} (h1 : Streams h x c pc input a1 p1 s1)
    (h2 : Streams h x c pc input a2 p2 s2) (hc1 : (⟨b, i1⟩ : Conn) ∈ connsOf h a1 p1) (hc2 : (⟨b, i2⟩ : Conn) ∈ connsOf h a2 p2) (hd : OnlyData h b) (ho : h b = some (wired join2 w))
    (ht : TimesIn s1 s2) : Streams h x c pc input b o1 s1 ∧ Streams h x c pc input b b!"o2" (s2.filter fun m => hasTime m.time s1) := by
  have key : ∀ k, 1 ≤ k → k ≤ 2 → Streams h x c pc input b (oPort k) (atTimes (commonTimes [s1, s2]) (if k = 1 then s1 else s2)) := by
    intro k hk1 hk2
    refine Streams.join (id := b!"join") (n := 2) (o := join2) (w := w) (src := fun k => if k = 1 then (a1, p1) else (a2, p2)) (ss := fun k => if k = 1 then s1 else s2)
      ?_ ?_ hd join2_eq ho (j := 1) (by decide) (by decide) ?_ hk1 hk2
    · intro k hk1 hk2
      have : k = 1 ∨ k = 2 := by omega
      rcases this with rfl | rfl
      · exact h1
      · exact h2
    · intro k hk1 hk2
      have : k = 1 ∨ k = 2 := by omega
      rcases this with rfl | rfl
      · exact hc1
      · exact hc2
    · intro k hk1 hk2
      have : k = 1 ∨ k = 2 := by omega
      rcases this with rfl | rfl
      · exact times_self _
      · exact ht
  have k1 := key 1 (by decide) (by decide)
  have k2 := key 2 (by decide) (by decide)
  rw [if_pos rfl, (atTimes_in ht).1] at k1
  rw [if_neg (by decide), (atTimes_in ht).2] at k2
  exact ⟨k1, k2⟩

end Peaks

open Peaks

/-- C91: the program made from examples/data/program-test-2.json answers every sequence of calls; given messages in the order of time in whatever batches, it reports on both ports of "join"
the peaks: the messages in the middle of three successive ones none of which has a larger value, in order, none twice and none missing (any arithmetic). -/
theorem C91_peaks {junk : Junk V} {json : Str} {P : Prog V} (hP : Prog.initWith junk json (peakJson V) = .ok P) :
    ∃ n, ∀ fuel, n < fuel → ∀ mss : List (List (Msg V)), ∃ rs P', debugRun fuel (mss.map fun ms => [(i1, ms)]) P = .ok rs P' ∧ (Increasing mss.flatten →
      (rs.flatMap fun r => listed r b!"join" o1) = peaks 3 mss.flatten ∧ (rs.flatMap fun r => listed r b!"join" b!"o2") = peaks 3 mss.flatten) := by
  obtain ⟨P0, e0, hh, he⟩ := Peaks.made junk json
  rw [hP] at e0
  cases e0
  have hp := Peaks.plain hh he
  obtain ⟨n, hn⟩ := Peaks.answers hP hh he hp.there hp.acyclic fun o ho => (Peaks.kinds o ho).2.2.2.2
  refine ⟨n, fun fuel hf mss => ?_⟩
  obtain ⟨rs, P', h⟩ := hn fuel hf mss
  refine ⟨rs, P', h, fun hinc => ?_⟩
  have hd : ∀ b, OnlyData P.st.heap b := by rw [hh]; exact Peaks.datas
  have h2 : P.st.heap 2 = some (wired JoinTest.join2 []) := by rw [hh]; rfl
  have fc : Streams P.st.heap 0 0 o1 mss.flatten 0 o1 mss.flatten := .source
  have fp := Streams.step (b := 1) (q := i1) o1 fc (by rw [hh]; show _ ∈ ([⟨1, i1⟩, ⟨2, i2⟩] : List Conn); decide) (hd 1) (by rw [hh]; rfl) rfl
    ((C06_peakDetector b!"peak" 3 (by decide)).wired [(o1, [⟨2, i1⟩])])
  replace fp : Streams P.st.heap 0 0 o1 mss.flatten 1 o1 (peaks 3 mss.flatten) := (congrArg (Streams P.st.heap 0 0 o1 mss.flatten 1 o1) (emitted_peaks (by decide) mss.flatten)).mp fp
  obtain ⟨f1, f2⟩ := Peaks.join_two (b := 2) fp fc (by rw [hh]; exact List.mem_cons_self) (by rw [hh]; show _ ∈ ([⟨1, i1⟩, ⟨2, i2⟩] : List Conn); decide) (hd 2) h2
    (peaks_in (Peaks.times_self _))
  rw [filter_peaks hinc] at f2
  have hk : ∀ o ∈ (Peaks.ops : List (Op V)), ∀ as, OrderCond o.kind as := fun o ho => (Peaks.kinds o ho).2.2.2.1
  have hu : ((Peaks.ops : List (Op V)).map fun o => o.core.id).Nodup := show ([b!"in1", b!"peak", b!"join"] : List Str).Nodup by decide
  exact ⟨Peaks.reported hp hh hk hu hinc h f1 h2, Peaks.reported hp hh hk hu hinc h f2 h2⟩

/-- C91: the program made from examples/data/program-test-1.json answers every sequence of calls; given messages in the order of time in whatever batches, it reports on "out1" the messages
at whose times the moving average over 6 values, minus the one over 250, has a peak among 13 successive values: all of them, in order, with the values they came with (exact arithmetic). -/
theorem C91_ppg {V : Type} [Num V] [Field V] [LinearOrder V] [Exact V] {junk : Junk V} {json : Str} {P : Prog V} (hP : Prog.initWith junk json (ppgJson V) = .ok P) :
    ∃ n, ∀ fuel, n < fuel → ∀ mss : List (List (Msg V)), ∃ rs P', debugRun fuel (mss.map fun ms => [(i1, ms)]) P = .ok rs P' ∧ (Increasing mss.flatten →
      (rs.flatMap fun r => listed r b!"out1" o1) = mss.flatten.filter fun m => hasTime m.time (peaks 13 (crossing 6 250 mss.flatten))) := by
  obtain ⟨P0, e0, hh, he⟩ := Peaks.ppgMade junk json
  rw [hP] at e0
  cases e0
  have hp := Peaks.ppgPlain hh he
  obtain ⟨n, hn⟩ := Peaks.answers hP hh he hp.there hp.acyclic fun o ho => (Peaks.ppgKinds o ho).2.2.2.2
  refine ⟨n, fun fuel hf mss => ?_⟩
  obtain ⟨rs, P', h⟩ := hn fuel hf mss
  refine ⟨rs, P', h, fun hinc => ?_⟩
  have hd : ∀ b, OnlyData P.st.heap b := by rw [hh]; exact Peaks.ppgDatas
  have h6 : P.st.heap 6 = some (wired Peaks.out1 []) := by rw [hh]; rfl
  have fc : Streams P.st.heap 0 0 o1 mss.flatten 0 o1 mss.flatten := .source
  have m1 := Streams.step (b := 1) (q := i1) o1 fc (by rw [hh]; exact List.mem_cons_self) (hd 1) (by rw [hh]; rfl) rfl
    ((C03_movingAverage b!"ma1" 6 (by decide)).wired [(o1, [⟨3, i1⟩])])
  have m2 := Streams.step (b := 2) (q := i1) o1 fc (by rw [hh]; show _ ∈ ([⟨1, i1⟩, ⟨2, i1⟩, ⟨5, i2⟩] : List Conn); decide) (hd 2) (by rw [hh]; rfl) rfl
    ((C03_movingAverage b!"ma2" 250 (by decide)).wired [(o1, [⟨3, i2⟩])])
  rw [Trail.emitted_trail (by decide)] at m1 m2
  have fm := Streams.binary (b := 3) (id := b!"minus") (op := .minus) (w := [(o1, [⟨4, i1⟩])]) (fun x y => some (x -. y)) m1 m2 (by rw [hh]; exact List.mem_cons_self)
    (by rw [hh]; exact List.mem_cons_self) (hd 3) (by rw [hh]; rfl) (fun _ _ => rfl) (Or.inr (trail_in (by decide) (by decide) _ _ _))
  rw [matched_windows _ (by decide) (by decide) _ _ (fun w => mean (w.drop (250 - 6)) - mean w) (fun w => by simp [Exact.sub_eq]) hinc] at fm
  have fp := Streams.step (b := 4) (q := i1) o1 fm (by rw [hh]; exact List.mem_cons_self) (hd 4) (by rw [hh]; rfl) rfl
    ((C06_peakDetector b!"peak" 13 (by decide)).wired [(o1, [⟨5, i1⟩])])
  replace fp : Streams P.st.heap 0 0 o1 mss.flatten 4 o1 (peaks 13 (crossing 6 250 mss.flatten)) :=
    (congrArg (Streams P.st.heap 0 0 o1 mss.flatten 4 o1) (emitted_peaks (by decide) _)).mp fp
  obtain ⟨_, f2⟩ := Peaks.join_two (b := 5) (w := [(b!"o2", [⟨6, i1⟩])]) fp fc (by rw [hh]; exact List.mem_cons_self)
    (by rw [hh]; show _ ∈ ([⟨1, i1⟩, ⟨2, i1⟩, ⟨5, i2⟩] : List Conn); decide) (hd 5) (by rw [hh]; rfl) (peaks_in trail_times_mem)
  have fo := Streams.output (b := 6) (k := 1) (w := []) f2 (by rw [hh]; exact List.mem_cons_self) (hd 6) Peaks.out1_eq h6 (by decide) (by decide)
  have hk : ∀ o ∈ (Peaks.ppgOps : List (Op V)), ∀ as, OrderCond o.kind as := fun o ho => (Peaks.ppgKinds o ho).2.2.2.1
  have hu : ((Peaks.ppgOps : List (Op V)).map fun o => o.core.id).Nodup := show ([b!"in1", b!"ma1", b!"ma2", b!"minus", b!"peak", b!"join", b!"out1"] : List Str).Nodup by decide
  exact Peaks.reported hp hh hk hu hinc h fo h6

/-- A case: a run of the small program. -/
example : (match Prog.initWith (fun _ => (0, 0)) [] (peakJson ℚ) with
    | .ok P => match debugRun 9 [[(i1, [⟨1, 5⟩, ⟨3, 7⟩])], [(i1, [⟨4, 1⟩, ⟨7, 1⟩, ⟨9, 1⟩, ⟨12, 2⟩])]] P with
      | .ok rs _ => some (rs.flatMap fun r => listed r b!"join" o1, rs.flatMap fun r => listed r b!"join" b!"o2")
      | .err _ _ => none
    | .error _ => none) = some ([⟨3, 7⟩, ⟨7, 1⟩], [⟨3, 7⟩, ⟨7, 1⟩]) := by decide +kernel

/-- 270 messages of which one, with time 258, has value 1 and the others 0. -/
def ppgInput : List (Msg ℚ) := (List.range 270).map fun i => ⟨UInt64.ofNat (i + 1), if i = 257 then 1 else 0⟩

/-- A case: the large program, over the rationals, with this input has the peaks of its specification; they are there. -/
example : Increasing ppgInput ∧ ((peaks 13 (crossing 6 250 ppgInput)).map (·.time)) = [258, 259, 260, 261, 262, 263] := by
  refine ⟨?_, ?_⟩
  · unfold Increasing; decide +kernel
  · decide +kernel

end Rtbot
