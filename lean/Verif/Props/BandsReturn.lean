import Verif.Props.Bands
import Verif.Props.Cut
import Verif.Props.Returns
import Verif.Props.JoinTest

/-! # C89: the example program "Bollinger Bands" answers -/

namespace Rtbot
open Spec Flow

namespace Bands
variable {V : Type} [Num V]

theorem moveConns_id (w : Map (List Conn)) : moveConns (fun x => x) w = w := by
  unfold moveConns
  simp

theorem copied_id {o : Op V} (h : Simple o) : copied (fun x => x) o = o := by
  rw [Copy.copied_simple h, moveConns_id]
  rfl

theorem next_arrow {l : List (Op V)} (hs : ∀ o ∈ l, Simple o) {a b : Nat} {o : Op V} (ho : heapOf l a = some o) (hb : b ∈ nexts o) : ∃ e ∈ Finite.arrows l, e.1 = a ∧ e.2.2.target = b :=
  Finite.edge_arrow hs ⟨o, ho, hb⟩

/-- The first operators of two lists with the same beginning. -/
theorem contains_prefix {l l' : List (Op V)} (hs : ∀ o ∈ l, Simple o) (n : Nat) (hn : n ≤ l.length) (he : l.take n = l'.take n) (hc : ∀ e ∈ Finite.arrows l, e.1 < n → e.2.2.target < n) :
    Contains (fun x => x) (fun x => x < n) (heapOf l) (heapOf l') := by
  refine ⟨fun _ _ _ _ h => h, fun a ha => ?_, fun a o b ha ho hb => ?_⟩
  · have hl : a < l.length := by omega
    refine ⟨l[a], List.getElem?_eq_getElem hl, ?_⟩
    rw [copied_id (hs _ (List.getElem_mem hl))]
    have h1 : l'[a]? = (l'.take n)[a]? := (List.getElem?_take_of_lt ha).symm
    have h2 : l[a]? = (l.take n)[a]? := (List.getElem?_take_of_lt ha).symm
    show l'[a]? = _
    rw [h1, ← he, ← h2]
    exact List.getElem?_eq_getElem hl
  · obtain ⟨e, he, rfl, rfl⟩ := next_arrow hs ho hb
    exact hc e he ha

/-- The description without the input and with an Identity in the place of the resampler. -/
def restJson (V : Type) : Json V := .obj [(b!"connections", .arr [
    .obj [(b!"from", .str b!"510"), (b!"fromPort", .str b!"o1"), (b!"to", .str b!"37"), (b!"toPort", .str b!"i3")],
    .obj [(b!"from", .str b!"495"), (b!"fromPort", .str b!"o1"), (b!"to", .str b!"37"), (b!"toPort", .str b!"i1")],
    .obj [(b!"from", .str b!"861"), (b!"fromPort", .str b!"o1"), (b!"to", .str b!"37"), (b!"toPort", .str b!"i2")],
    .obj [(b!"from", .str b!"996"), (b!"fromPort", .str b!"o1"), (b!"to", .str b!"495"), (b!"toPort", .str b!"i2")],
    .obj [(b!"from", .str b!"510"), (b!"fromPort", .str b!"o1"), (b!"to", .str b!"495"), (b!"toPort", .str b!"i1")],
    .obj [(b!"from", .str b!"996"), (b!"fromPort", .str b!"o1"), (b!"to", .str b!"861"), (b!"toPort", .str b!"i2")],
    .obj [(b!"from", .str b!"510"), (b!"fromPort", .str b!"o1"), (b!"to", .str b!"861"), (b!"toPort", .str b!"i1")],
    .obj [(b!"from", .str b!"865"), (b!"fromPort", .str b!"o1"), (b!"to", .str b!"996"), (b!"toPort", .str b!"i1")],
    .obj [(b!"from", .str b!"262"), (b!"fromPort", .str b!"o1"), (b!"to", .str b!"865"), (b!"toPort", .str b!"i1")],
    .obj [(b!"from", .str b!"262"), (b!"fromPort", .str b!"o1"), (b!"to", .str b!"510"), (b!"toPort", .str b!"i1")]]),
  (b!"entryOperator", .str b!"262"), (b!"operators", .arr [
    .obj [(b!"id", .str b!"37"), (b!"numPorts", .uint 3), (b!"type", .str b!"Output")],
    .obj [(b!"id", .str b!"495"), (b!"type", .str b!"Minus")],
    .obj [(b!"id", .str b!"861"), (b!"type", .str b!"Plus")],
    .obj [(b!"id", .str b!"996"), (b!"type", .str b!"Scale"), (b!"value", .uint 2)],
    .obj [(b!"id", .str b!"865"), (b!"n", .uint 14), (b!"type", .str b!"StandardDeviation")],
    .obj [(b!"id", .str b!"510"), (b!"n", .uint 14), (b!"type", .str b!"MovingAverage")],
    .obj [(b!"id", .str b!"262"), (b!"type", .str b!"Identity")]]),
  (b!"output", .obj [])]

/-- Its operators. -/
def rest : List (Op V) := ops.take 6 ++ [wired (Op.newIdentity b!"262") [(o1, [⟨4, i1⟩, ⟨5, i1⟩])]]

theorem rest_made (junk : Junk V) (json : Str) : ∃ P, Prog.initWith junk json (restJson V) = .ok P ∧ P.st.heap = heapOf rest ∧ P.ops.find? P.entry = some 6 := by
  refine ⟨_, rfl, ?_, rfl⟩
  funext a
  match a with
  | 0 => rfl
  | 1 => rfl
  | 2 => rfl
  | 3 => rfl
  | 4 => rfl
  | 5 => rfl
  | 6 => rfl
  | a + 7 => rfl

theorem rest_arrows : Finite.arrows (rest : List (Op V)) = [(1, o1, ⟨0, i1⟩), (2, o1, ⟨0, i2⟩), (3, o1, ⟨1, i2⟩), (3, o1, ⟨2, i2⟩), (4, o1, ⟨3, i1⟩), (5, o1, ⟨0, b!"i3"⟩),
    (5, o1, ⟨1, i1⟩), (5, o1, ⟨2, i1⟩), (6, o1, ⟨4, i1⟩), (6, o1, ⟨5, i1⟩)] := rfl

theorem rest_each {K : Op V → Prop} (h0 : K (wired out3 [])) (h1 : K (wired (Op.newBinary b!"495" .minus) [(o1, [⟨0, i1⟩])])) (h2 : K (wired (Op.newBinary b!"861" .plus) [(o1, [⟨0, i2⟩])]))
    (h3 : K (wired (Op.newScale b!"996" (Num.ofNat 2)) [(o1, [⟨1, i2⟩, ⟨2, i2⟩])])) (h4 : K (wired (Op.newStdDev b!"865" 14) [(o1, [⟨3, i1⟩])]))
    (h5 : K (wired (Op.newMovAvg b!"510" 14) [(o1, [⟨0, b!"i3"⟩, ⟨1, i1⟩, ⟨2, i1⟩])])) (h6 : K (wired (Op.newIdentity b!"262") [(o1, [⟨4, i1⟩, ⟨5, i1⟩])])) : ∀ o ∈ (rest : List (Op V)), K o := by
  intro o ho
  rw [show (rest : List (Op V)) = [_, _, _, _, _, _, _] from rfl] at ho
  simp only [List.mem_cons, List.not_mem_nil, or_false] at ho
  rcases ho with rfl | rfl | rfl | rfl | rfl | rfl | rfl <;> assumption

theorem rest_simple : ∀ o ∈ (rest : List (Op V)), Simple o := rest_each trivial trivial trivial trivial trivial trivial trivial

theorem rest_wf : HeapWF (heapOf (rest : List (Op V))) :=
  Finite.all_of_mem (Q := fun o => o.core.WF) (rest_each (show Connected _ from ⟨_, _, .output out3_eq, rfl⟩).parts.2.2 (show Connected _ from ⟨_, _, .binary _ _, rfl⟩).parts.2.2
    (show Connected _ from ⟨_, _, .binary _ _, rfl⟩).parts.2.2 (show Connected _ from ⟨_, _, .scale _ _, rfl⟩).parts.2.2 (show Connected _ from ⟨_, _, .stdDev _ _, rfl⟩).parts.2.2
    (show Connected _ from ⟨_, _, .movAvg _ _, rfl⟩).parts.2.2 (show Connected _ from ⟨_, _, .identity _, rfl⟩).parts.2.2)

/-- The rest answers everything. -/
theorem rest_answers (junk : Junk V) (json : Str) : ∃ P : Prog V, P.st.heap = heapOf rest ∧ P.ops.find? P.entry = some 6 ∧
    ∃ n, ∀ fuel, n < fuel → ∀ mss : List (List (Msg V)), ∃ rs P', debugRun fuel (mss.map fun ms => [(i1, ms)]) P = .ok rs P' := by
  obtain ⟨P, hP, hh, he⟩ := rest_made junk json
  refine ⟨P, hh, he, ?_⟩
  have hk : ∀ b o, P.st.heap b = some o → Sturdy o ∧ Tame o ∧ ∀ ins outs pm, o.kind ≠ .pipeline ins outs pm := by
    rw [hh]
    refine Finite.all_of_mem (rest_each ?_ ?_ ?_ ?_ ?_ ?_ ?_) <;> exact ⟨trivial, trivial, fun _ _ _ h => by cases h⟩
  have hac : Acyclic (heapOf (rest : List (Op V))) := by
    refine Finite.acyclic rest_simple (fun n => 7 - n) ?_
    rw [rest_arrows]
    decide
  obtain ⟨n, hn⟩ := C66_returns_partial hP (fun a o ins outs pm ho hk' => ((hk a o ho).2.2 _ _ _ hk').elim)
    ⟨fun a o ho => (hk a o ho).2.1, fun a o ins outs pm ho hk' => ((hk a o ho).2.2 _ _ _ hk').elim⟩ (fun b o ho => (hk b o ho).1) (by rw [hh]; exact hac) he
    (show P.st.heap 6 = some (wired (Op.newIdentity b!"262") [(o1, [⟨4, i1⟩, ⟨5, i1⟩])]) by rw [hh]; rfl)
  refine ⟨n, fun fuel hf mss => ?_⟩
  refine JoinTest.runs (K := fun msgs => ∀ q ∈ msgs.keys, q = i1) (fun calls msgs hK => (hn fuel hf calls msgs fun q hq => ?_).1) _ [] fun m hm q hq => ?_
  · rw [hK q hq]
    exact List.mem_cons_self
  · obtain ⟨ms, _, rfl⟩ := List.mem_map.1 hm
    exact List.mem_singleton.1 hq

/-- The operators with an Identity in the place of the input. -/
def headed : List (Op V) := ops.take 7 ++ [wired (Op.newIdentity b!"754") [(o1, [⟨6, i1⟩])]]

theorem ops_wf : HeapWF (heapOf (ops : List (Op V))) := fun b o ho => (connected b o ho).parts.2.2

theorem headed_wf : HeapWF (heapOf (headed : List (Op V))) := by
  refine Finite.all_of_mem (Q := fun o => o.core.WF) ?_
  intro o ho
  unfold headed at ho
  rcases List.mem_append.1 ho with ho | ho
  · obtain ⟨i, hi, rfl⟩ := List.mem_iff_getElem.1 (List.mem_of_mem_take ho)
    exact ops_wf i _ (List.getElem?_eq_getElem hi)
  · rw [List.mem_singleton.1 ho]
    exact (show Connected _ from ⟨_, _, .identity _, rfl⟩).parts.2.2

/-- The input, given messages in the order of time, hands on all of them. -/
theorem input_feed {ms : List (Msg V)} (hinc : Increasing ms) (w : Map (List Conn)) : ∃ outs o', feedOp (wired in1 w) i1 ms = .ok outs o' ∧ emittedOn o1 outs = ms := by
  obtain ⟨o, outs, g1, g2, g3⟩ := C01_records b!"754" 1 (ms.map fun m => (i1, m)) (by
    intro x hx
    obtain ⟨m, _, rfl⟩ := List.mem_map.1 hx
    exact ⟨1, by decide, by decide, rfl⟩)
  rw [in1_eq] at g1
  cases g1
  have e : results (wired in1 w) (inTurn i1 ms) = outs.map .ok := by rw [oneByOne_inTurn, results_wired, g2]
  obtain ⟨ys, o', h1⟩ := Cut.feedOp_of_results (o := wired in1 w) (q := i1) ms (fun r hr => by
    rw [e] at hr
    obtain ⟨x, _, rfl⟩ := List.mem_map.1 hr
    exact ⟨x, rfl⟩)
  refine ⟨ys, o', h1, ?_⟩
  rw [← feedOp_collected o1 i1 ms h1, e, Lockstep.collected_ok, show o1 = oPort 1 from rfl, (g3 1 (by decide) (by decide)).1, List.filter_eq_self.2, List.map_map]
  · rw [show ((fun x : Str × Msg V => x.2) ∘ fun m => (i1, m)) = id from rfl, List.map_id]
    exact records_self _ _ (fun _ _ => rfl) hinc
  · intro x hx
    obtain ⟨m, _, rfl⟩ := List.mem_map.1 hx
    rfl

theorem entry_cut {P Q : Prog V} (hh : P.st.heap = heapOf ops) (he : P.ops.find? P.entry = some 7) (hh' : Q.st.heap = heapOf headed) (he' : Q.ops.find? Q.entry = some 7) :
    CutAt (fun x => x) (fun x => x < 7) 7 7 (wired in1 [(o1, [⟨6, i1⟩])]) P Q where
  simple := trivial
  port := rfl
  entry := he
  entry' := he'
  here := by rw [hh]; rfl
  there := by rw [hh']; rfl
  rest := by
    rw [hh, hh']
    refine contains_prefix simple 7 (show 7 ≤ 8 by decide) rfl ?_
    rw [arrows_eq]
    decide
  behind c hc := by
    have : c ∈ [6] := hc
    rw [List.mem_singleton.1 this]
    decide
  apart := by decide
  apart' d hd := by show d ≠ 7; omega

theorem entry_headed {P Q : Prog V} (hh : P.st.heap = heapOf headed) (he : P.ops.find? P.entry = some 7) (hh' : Q.st.heap = heapOf ops) (he' : Q.ops.find? Q.entry = some 6) :
    Headed (fun x => x) (fun x => x < 7) 7 6 b!"754" i1 P Q where
  entry := he
  entry' := he'
  here := by rw [hh]; rfl
  there := ⟨wired (Op.newHermRes b!"262" 1) [(o1, [⟨4, i1⟩, ⟨5, i1⟩])], by rw [hh]; rfl, rfl⟩
  rest := by
    rw [hh, hh']
    refine contains_prefix ?_ 7 (show 7 ≤ 8 by decide) rfl ?_
    · intro o ho
      unfold headed at ho
      rcases List.mem_append.1 ho with ho | ho
      · exact simple o (List.mem_of_mem_take ho)
      · rw [List.mem_singleton.1 ho]
        trivial
    · rw [show Finite.arrows (headed : List (Op V)) = Finite.arrows ops from rfl, arrows_eq]
      decide
  inside := by decide
  apart := by decide

theorem resampler_cut {P Q : Prog V} (hh : P.st.heap = heapOf ops) (he : P.ops.find? P.entry = some 6) (hh' : Q.st.heap = heapOf rest) (he' : Q.ops.find? Q.entry = some 6) :
    CutAt (fun x => x) (fun x => x < 6) 6 6 (wired (Op.newHermRes b!"262" 1) [(o1, [⟨4, i1⟩, ⟨5, i1⟩])]) P Q where
  simple := trivial
  port := rfl
  entry := he
  entry' := he'
  here := by rw [hh]; rfl
  there := by rw [hh']; rfl
  rest := by
    rw [hh, hh']
    refine contains_prefix simple 6 (show 6 ≤ 8 by decide) rfl ?_
    rw [arrows_eq]
    decide
  behind c hc := by
    have : c ∈ [4, 5] := hc
    simp only [List.mem_cons, List.not_mem_nil, or_false] at this
    omega
  apart := by decide
  apart' d hd := by show d ≠ 6; omega

/-- What the resampler needs, for messages before 2^30 in the order of time. -/
theorem resample [Field V] [LinearOrder V] [IsStrictOrderedRing V] [Exact V] {ms : List (Msg V)} (hinc : Increasing ms) (hlate : ∀ m ∈ ms, m.time.toNat < 2 ^ 30) :
    ∃ outs o', feedOp (Op.newHermRes b!"262" 1) i1 ms = .ok outs o' := by
  obtain ⟨outs, o', c1, _⟩ := C15_hermiteResampler_partial b!"262" 1 (by decide) ms ⟨hinc, fun m hm => by have := hlate m hm; show m.time.toNat + 1 < _; omega,
      (hinc.imp_of_mem fun {a b} ha hb _ => by have := hlate b hb; show b.time.toNat - a.time.toNat < (2 ^ 31 - 3) * 1; omega).isChain⟩
    (fun a b ha hb => by
      obtain ⟨i1, e1⟩ := List.getElem?_eq_some_iff.1 ha
      obtain ⟨i2, e2⟩ := List.getElem?_eq_some_iff.1 hb
      have := List.pairwise_iff_getElem.1 hinc 0 1 i1 i2 (by decide)
      rw [e1, e2] at this
      have := UInt64.lt_iff_toNat_lt.1 this
      show 1 ≤ _
      omega)
    (fun m hm => hlate m (List.mem_of_mem_take hm))
  exact ⟨outs, o', c1⟩

theorem ok_of_answer {σ α : Type} {x : Res σ α} {a : α} (h : answer x = .ok a) : ∃ s, x = .ok a s := by
  cases x with
  | ok b s => cases h; exact ⟨s, rfl⟩
  | err e s => cases h

end Bands

open Bands

/-- C89: the program made from examples/data/program-test-6.json answers every sequence of calls with messages in the order of time, in whatever batches, of times before 2^30 (exact arithmetic). -/
theorem C89_bands_returns {V : Type} [Num V] [Field V] [LinearOrder V] [IsStrictOrderedRing V] [Exact V] {junk : Junk V} {json : Str} {P : Prog V}
    (hP : Prog.initWith junk json (bandsJson V) = .ok P) : ∃ n, ∀ fuel, n < fuel → ∀ mss : List (List (Msg V)), Increasing mss.flatten → (∀ m ∈ mss.flatten, m.time.toNat < 2 ^ 30) →
      ∃ rs P', debugRun fuel (mss.map fun ms => [(i1, ms)]) P = .ok rs P' := by
  obtain ⟨P0, e0, hh, he, _, _⟩ := made junk json
  rw [hP] at e0
  cases e0
  obtain ⟨R, hR, eR, n, hn⟩ := rest_answers junk json
  refine ⟨n + 1, fun fuel hf mss hinc hlate => ?_⟩
  obtain ⟨f, rfl⟩ : ∃ f, fuel = f + 1 + 1 := ⟨fuel - 2, by omega⟩
  -- the input replaced by an Identity
  obtain ⟨ys, o', hy, hys⟩ := input_feed hinc [(o1, [⟨6, i1⟩])]
  obtain ⟨b1, _, hb1, h1⟩ := C97_stream (Q := ⟨[], [(b!"754", 7)], b!"754", [], ⟨heapOf headed, 0, []⟩⟩) (entry_cut hh he rfl rfl) (by rw [hh]; exact ops_wf) headed_wf ⟨_, _, .input in1_eq, rfl⟩
    rfl hy
  rw [hys] at hb1
  -- the Identity left out
  have h2 := C97_skip (P := ⟨[], [(b!"754", 7)], b!"754", [], ⟨heapOf headed, 0, []⟩⟩) (Q := ⟨[], [(b!"262", 6)], b!"262", [], ⟨heapOf ops, 0, []⟩⟩) (entry_headed rfl rfl rfl rfl) headed_wf (f + 1) b1
  -- the resampler replaced by an Identity
  obtain ⟨zs, z', hz⟩ := resample hinc hlate
  obtain ⟨b2, _, _, h3⟩ := C97_stream (P := ⟨[], [(b!"262", 6)], b!"262", [], ⟨heapOf ops, 0, []⟩⟩) (Q := R) (mss := b1) (p := i1) (resampler_cut rfl rfl hR eR) ops_wf (by rw [hR]; exact rest_wf)
    ⟨_, _, .hermRes _ _, rfl⟩ rfl (by rw [hb1, feedOp_wired, hz]; rfl)
  obtain ⟨rs, R', hr⟩ := hn (f + 1) (by omega) b2
  have h3 := (h3 f).1
  rw [hr] at h3
  rw [h3] at h2
  have h1 := (h1 (f + 1)).1
  revert h2
  rw [← h1]
  cases hx : answer (debugRun (f + 1 + 1) (mss.map fun ms => [(i1, ms)]) P) with
  | error e => intro h2; exact h2.elim
  | ok qs =>
    intro _
    exact ⟨qs, ok_of_answer hx⟩

/-- C89: the Bollinger bands program at work. Given messages in the order of time before 2^30, in whatever batches, every call is answered, and the answers list on the output "37" the lower, the upper and
the middle Bollinger band of what the resampler reports; the resampler reports one message for each time from the one after the first message up to the last message but one (real arithmetic). -/
theorem C89_bands_total {junk : Junk ℝ} {json : Str} {P : Prog ℝ} (hP : Prog.initWith junk json (bandsJson ℝ) = .ok P) : ∃ n, ∀ fuel, n < fuel → ∀ mss : List (List (Msg ℝ)),
    Increasing mss.flatten → (∀ m ∈ mss.flatten, m.time.toNat < 2 ^ 30) → ∃ rs P', debugRun fuel (mss.map fun ms => [(i1, ms)]) P = .ok rs P' ∧
      (rs.flatMap fun r => listed r b!"37" o1) = lowerBand (rs.flatMap fun r => listed r b!"262" o1) ∧
      (rs.flatMap fun r => listed r b!"37" b!"o2") = upperBand (rs.flatMap fun r => listed r b!"262" o1) ∧
      (rs.flatMap fun r => listed r b!"37" b!"o3") = middleBand (rs.flatMap fun r => listed r b!"262" o1) ∧
      (mss.flatten.length < 4 → (rs.flatMap fun r => listed r b!"262" o1) = []) ∧
      ∀ m0 l, 4 ≤ mss.flatten.length → mss.flatten.head? = some m0 → mss.flatten[mss.flatten.length - 2]? = some l →
        (rs.flatMap fun r => listed r b!"262" o1).map (·.time.toNat) = gridUpTo m0.time.toNat 1 l.time.toNat := by
  obtain ⟨n, hn⟩ := C89_bands_returns hP
  refine ⟨n, fun fuel hf mss hinc hlate => ?_⟩
  obtain ⟨rs, P', h⟩ := hn fuel hf mss hinc hlate
  obtain ⟨g1, g2, g3⟩ := C89_bands hP hinc (fun m hm => by have := hlate m hm; omega) h
  obtain ⟨k1, k2⟩ := C89_resampled hP hinc hlate h
  exact ⟨rs, P', h, g1, g2, g3, k1, k2⟩

end Rtbot
