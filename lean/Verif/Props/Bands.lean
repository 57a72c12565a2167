import Verif.Props.Lockstep
import Verif.Props.Gate
import Verif.Props.Windows
import Verif.Props.Resample
import Verif.Lemmas.Bands

/-! # C89: the example program "Bollinger Bands" -/

namespace Rtbot
open Spec Flow

namespace Bands
variable {V : Type} [Num V]

theorem connected : ∀ b o, heapOf (ops : List (Op V)) b = some o → Connected o := by
  refine Finite.all_of_mem ?_
  intro o ho
  simp only [ops, List.mem_cons, List.not_mem_nil, or_false] at ho
  rcases ho with rfl | rfl | rfl | rfl | rfl | rfl | rfl | rfl
  · exact ⟨_, _, .output out3_eq, rfl⟩
  · exact ⟨_, _, .binary _ _, rfl⟩
  · exact ⟨_, _, .binary _ _, rfl⟩
  · exact ⟨_, _, .scale _ _, rfl⟩
  · exact ⟨_, _, .stdDev _ _, rfl⟩
  · exact ⟨_, _, .movAvg _ _, rfl⟩
  · exact ⟨_, _, .hermRes _ _, rfl⟩
  · exact ⟨_, _, .input in1_eq, rfl⟩

theorem simple : ∀ o ∈ (ops : List (Op V)), Simple o := by
  intro o ho
  simp only [ops, List.mem_cons, List.not_mem_nil, or_false] at ho
  rcases ho with rfl | rfl | rfl | rfl | rfl | rfl | rfl | rfl <;> trivial

theorem sorted : ∀ b o, heapOf (ops : List (Op V)) b = some o → o.core.outputs.Sorted := by
  refine Finite.all_of_mem ?_
  intro o ho
  simp only [ops, List.mem_cons, List.not_mem_nil, or_false] at ho
  rcases ho with rfl | rfl | rfl | rfl | rfl | rfl | rfl | rfl <;> simp [wired, Map.Sorted, Map.keys]

theorem acyclic : Acyclic (heapOf (ops : List (Op V))) := by
  refine Finite.acyclic simple (fun n => 7 - n) ?_
  rw [arrows_eq]
  decide

theorem oneInto : OneInto (heapOf (ops : List (Op V))) 7 := by
  refine Finite.oneInto ?_ ?_ <;> rw [arrows_eq] <;> decide

/-- The operators after the resampler. -/
def part (b : Nat) : Prop := b < 6

theorem clocked : Clocked (heapOf (ops : List (Op V))) 6 o1 part := by
  refine Finite.clocked (by unfold part; decide) ?_ ?_
  · rw [arrows_eq]
    intro e he hD
    simp only [List.mem_cons, List.not_mem_nil, or_false] at he
    rcases he with rfl | rfl | rfl | rfl | rfl | rfl | rfl | rfl | rfl | rfl | rfl
    all_goals first
      | exact ⟨Or.inl (by unfold part; decide), _, rfl, rfl⟩
      | exact ⟨Or.inr ⟨rfl, rfl⟩, _, rfl, rfl⟩
      | exact absurd hD (by unfold part; decide)
  · intro b o hb ho
    unfold part at hb
    match b, ho with
    | 0, ho | 1, ho | 2, ho | 3, ho | 4, ho | 5, ho => cases ho; trivial
    | b + 6, ho => omega

theorem driven {P : Prog V} (hh : P.st.heap = heapOf ops) (he : P.ops.find? P.entry = some 7) : Driven P 7 (wired in1 [(o1, [⟨6, i1⟩])]) 6 o1 part where
  ops := by rw [hh]; exact connected
  maps := by rw [hh]; exact sorted
  acyclic := by rw [hh]; exact acyclic
  entry := he
  there := by rw [hh]; rfl
  one := by rw [hh]; exact oneInto
  part := by rw [hh]; exact clocked
  outside := by unfold part; decide

theorem records_self (ms : List (Msg V)) : ∀ last, (∀ m ∈ ms, newer last m.time = true) → Increasing ms → records last ms = ms := by
  induction ms with
  | nil => intro last _ _; rfl
  | cons m ms ih =>
    intro last h hi
    have hi' := List.pairwise_cons.1 hi
    unfold records
    rw [if_pos (h m (by simp)), ih _ (fun x hx => by simpa [newer] using hi'.1 x hx) hi'.2]

theorem oneByOne_inTurn (q : Str) (ms : List (Msg V)) : inTurn q ms = oneByOne (ms.map fun m => (q, m)) := by
  unfold inTurn oneByOne
  rw [List.flatMap_map]

theorem addressed_inTurn (q : Str) (ms : List (Msg V)) : addressed true q (inTurn q ms) = ms := by
  unfold addressed inTurn
  induction ms with
  | nil => rfl
  | cons m ms ih => rw [List.flatMap_cons, List.filterMap_append, ih]; simp

/-- What reaches the resampler: all messages, one at a time. -/
theorem arriving {P P' : Prog V} (hh : P.st.heap = heapOf ops) (he : P.ops.find? P.entry = some 7) {fuel : Nat} {mss : List (List (Msg V))} (hinc : Increasing mss.flatten)
    {rs : List (ProgMsg V)} (h : debugRun fuel (mss.map fun ms => [(i1, ms)]) P = .ok rs P') :
    ∃ evs, P'.st.log = P.st.log ++ evs ∧ actsOf 6 evs = inTurn i1 mss.flatten ∧ emittedBy 6 o1 evs = collected o1 (results (Op.newHermRes b!"262" 1) (inTurn i1 mss.flatten)) := by
  have hc : ∀ b o, P.st.heap b = some o → Connected o := by rw [hh]; exact connected
  have hac : Acyclic P.st.heap := by rw [hh]; exact acyclic
  have h7 : P.st.heap 7 = some (wired in1 [(o1, [⟨6, i1⟩])]) := by rw [hh]; rfl
  have h6 : P.st.heap 6 = some (wired (Op.newHermRes b!"262" 1) [(o1, [⟨4, i1⟩, ⟨5, i1⟩])]) := by rw [hh]; rfl
  obtain ⟨evs, k1, k2, _, k4⟩ := C32_emits hc hac he h7 h o1
  have hw : Wire P.st.heap 7 o1 6 i1 := by
    refine Lockstep.wire_of_one (x := 7) hc (by rw [hh]; exact sorted) hac (by rw [hh]; exact oneInto) (fun a' p' y hy hyb => ?_) (by rw [hh]; exact List.mem_cons_self) h6 rfl
    rw [hh] at hy
    have := Finite.mem_arrows hy
    rw [arrows_eq] at this
    simp only [List.mem_cons, Prod.mk.injEq, List.not_mem_nil, or_false] at this
    rcases this with ⟨_, _, rfl⟩ | ⟨_, _, rfl⟩ | ⟨_, _, rfl⟩ | ⟨_, _, rfl⟩ | ⟨_, _, rfl⟩ | ⟨_, _, rfl⟩ | ⟨_, _, rfl⟩ | ⟨_, _, rfl⟩ | ⟨_, _, rfl⟩ | ⟨_, _, rfl⟩ | ⟨_, _, rfl⟩ <;>
      first | rfl | (exfalso; revert hyb; decide)
  obtain ⟨evs', k5, k6⟩ := C32_calls (fine_start hc).wf he (by decide) hw h
  cases log_cancel k1 k5
  have hem : emittedBy 7 o1 evs = mss.flatten := by
    obtain ⟨o, outs, g1, g2, g3⟩ := C01_records b!"754" 1 (mss.flatten.map fun m => (i1, m)) (by
      intro x hx
      obtain ⟨m, _, rfl⟩ := List.mem_map.1 hx
      exact ⟨1, by decide, by decide, rfl⟩)
    rw [in1_eq] at g1
    cases g1
    rw [k2, k4 rfl, handed_one, oneByOne_inTurn, results_wired, g2, Lockstep.collected_ok, show o1 = oPort 1 from rfl, (g3 1 (by decide) (by decide)).1]
    rw [List.filter_eq_self.2, List.map_map]
    · rw [show ((fun x : Str × Msg V => x.2) ∘ fun m => (i1, m)) = id from rfl, List.map_id]
      exact records_self _ _ (fun _ _ => rfl) hinc
    · intro x hx
      obtain ⟨m, _, rfl⟩ := List.mem_map.1 hx
      rfl
  rw [hem] at k6
  obtain ⟨evs', k7, k8, _⟩ := C32_emits hc hac he h6 h o1
  cases log_cancel k1 k7
  exact ⟨evs, k1, k6, by rw [k8, k6, results_wired]⟩

theorem ordered {P P' : Prog V} (hh : P.st.heap = heapOf ops) (he : P.ops.find? P.entry = some 7) {fuel : Nat} {mss : List (List (Msg V))} (hinc : Increasing mss.flatten)
    (hlate : ∀ m ∈ mss.flatten, m.time.toNat + 1 < 2 ^ 64) {rs : List (ProgMsg V)} (h : debugRun fuel (mss.map fun ms => [(i1, ms)]) P = .ok rs P') :
    Ordered P P' (wired in1 [(o1, [⟨6, i1⟩])]) (mss.map fun ms => [(i1, ms)]) where
  given p hp := by
    have : p = i1 := by
      by_contra hn
      have h : Map.has ([(i1, Inp.new i1 1)] : Map (Inp V)) p = true := hp
      simp [Map.has, Map.find?_cons, Ne.symm hn] at h
    subst this
    rw [show ((wired in1 [(o1, [⟨6, i1⟩])] : Op V).core.dataIn.length == 1) = true from rfl, Lockstep.givenTo_sole]
    exact hinc
  own evs hl b o ho := by
    obtain ⟨evs', k1, k2, _⟩ := arriving hh he hinc h
    cases log_cancel hl k1
    rw [hh] at ho
    match b, ho with
    | 0, ho | 1, ho | 2, ho | 3, ho | 4, ho | 5, ho | 7, ho => cases ho; trivial
    | 6, ho =>
      cases ho
      rw [k2]
      refine ⟨?_, ?_⟩
      · rw [addressed_inTurn]
        exact hlate
      · rw [addressed_inTurn]
        intro pre a b post e
        rw [e] at hinc
        have := (List.pairwise_cons.1 (List.pairwise_append.1 hinc).2.1).1 b (by simp)
        have := UInt64.lt_iff_toNat_lt.1 this
        show a.time.toNat + 1 ≤ _
        omega
    | b + 8, ho => cases ho

theorem unique {P : Prog V} (hh : P.st.heap = heapOf ops) {b : Nat} {o : Op V} (ho : P.st.heap b = some o) : ∀ y o', P.st.heap y = some o' → o'.core.id = o.core.id → y = b := by
  intro y o' hy hid
  rw [hh] at ho hy
  have hb : b < 8 := by
    by_contra h
    rw [show heapOf ops b = none from List.getElem?_eq_none (by show 8 ≤ b; omega)] at ho
    cases ho
  have hy' : y < 8 := by
    by_contra h
    rw [show heapOf ops y = none from List.getElem?_eq_none (by show 8 ≤ y; omega)] at hy
    cases hy
  have key : ∀ b : Nat, ∀ o : Op V, heapOf ops b = some o → (ops.map fun o : Op V => o.core.id)[b]? = some o.core.id := by
    intro b o h
    rw [List.getElem?_map, show (ops : List (Op V))[b]? = some o from h]
    rfl
  have h1 := key b o ho
  have h2 := key y o' hy
  rw [hid] at h2
  have hn : ([b!"37", b!"495", b!"861", b!"996", b!"865", b!"510", b!"262", b!"754"] : List Str).Nodup := by decide +kernel
  exact (List.getElem?_inj (by show y < 8; exact hy') hn).1 (h2.trans h1.symm)

end Bands

open Bands

/-- C89: the program made from examples/data/program-test-6.json, given messages in the order of time in whatever batches, reports on the ports of its output "37" the lower, the upper
and the middle Bollinger band, over 14 values with two standard deviations, of what its resampler "262" reports: one message for each run of 14 resampled values, with the time of the
last (real arithmetic). -/
theorem C89_bands {junk : Junk ℝ} {json : Str} {P P' : Prog ℝ} (hP : Prog.initWith junk json (bandsJson ℝ) = .ok P) {fuel : Nat} {mss : List (List (Msg ℝ))} (hinc : Increasing mss.flatten)
    (hlate : ∀ m ∈ mss.flatten, m.time.toNat + 1 < 2 ^ 64) {rs : List (ProgMsg ℝ)} (h : debugRun fuel (mss.map fun ms => [(i1, ms)]) P = .ok rs P') :
    let resampled := rs.flatMap fun r => listed r b!"262" o1
    (rs.flatMap fun r => listed r b!"37" o1) = lowerBand resampled ∧ (rs.flatMap fun r => listed r b!"37" b!"o2") = upperBand resampled ∧
      (rs.flatMap fun r => listed r b!"37" b!"o3") = middleBand resampled := by
  obtain ⟨P0, e0, hh, he, _, _⟩ := made junk json
  rw [hP] at e0
  cases e0
  intro resampled
  have hd := driven hh he
  have hord := ordered hh he hinc hlate h
  have h6 : P.st.heap 6 = some (wired (Op.newHermRes b!"262" 1) [(o1, [⟨4, i1⟩, ⟨5, i1⟩])]) := by rw [hh]; rfl
  have h0 : P.st.heap 0 = some (wired out3 []) := by rw [hh]; rfl
  have hD : ∀ {b}, b < 6 → part b := fun h => h
  have fc : Flows P.st.heap 6 o1 part resampled 6 o1 resampled := .clock
  have fm := Flows.step (b := 5) (q := i1) o1 fc (hD (by decide)) (by rw [hh]; show _ ∈ ([⟨4, i1⟩, ⟨5, i1⟩] : List Conn); decide) (by rw [hh]; rfl) rfl
    ((C03_movingAverage b!"510" 14 (by decide)).wired [(o1, [⟨0, b!"i3"⟩, ⟨1, i1⟩, ⟨2, i1⟩])])
  have fs := Flows.step (b := 4) (q := i1) o1 fc (hD (by decide)) (by rw [hh]; show _ ∈ ([⟨4, i1⟩, ⟨5, i1⟩] : List Conn); decide) (by rw [hh]; rfl) rfl
    ((C04_standardDeviation b!"865" 14 (by decide) (by decide)).wired [(o1, [⟨3, i1⟩])])
  rw [Trail.emitted_trail (by decide)] at fm fs
  have f2 := Flows.step (b := 3) (q := i1) o1 fs (hD (by decide)) (by rw [hh]; show _ ∈ ([⟨3, i1⟩] : List Conn); decide) (by rw [hh]; rfl) rfl
    ((C09_scale b!"996" (Num.ofNat 2)).wired [(o1, [⟨1, i2⟩, ⟨2, i2⟩])])
  rw [emittedOn_map o1 (fun m : Msg ℝ => ⟨m.time, m.value *. Num.ofNat 2⟩), Trail.map_trail 14 sampleStdDev (fun v => v *. Num.ofNat 2)] at f2
  have flo := Flows.binary (b := 1) (id := b!"495") (op := .minus) (w := [(o1, [⟨0, i1⟩])]) (fun x y => some (x -. y)) fm f2 (hD (by decide))
    (by rw [hh]; show _ ∈ ([⟨0, b!"i3"⟩, ⟨1, i1⟩, ⟨2, i1⟩] : List Conn); decide) (by rw [hh]; show _ ∈ ([⟨1, i2⟩, ⟨2, i2⟩] : List Conn); decide) (by rw [hh]; rfl) (fun _ _ => rfl)
  have fup := Flows.binary (b := 2) (id := b!"861") (op := .plus) (w := [(o1, [⟨0, i2⟩])]) (fun x y => some (x +. y)) fm f2 (hD (by decide))
    (by rw [hh]; show _ ∈ ([⟨0, b!"i3"⟩, ⟨1, i1⟩, ⟨2, i1⟩] : List Conn); decide) (by rw [hh]; show _ ∈ ([⟨1, i2⟩, ⟨2, i2⟩] : List Conn); decide) (by rw [hh]; rfl) (fun _ _ => rfl)
  rw [Trail.matched_trails _ _ _ _ (fun w => mean w - 2 * sampleStdDev w) (fun w => by simp [Exact.sub_eq, Exact.mul_eq, Exact.ofNat_eq, mul_comm])] at flo
  rw [Trail.matched_trails _ _ _ _ (fun w => mean w + 2 * sampleStdDev w) (fun w => by simp [Exact.add_eq, Exact.mul_eq, Exact.ofNat_eq, mul_comm])] at fup
  have g1 := Flows.output (b := 0) (k := 1) (w := []) flo (hD (by decide)) (by rw [hh]; show _ ∈ ([⟨0, i1⟩] : List Conn); decide) out3_eq h0 (by decide) (by decide)
  have g2 := Flows.output (b := 0) (k := 2) (w := []) fup (hD (by decide)) (by rw [hh]; show _ ∈ ([⟨0, i2⟩] : List Conn); decide) out3_eq h0 (by decide) (by decide)
  have g3 := Flows.output (b := 0) (k := 3) (w := []) fm (hD (by decide)) (by rw [hh]; show _ ∈ ([⟨0, b!"i3"⟩, ⟨1, i1⟩, ⟨2, i1⟩] : List Conn); decide) out3_eq h0 (by decide) (by decide)
  exact ⟨C88_listed hd h hord h6 (unique hh h6) g1 h0 (unique hh h0), C88_listed hd h hord h6 (unique hh h6) g2 h0 (unique hh h0),
    C88_listed hd h hord h6 (unique hh h6) g3 h0 (unique hh h0)⟩

/-- C89 for the middle band, in any exact arithmetic. -/
theorem C89_middle {V : Type} [Num V] [Field V] [LinearOrder V] [Exact V] {junk : Junk V} {json : Str} {P P' : Prog V} (hP : Prog.initWith junk json (bandsJson V) = .ok P) {fuel : Nat}
    {mss : List (List (Msg V))} (hinc : Increasing mss.flatten) (hlate : ∀ m ∈ mss.flatten, m.time.toNat + 1 < 2 ^ 64) {rs : List (ProgMsg V)}
    (h : debugRun fuel (mss.map fun ms => [(i1, ms)]) P = .ok rs P') :
    (rs.flatMap fun r => listed r b!"37" b!"o3") = trail 14 mean (rs.flatMap fun r => listed r b!"262" o1) := by
  obtain ⟨P0, e0, hh, he, _, _⟩ := made junk json
  rw [hP] at e0
  cases e0
  have h6 : P.st.heap 6 = some (wired (Op.newHermRes b!"262" 1) [(o1, [⟨4, i1⟩, ⟨5, i1⟩])]) := by rw [hh]; rfl
  have h0 : P.st.heap 0 = some (wired out3 []) := by rw [hh]; rfl
  have fc : Flows P.st.heap 6 o1 part (rs.flatMap fun r => listed r b!"262" o1) 6 o1 _ := .clock
  have fm := Flows.step (b := 5) (q := i1) o1 fc (show part 5 by unfold part; decide) (by rw [hh]; show _ ∈ ([⟨4, i1⟩, ⟨5, i1⟩] : List Conn); decide) (by rw [hh]; rfl) rfl
    ((C03_movingAverage b!"510" 14 (by decide)).wired [(o1, [⟨0, b!"i3"⟩, ⟨1, i1⟩, ⟨2, i1⟩])])
  rw [Trail.emitted_trail (by decide)] at fm
  have g3 := Flows.output (b := 0) (k := 3) (w := []) fm (show part 0 by unfold part; decide) (by rw [hh]; show _ ∈ ([⟨0, b!"i3"⟩, ⟨1, i1⟩, ⟨2, i1⟩] : List Conn); decide) out3_eq h0
    (by decide) (by decide)
  exact C88_listed (driven hh he) h (ordered hh he hinc hlate h) h6 (unique hh h6) g3 h0 (unique hh h0)

/-- C89: what the resampler of this program reports has, for messages before 2^30, one message for each time from the one after the first message up to the time of the last message but
one; fewer than four messages give none. -/
theorem C89_resampled {V : Type} [Num V] [Field V] [LinearOrder V] [IsStrictOrderedRing V] [Exact V] {junk : Junk V} {json : Str} {P P' : Prog V}
    (hP : Prog.initWith junk json (bandsJson V) = .ok P) {fuel : Nat} {mss : List (List (Msg V))} (hinc : Increasing mss.flatten) (hlate : ∀ m ∈ mss.flatten, m.time.toNat < 2 ^ 30)
    {rs : List (ProgMsg V)} (h : debugRun fuel (mss.map fun ms => [(i1, ms)]) P = .ok rs P') :
    (mss.flatten.length < 4 → (rs.flatMap fun r => listed r b!"262" o1) = []) ∧
    ∀ m0 l, 4 ≤ mss.flatten.length → mss.flatten.head? = some m0 → mss.flatten[mss.flatten.length - 2]? = some l →
      (rs.flatMap fun r => listed r b!"262" o1).map (·.time.toNat) = gridUpTo m0.time.toNat 1 l.time.toNat := by
  obtain ⟨P0, e0, hh, he, _, _⟩ := made junk json
  rw [hP] at e0
  cases e0
  have h6 : P.st.heap 6 = some (wired (Op.newHermRes b!"262" 1) [(o1, [⟨4, i1⟩, ⟨5, i1⟩])]) := by rw [hh]; rfl
  obtain ⟨evs, k1, _, k3⟩ := arriving hh he hinc h
  have hfi := fine_start (driven hh he).ops
  obtain ⟨_, evs', h3, h4⟩ := debugRun_listed _ hfi.wf h
  obtain ⟨_, _, evs2, h5, h6'⟩ := debugRun_honest _ h hfi.wf hfi.simple
  cases log_cancel k1 h3
  cases log_cancel k1 h5
  have hl : (rs.flatMap fun r => listed r b!"262" o1) = emittedBy 6 o1 evs := (h4 b!"262" o1).trans (emitted_by h6' h6 (unique hh h6) o1)
  obtain ⟨outs, o', c1, c2, c3⟩ := C15_hermiteResampler_partial b!"262" 1 (by decide) mss.flatten ⟨hinc, fun m hm => by have := hlate m hm; show m.time.toNat + 1 < _; omega,
      (hinc.imp_of_mem fun {a b} ha hb _ => by have := hlate b hb; show b.time.toNat - a.time.toNat < (2 ^ 31 - 3) * 1; omega).isChain⟩
    (fun a b ha hb => by
      have ha' := List.getElem?_eq_some_iff.1 ha
      have hb' := List.getElem?_eq_some_iff.1 hb
      obtain ⟨i1, e1⟩ := ha'
      obtain ⟨i2, e2⟩ := hb'
      have := List.pairwise_iff_getElem.1 hinc 0 1 i1 i2 (by decide)
      rw [e1, e2] at this
      have := UInt64.lt_iff_toNat_lt.1 this
      show 1 ≤ _
      omega)
    (fun m hm => hlate m (List.mem_of_mem_take hm))
  rw [hl, k3, feedOp_collected o1 i1 _ c1]
  exact ⟨c2, c3⟩

/-! ### A case -/

/-- Sixteen messages in batches of one, with gaps of 1, 2, 1, 3. -/
def bandsInput : List (List (Msg ℚ)) := (List.range 16).map fun i => [⟨UInt64.ofNat (i / 4 * 7 + i % 4 + i % 4 / 2), (i * i : ℕ)⟩]

/-- What a run of the program on messages for "i1" lists; `none` when a call fails. -/
def bandsRun (mss : List (List (Msg ℚ))) (id p : Str) : Option (List (Msg ℚ)) :=
  match Prog.initWith (fun _ => (0, 0)) [] (bandsJson ℚ) with
  | .ok P => match debugRun 9 (mss.map fun ms => [(i1, ms)]) P with
    | .ok rs _ => some (rs.flatMap fun r => listed r id p)
    | .err _ _ => none
  | .error _ => none

example : Increasing bandsInput.flatten ∧ (∀ m ∈ bandsInput.flatten, m.time.toNat < 2 ^ 30) ∧
    (bandsRun bandsInput b!"37" b!"o3").map (List.map (·.time)) = some [14, 15, 16, 17, 18, 19, 20, 21, 22, 23, 24] := by
  refine ⟨?_, ?_, ?_⟩
  · unfold Increasing; decide +kernel
  · decide +kernel
  · decide +kernel

end Rtbot
