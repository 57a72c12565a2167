import Verif.Spec.ReceiveRun
import Verif.Props.Program
import Verif.Props.Bands
import Verif.Props.JoinTest
import Verif.Props.PeakPrograms
import Verif.Props.Selector
import Verif.Props.RsiProgram
import Verif.Props.Getters

/-! # C27 for sequences of calls, and what the example programs put out through their filters -/

namespace Rtbot
open Spec
variable {V : Type} [Num V]

/-- C27 for sequences of calls: `receive` succeeds with the same programs whenever `receiveDebug` does, and its replies list what passes the filter. -/
theorem C27_run_partial {fuel : Nat} (calls : List (OpMsg V)) : ∀ {P P' : Prog V} {rs : List (ProgMsg V)}, HeapWF P.st.heap → PlainFilter P.filter → debugRun fuel calls P = .ok rs P' →
    ∃ rs', receiveRun fuel calls P = .ok rs' P' ∧ rs'.length = rs.length ∧
      ∀ id p, (Passes P.filter id p → (rs'.map fun r => listed r id p) = rs.map fun r => listed r id p) ∧ (¬ Passes P.filter id p → ∀ r ∈ rs', listed r id p = []) := by
  induction calls with
  | nil =>
    intro P P' rs _ _ h
    cases h
    exact ⟨[], rfl, rfl, fun id p => ⟨fun _ => rfl, fun _ r hr => by cases hr⟩⟩
  | cons msgs calls ih =>
    intro P P' rs hw hf h
    unfold debugRun at h
    split at h
    · cases h
    · rename_i r P1 h1
      split at h
      · cases h
      · rename_i rs1 P2 h2
        cases h
        have st := receiveDebug_steps (S := Any) (fuel := fuel) (msgs := msgs) (ctx_any hw) (fun _ _ => trivial)
        have fr := (receiveDebug_frame (fuel := fuel) (P := P) (msgs := msgs)).2.2.2
        rw [h1] at st fr
        have fr' : P1.filter = P.filter := fr
        obtain ⟨r', k1, _, k2⟩ := receive_listed hw hf h1
        obtain ⟨rs', k3, k4, k5⟩ := ih (P := P1) (st.shape.wf hw) (by rw [fr']; exact hf) h2
        rw [fr'] at k5
        refine ⟨r' :: rs', ?_, by simp [k4], fun id p => ⟨fun hp => ?_, fun hp x hx => ?_⟩⟩
        · unfold receiveRun
          rw [k1]
          dsimp only
          rw [k3]
        · rw [List.map_cons, List.map_cons, (k2 id p).1 hp, (k5 id p).1 hp]
        · rcases List.mem_cons.1 hx with rfl | hx
          · exact (k2 id p).2 hp
          · exact (k5 id p).2 hp x hx

/-- What goes through the filter, all replies together. -/
theorem receive_flat {fuel : Nat} {calls : List (OpMsg V)} {P P' : Prog V} {rs : List (ProgMsg V)} (hw : HeapWF P.st.heap) (hf : PlainFilter P.filter) (h : debugRun fuel calls P = .ok rs P') :
    ∃ rs', receiveRun fuel calls P = .ok rs' P' ∧
      ∀ id p, (Passes P.filter id p → (rs'.flatMap fun r => listed r id p) = rs.flatMap fun r => listed r id p) ∧ (¬ Passes P.filter id p → (rs'.flatMap fun r => listed r id p) = []) := by
  obtain ⟨rs', h1, _, h3⟩ := C27_run_partial calls hw hf h
  refine ⟨rs', h1, fun id p => ⟨fun hp => ?_, fun hp => ?_⟩⟩
  · rw [List.flatMap_def, List.flatMap_def, (h3 id p).1 hp]
  · rw [List.flatMap_eq_nil_iff]
    exact (h3 id p).2 hp

/-- The filter of a program that was made and has an operator. -/
theorem filter_made {junk : Junk V} {json : Str} {j : Json V} {P : Prog V} (h : Prog.initWith junk json j = .ok P) {a : Nat} (he : P.ops.find? P.entry = some a) : P.filter = readFilter j := by
  obtain ⟨entry, os, ops, m, cs, m', a', o, _, _, _, _, _, _, _, _, h | h⟩ := initWith_ok h
  · rw [h.2]
  · rw [h.2] at he
    cases he

theorem one_filter {id : Str} {ps : List Str} (h : ps.Nodup) : PlainFilter [(id, ps)] := by
  refine ⟨List.pairwise_singleton _ _, fun x qs hx => ?_⟩
  rw [Map.find?_cons] at hx
  split at hx <;> cases hx
  exact h

theorem one_passes {id : Str} {ps : List Str} {x p : Str} : Passes [(id, ps)] x p ↔ x = id ∧ p ∈ ps := by
  unfold Passes
  constructor
  · rintro (h | ⟨qs, h, hp⟩)
    · cases h
    · rw [Map.find?_cons] at h
      split at h <;> cases h
      rename_i he
      exact ⟨(by simpa using he : id = x).symm, hp⟩
  · rintro ⟨rfl, h⟩
    exact Or.inr ⟨ps, by simp [Map.find?_cons], h⟩

/-- Everything goes through when there is no filter. -/
theorem no_filter : PlainFilter [] := ⟨List.Pairwise.nil, fun _ _ h => by cases h⟩

theorem all_pass {x p : Str} : Passes [] x p := Or.inl rfl

/-- One answer through a filter that names one operator. -/
theorem filtered_one {fuel : Nat} {calls : List (OpMsg V)} {junk : Junk V} {json : Str} {j : Json V} {P P' : Prog V} (hP : Prog.initWith junk json j = .ok P) {a : Nat} (he : P.ops.find? P.entry = some a)
    {id : Str} {ps : List Str} (hj : readFilter j = [(id, ps)]) (hps : ps.Nodup) {rs : List (ProgMsg V)} (h : debugRun fuel calls P = .ok rs P') :
    ∃ rs', receiveRun fuel calls P = .ok rs' P' ∧ (∀ p ∈ ps, (rs'.flatMap fun r => listed r id p) = rs.flatMap fun r => listed r id p) ∧ ∀ x p, x ≠ id ∨ p ∉ ps → (rs'.flatMap fun r => listed r x p) = [] := by
  have hfl := (filter_made hP he).trans hj
  obtain ⟨rs', k1, k2⟩ := receive_flat (created_wf hP) (by rw [hfl]; exact one_filter hps) h
  rw [hfl] at k2
  refine ⟨rs', k1, fun p hp => (k2 _ _).1 (one_passes.2 ⟨rfl, hp⟩), fun x p hx => (k2 x p).2 fun hp => ?_⟩
  obtain ⟨h1, h2⟩ := one_passes.1 hp
  rcases hx with hx | hx
  · exact hx h1
  · exact hx h2

/-- C94 through the filter: `receive` returns the index and nothing else. -/
theorem C94_receive {B : Nat} (hT : Tells V B) (hB : 16 ≤ B) (hB64 : B < 2 ^ 64) {a b : V} {junk : Junk V} {json : Str} {P : Prog V} (hP : Prog.initWith junk json (rsiJson a b) = .ok P) {fuel : Nat} (hf : 20 ≤ fuel)
    (mss : List (List (Msg V))) (hlen : (records none mss.flatten).length ≤ B) (hd : ∀ d ∈ changes (records none mss.flatten), Placed d)
    (ht : ∀ m ∈ records none mss.flatten, Num.toTime (ofTime m.time : V) = some m.time) :
    ∃ rs P', receiveRun fuel (mss.map fun ms => [(i1, ms)]) P = .ok rs P' ∧ (rs.flatMap fun r => listed r b!"467" b!"o1") = rsi a b (records none mss.flatten) ∧
      ∀ x p, x ≠ b!"467" ∨ p ≠ b!"o1" → (rs.flatMap fun r => listed r x p) = [] := by
  obtain ⟨rs, P', h1, h2⟩ := C94_reports hT hB hB64 hP hf mss hlen hd ht
  obtain ⟨P0, e0, _, he⟩ := RsiProgram.made junk json a b
  rw [hP] at e0
  cases e0
  obtain ⟨rs', k1, k2, k3⟩ := filtered_one hP he (id := b!"467") (ps := [b!"o1"]) rfl (by simp) h1
  exact ⟨rs', P', k1, (k2 _ (by simp)).trans h2, fun x p hx => k3 x p (hx.imp id fun h => by simpa using h)⟩

/-- C91 through the filter: `receive` of the program for peaks in PPG returns the messages at the peaks and nothing else. -/
theorem C91_ppg_receive {V : Type} [Num V] [Field V] [LinearOrder V] [Exact V] {junk : Junk V} {json : Str} {P : Prog V} (hP : Prog.initWith junk json (ppgJson V) = .ok P) :
    ∃ n, ∀ fuel, n < fuel → ∀ mss : List (List (Msg V)), ∃ rs P', receiveRun fuel (mss.map fun ms => [(i1, ms)]) P = .ok rs P' ∧ (Increasing mss.flatten →
      (rs.flatMap fun r => listed r b!"out1" o1) = mss.flatten.filter fun m => hasTime m.time (peaks 13 (crossing 6 250 mss.flatten))) ∧
      ∀ x p, x ≠ b!"out1" ∨ p ≠ o1 → (rs.flatMap fun r => listed r x p) = [] := by
  obtain ⟨n, h⟩ := C91_ppg hP
  refine ⟨n, fun fuel hf mss => ?_⟩
  obtain ⟨rs, P', h1, h2⟩ := h fuel hf mss
  obtain ⟨P0, e0, _, he⟩ := Peaks.ppgMade junk json
  rw [hP] at e0
  cases e0
  obtain ⟨rs', k1, k2, k3⟩ := filtered_one hP he (id := b!"out1") (ps := [o1]) rfl (by simp) h1
  exact ⟨rs', P', k1, fun hi => (k2 _ (by simp)).trans (h2 hi), fun x p hx => k3 x p (hx.imp id fun h => by simpa using h)⟩

/-- C91 for `receive`: the peak detector program has no filter, so all is returned. -/
theorem C91_peaks_receive {junk : Junk V} {json : Str} {P : Prog V} (hP : Prog.initWith junk json (peakJson V) = .ok P) :
    ∃ n, ∀ fuel, n < fuel → ∀ mss : List (List (Msg V)), ∃ rs P', receiveRun fuel (mss.map fun ms => [(i1, ms)]) P = .ok rs P' ∧ (Increasing mss.flatten →
      (rs.flatMap fun r => listed r b!"join" o1) = peaks 3 mss.flatten ∧ (rs.flatMap fun r => listed r b!"join" b!"o2") = peaks 3 mss.flatten) := by
  obtain ⟨n, h⟩ := C91_peaks hP
  refine ⟨n, fun fuel hf mss => ?_⟩
  obtain ⟨rs, P', h1, h2⟩ := h fuel hf mss
  obtain ⟨P0, e0, _, he⟩ := Peaks.made junk json
  rw [hP] at e0
  cases e0
  have hfl : P.filter = [] := (filter_made hP he).trans rfl
  obtain ⟨rs', k1, k2⟩ := receive_flat (created_wf hP) (by rw [hfl]; exact no_filter) h1
  rw [hfl] at k2
  exact ⟨rs', P', k1, fun hi => ⟨((k2 _ _).1 all_pass).trans (h2 hi).1, ((k2 _ _).1 all_pass).trans (h2 hi).2⟩⟩

/-- C89 for `receive`: the join program has no filter. -/
theorem C89_join_receive {junk : Junk V} {json : Str} {P : Prog V} (hP : Prog.initWith junk json (joinJson V) = .ok P) :
    ∃ n, ∀ fuel, n < fuel → ∀ mss : List (List (Msg V)), ∃ rs P', receiveRun fuel (mss.map fun ms => [(i1, ms)]) P = .ok rs P' ∧ (Increasing mss.flatten →
      (rs.flatMap fun r => listed r b!"out1" o1) = mss.flatten.map (fun m => ⟨m.time, m.value *. Num.ofNat 2⟩) ∧
      (rs.flatMap fun r => listed r b!"out1" b!"o2") = mss.flatten.map fun m => ⟨m.time, m.value *. Num.ofNat 3⟩) := by
  obtain ⟨n, h⟩ := C89_join hP
  refine ⟨n, fun fuel hf mss => ?_⟩
  obtain ⟨rs, P', h1, h2⟩ := h fuel hf mss
  obtain ⟨P0, e0, _, he⟩ := JoinTest.made junk json
  rw [hP] at e0
  cases e0
  have hfl : P.filter = [] := (filter_made hP he).trans rfl
  obtain ⟨rs', k1, k2⟩ := receive_flat (created_wf hP) (by rw [hfl]; exact no_filter) h1
  rw [hfl] at k2
  exact ⟨rs', P', k1, fun hi => ⟨((k2 _ _).1 all_pass).trans (h2 hi).1, ((k2 _ _).1 all_pass).trans (h2 hi).2⟩⟩

/-- C93 for `receive`: the demultiplexer program has no filter. -/
theorem C93_receive {B : Nat} (hT : Tells V B) (hB : 20 ≤ B) (hB64 : B < 2 ^ 64) {junk : Junk V} {json : Str} {P : Prog V} (hP : Prog.initWith junk json (selectorJson V) = .ok P) {fuel : Nat} (hf : 5 ≤ fuel)
    (mss : List (List (Msg V))) (hlen : (records none mss.flatten).length ≤ B) :
    ∃ rs P', receiveRun fuel (mss.map fun ms => [(i1, ms)]) P = .ok rs P' ∧ (rs.flatMap fun r => listed r b!"dm" b!"o1") = (records none mss.flatten).take 19 ∧
      (rs.flatMap fun r => listed r b!"dm" b!"o2") = (records none mss.flatten).drop 19 := by
  obtain ⟨rs, P', h1, h2, h3⟩ := C93_selects hT hB hB64 hP hf mss hlen
  obtain ⟨P0, e0, _, he⟩ := Selector.made junk json
  rw [hP] at e0
  cases e0
  have hfl : P.filter = [] := (filter_made hP he).trans rfl
  obtain ⟨rs', k1, k2⟩ := receive_flat (created_wf hP) (by rw [hfl]; exact no_filter) h1
  rw [hfl] at k2
  exact ⟨rs', P', k1, ((k2 _ _).1 all_pass).trans h2, ((k2 _ _).1 all_pass).trans h3⟩

/-- C89 through the filter: `receive` of the Bollinger bands program returns the three bands of the resampled messages and nothing else. -/
theorem C89_bands_receive {junk : Junk ℝ} {json : Str} {P P' : Prog ℝ} (hP : Prog.initWith junk json (bandsJson ℝ) = .ok P) {fuel : Nat} {mss : List (List (Msg ℝ))} (hinc : Increasing mss.flatten)
    (hlate : ∀ m ∈ mss.flatten, m.time.toNat + 1 < 2 ^ 64) {rs : List (ProgMsg ℝ)} (h : debugRun fuel (mss.map fun ms => [(i1, ms)]) P = .ok rs P') :
    let resampled := rs.flatMap fun r => listed r b!"262" o1
    ∃ rs', receiveRun fuel (mss.map fun ms => [(i1, ms)]) P = .ok rs' P' ∧ (rs'.flatMap fun r => listed r b!"37" o1) = lowerBand resampled ∧ (rs'.flatMap fun r => listed r b!"37" b!"o2") = upperBand resampled ∧
      (rs'.flatMap fun r => listed r b!"37" b!"o3") = middleBand resampled ∧ ∀ x p, x ≠ b!"37" ∨ p ∉ [b!"o2", o1, b!"o3"] → (rs'.flatMap fun r => listed r x p) = [] := by
  obtain ⟨h1, h2, h3⟩ := C89_bands hP hinc hlate h
  obtain ⟨P0, e0, _, he, _⟩ := Bands.made junk json
  rw [hP] at e0
  cases e0
  obtain ⟨rs', k1, k2, k3⟩ := filtered_one hP he (id := b!"37") (ps := [b!"o2", o1, b!"o3"]) rfl (by decide) h
  exact ⟨rs', k1, (k2 _ (by simp)).trans h1, (k2 _ (by simp)).trans h2, (k2 _ (by simp)).trans h3, k3⟩

/-- A case: the listings of a reply when the index program is asked through `receive`, in bytes of operator and port, and the number of messages listed by both calls. -/
def RsiProgram.received (gap : Nat) : Option (List (Str × Str × List UInt64)) :=
  match Prog.initWith (fun _ => (0, 0)) [] (rsiJson (13 / 14 : ℚ) (1 / 14)) with
  | .ok P => match receiveRun 20 ((RsiProgram.sample gap).map fun ms => [(i1, ms)]) P with
    | .ok rs _ => some (rs.flatMap fun r => r.flatMap fun (x, os) => os.map fun (p, ms) => (x, p, ms.map (·.time)))
    | .err _ _ => none
  | .error _ => none

example : (RsiProgram.received 0).map (fun l => (l.map fun x => (x.1, x.2.1)).eraseDups) = some [(b!"467", b!"o1")] := by decide +kernel
example : (RsiProgram.received 0).map (fun l => l.flatMap fun x => x.2.2) = some [15, 16, 17, 18] := by decide +kernel

example : (match Prog.initWith (fun _ => (0, 0)) [] (joinJson ℚ) with
    | .ok P => match receiveRun 9 [[(i1, [⟨1, 5⟩, ⟨3, 7⟩])], [(i1, [⟨4, 1⟩])]] P with
      | .ok rs _ => some (rs.flatMap fun r => listed r b!"out1" o1, rs.flatMap fun r => listed r b!"out1" b!"o2")
      | .err _ _ => none
    | .error _ => none) = some ([⟨1, 10⟩, ⟨3, 14⟩, ⟨4, 2⟩], [⟨1, 15⟩, ⟨3, 21⟩, ⟨4, 3⟩]) := by decide +kernel

end Rtbot
