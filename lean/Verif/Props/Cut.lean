import Verif.Lemmas.CutOut
import Verif.Props.Windows
import Verif.Props.Copy

/-! # C97: a program is its entry followed by the program behind it -/

namespace Rtbot
variable {V : Type} [Num V]
open Spec

namespace Cut
variable {φ : Nat → Nat} {D : Nat → Prop} {a b : Nat}

/-- One call. -/
theorem call {o : Op V} {P Q : Prog V} (h : Both φ D a b o P.st Q.st) (ha : P.ops.find? P.entry = some a) (hb : Q.ops.find? Q.entry = some b) {p : Str} {ms : List (Msg V)} {o' : Op V}
    {out : List (OpMsg V)} (hf : feedOp o p ms = .ok out o') (ho : ∀ x ∈ out, x = [] ∨ ∃ l, x = [(o1, l)]) (fuel : Nat) :
    match P.receiveDebug (fuel + 1) [(p, ms)], Q.receiveDebug (fuel + 1) [(i1, emittedOn o1 out)] with
    | .ok r P', .ok r' Q' => r = r' ∧ Both φ D a b o' P'.st Q'.st ∧ P'.ops.find? P'.entry = some a ∧ Q'.ops.find? Q'.entry = some b ∧ P'.filter = P.filter ∧ Q'.filter = Q.filter
    | .err e _, .err e' _ => e = e'
    | _, _ => False := by
  have := feeds_pair fuel ms [] good_nil h hf ho
  unfold Prog.receiveDebug
  rw [ha, hb]
  dsimp only
  rw [feedAll_single, feedAll_single]
  cases hx : feedPort (fuel + 1) a p ms [] P.st <;> cases hy : feedPort (fuel + 1) b i1 (emittedOn o1 out) [] Q.st <;> rw [hx, hy] at this <;> first | exact this.elim | skip
  · exact ⟨this.1, this.2.2, ha, hb, rfl, rfl⟩
  · exact this

theorem run {p : Str} (fuel : Nat) {o : Op V} {mss outs : List (List (Msg V))} (he : OutBatches o p mss outs) : ∀ {P Q : Prog V}, Both φ D a b o P.st Q.st →
    P.ops.find? P.entry = some a → Q.ops.find? Q.entry = some b →
    answer (debugRun (fuel + 1) (mss.map fun ms => [(p, ms)]) P) = answer (debugRun (fuel + 1) (outs.map fun ms => [(i1, ms)]) Q) ∧
    (P.filter = Q.filter → answer (receiveRun (fuel + 1) (mss.map fun ms => [(p, ms)]) P) = answer (receiveRun (fuel + 1) (outs.map fun ms => [(i1, ms)]) Q)) := by
  induction he with
  | nil => intro P Q _ _ _; exact ⟨rfl, fun _ => rfl⟩
  | cons hf ho _ ih =>
    intro P Q h ha hb
    have := call h ha hb hf ho fuel
    rw [List.map_cons, List.map_cons]
    unfold debugRun receiveRun Prog.receive
    revert this
    cases P.receiveDebug (fuel + 1) _ <;> cases Q.receiveDebug (fuel + 1) _ <;> intro this <;> first | exact this.elim | skip
    · obtain ⟨rfl, k1, k2, k3, k4, k5⟩ := this
      obtain ⟨g1, g2⟩ := ih k1 k2 k3
      dsimp only
      constructor
      · revert g1
        cases debugRun (V := V) (fuel + 1) _ _ <;> cases debugRun (V := V) (fuel + 1) _ _ <;> intro g1 <;> cases g1 <;> rfl
      · intro hfil
        have g2 := g2 (by rw [k4, k5, hfil])
        rw [k4, k5, hfil]
        revert g2
        cases receiveRun (V := V) (fuel + 1) _ _ <;> cases receiveRun (V := V) (fuel + 1) _ _ <;> intro g2 <;> cases g2 <;> rfl
    · cases this
      exact ⟨rfl, fun _ => rfl⟩

end Cut

/-- C97: a program answers a sequence of calls, whose messages its entry operator answers, exactly as the program that has an Identity with the same id in the place of the entry answers the calls with
what the entry operator emits. So a program is its entry followed by the program behind it. -/
theorem C97_entry {φ : Nat → Nat} {D : Nat → Prop} {a b : Nat} {o : Op V} {P Q : Prog V} (h : CutAt φ D a b o P Q) (hw : HeapWF P.st.heap) (hw' : HeapWF Q.st.heap) {p : Str}
    {mss outs : List (List (Msg V))} (he : OutBatches o p mss outs) (fuel : Nat) :
    answer (debugRun (fuel + 1) (mss.map fun ms => [(p, ms)]) P) = answer (debugRun (fuel + 1) (outs.map fun ms => [(i1, ms)]) Q) ∧
    (P.filter = Q.filter → answer (receiveRun (fuel + 1) (mss.map fun ms => [(p, ms)]) P) = answer (receiveRun (fuel + 1) (outs.map fun ms => [(i1, ms)]) Q)) := by
  refine Cut.run fuel he ⟨⟨_, ⟨h.rest, hw, hw', h.here, h.there, h.apart, h.apart', rfl, rfl, fun p cs c hc hm => h.behind _ (Copy.next_conn hc hm)⟩, Cut.passing_start _ _, rfl, trivial⟩, h.simple, h.port⟩
    h.entry h.entry'

/-- C97 for an operator with one output port, of which it is known what it answers to the messages: the messages of all batches that it emits, taken together, are what it emits when they are handed to
it one after the other. -/
theorem C97_stream {φ : Nat → Nat} {D : Nat → Prop} {a b : Nat} {o o' : Op V} {P Q : Prog V} (h : CutAt φ D a b o P Q) (hw : HeapWF P.st.heap) (hw' : HeapWF Q.st.heap) (hc : Connected o)
    (hn : outNames o.kind = [o1]) {p : Str} {mss : List (List (Msg V))} {outs : List (OpMsg V)} (hf : feedOp o p mss.flatten = .ok outs o') :
    ∃ outss : List (List (Msg V)), outss.length = mss.length ∧ outss.flatten = emittedOn o1 outs ∧ ∀ fuel,
      answer (debugRun (fuel + 1) (mss.map fun ms => [(p, ms)]) P) = answer (debugRun (fuel + 1) (outss.map fun ms => [(i1, ms)]) Q) ∧
      (P.filter = Q.filter → answer (receiveRun (fuel + 1) (mss.map fun ms => [(p, ms)]) P) = answer (receiveRun (fuel + 1) (outss.map fun ms => [(i1, ms)]) Q)) := by
  obtain ⟨outss, h1, h2⟩ := Cut.OnePort.batches mss ⟨hc.parts.2.1, hc.parts.2.2, hn⟩ hf
  refine ⟨outss, ?_, h2, fun fuel => C97_entry h hw hw' h1 fuel⟩
  clear hf h2 h hc hn
  induction h1 with
  | nil => rfl
  | cons _ _ _ ih => rw [List.length_cons, List.length_cons, ih]

/-- C97: an entry Identity with one connection can be left out: the program that has the connected operator as its entry gives the same answers, except that they lack what is listed for the Identity. -/
theorem C97_skip {φ : Nat → Nat} {D : Nat → Prop} {b c : Nat} {id q : Str} {P Q : Prog V} (h : Headed φ D b c id q P Q) (hw : HeapWF P.st.heap) (fuel : Nat) (mss : List (List (Msg V))) :
    SameBut id (answer (debugRun (fuel + 1) (mss.map fun ms => [(i1, ms)]) P)) (answer (debugRun fuel (mss.map fun ms => [(q, ms)]) Q)) := by
  have hs : Cut.Skip φ D b c id q P.st Q.st := ⟨h.rest, hw, ⟨_, h.here, Cut.passing_start _ _, trivial, rfl, rfl, rfl⟩, h.there, h.inside, h.apart⟩
  have he := h.entry
  have he' := h.entry'
  clear h hw
  induction mss generalizing P Q with
  | nil => exact .nil
  | cons ms mss ih =>
    have := Cut.skip_feeds fuel ms [] [] (fun _ _ _ => rfl) hs
    rw [List.map_cons, List.map_cons]
    unfold debugRun Prog.receiveDebug
    rw [he, he']
    dsimp only
    rw [feedAll_single, feedAll_single]
    cases hx : feedPort (fuel + 1) b i1 ms [] P.st <;> cases hy : feedPort fuel (φ c) q ms [] Q.st <;> rw [hx, hy] at this <;> first | exact this.elim | skip
    · rename_i r s r' s'
      have g := ih (P := { P with st := s }) (Q := { Q with st := s' }) this.2 he he'
      dsimp only
      revert g
      cases debugRun (fuel + 1) (mss.map fun ms => [(i1, ms)]) { P with st := s } <;> cases debugRun fuel (mss.map fun ms => [(q, ms)]) { Q with st := s' } <;> intro g <;> first | exact g.elim | skip
      · exact .cons this.1 g
      · exact g
    · exact this

/-! ## A case -/

namespace Cut

/-- A moving average over 2 messages, which hands its results on. -/
def avg : Op ℚ := wired (Op.newMovAvg b!"avg" 2) [(o1, [⟨1, i1⟩])]
/-- The operator that it hands them to. -/
def sum : Op ℚ := wired (Op.newCumSum b!"sum") []
/-- A program with these two operators. -/
def P1 : Prog ℚ := ⟨[], [(b!"avg", 0), (b!"sum", 1)], b!"avg", [], ⟨fun n => match n with | 0 => some avg | 1 => some sum | _ => none, 0, []⟩⟩
/-- The program with the Identity. -/
def P2 : Prog ℚ := ⟨[], [(b!"avg", 0), (b!"sum", 1)], b!"avg", [], ⟨fun n => match n with | 0 => some (wired (Op.newIdentity b!"avg") [(o1, [⟨1, i1⟩])]) | 1 => some sum | _ => none, 0, []⟩⟩
/-- The program with the sum only. -/
def P3 : Prog ℚ := ⟨[], [(b!"sum", 1)], b!"sum", [], ⟨fun n => match n with | 1 => some sum | _ => none, 0, []⟩⟩

theorem contains {h h' : Nat → Option (Op ℚ)} (h1 : h 1 = some sum) (h2 : h' 1 = some sum) : Contains (fun x => x) (fun x => x = 1) h h' := by
  refine ⟨fun _ _ _ _ h => h, fun a ha => ?_, fun a o b ha ho hb => ?_⟩
  · subst ha
    exact ⟨sum, h1, h2⟩
  · subst ha
    rw [h1] at ho
    cases ho
    cases hb

theorem cut : CutAt (fun x => x) (fun x => x = 1) 0 0 avg P1 P2 where
  simple := trivial
  port := rfl
  entry := rfl
  entry' := rfl
  here := rfl
  there := rfl
  rest := contains rfl rfl
  behind c hc := by
    have : c ∈ [1] := hc
    simpa using this
  apart h := by cases h
  apart' d hd h := by subst hd; cases h

theorem headed : Headed (fun x => x) (fun x => x = 1) 0 1 b!"avg" i1 P2 P3 where
  entry := rfl
  entry' := rfl
  here := rfl
  there := ⟨sum, rfl, rfl⟩
  rest := contains rfl rfl
  inside := rfl
  apart h := by cases h

theorem wf_sum : sum.core.WF := (show Connected sum from ⟨_, _, .cumSum _, rfl⟩).parts.2.2
theorem wf_avg : avg.core.WF := (show Connected avg from ⟨_, _, .movAvg _ _, rfl⟩).parts.2.2

theorem wf1 : HeapWF P1.st.heap := by
  intro x o h
  match x, h with
  | 0, h => cases h; exact wf_avg
  | 1, h => cases h; exact wf_sum

theorem wf2 : HeapWF P2.st.heap := by
  intro x o h
  match x, h with
  | 0, h => cases h; exact (show Connected (wired (Op.newIdentity b!"avg") [(o1, [⟨1, i1⟩])] : Op ℚ) from ⟨_, _, .identity _, rfl⟩).parts.2.2
  | 1, h => cases h; exact wf_sum

theorem connected : Connected avg := ⟨_, _, .movAvg _ _, rfl⟩

end Cut

example : ∃ outss : List (List (Msg ℚ)), outss.length = 2 ∧ outss.flatten = [⟨2, 5⟩, ⟨3, 8⟩] ∧
    answer (debugRun 5 [[(i1, [⟨1, 4⟩, ⟨2, 6⟩])], [(i1, [⟨3, 10⟩])]] Cut.P1) = answer (debugRun 5 (outss.map fun ms => [(i1, ms)]) Cut.P2) := by
  obtain ⟨o', h⟩ := (C03_movingAverage (V := ℚ) b!"avg" 2 (by decide)).wired [(o1, [⟨1, i1⟩])] [⟨1, 4⟩, ⟨2, 6⟩, ⟨3, 10⟩]
  obtain ⟨outss, h1, h2, h3⟩ := C97_stream (mss := [[⟨1, 4⟩, ⟨2, 6⟩], [⟨3, 10⟩]]) Cut.cut Cut.wf1 Cut.wf2 Cut.connected rfl h
  exact ⟨outss, h1, h2.trans (by decide +kernel), (h3 4).1⟩

example : answer (debugRun 5 [[(i1, [⟨1, 4⟩, ⟨2, 6⟩])], [(i1, [⟨3, 10⟩])]] Cut.P1) =
    .ok [[(b!"avg", [(o1, [⟨2, 5⟩])]), (b!"sum", [(o1, [⟨2, 5⟩])])], [(b!"avg", [(o1, [⟨3, 8⟩])]), (b!"sum", [(o1, [⟨3, 13⟩])])]] ∧
    answer (debugRun 5 [[(i1, [⟨2, 5⟩])], [(i1, [⟨3, 8⟩])]] Cut.P2) =
    .ok [[(b!"avg", [(o1, [⟨2, 5⟩])]), (b!"sum", [(o1, [⟨2, 5⟩])])], [(b!"avg", [(o1, [⟨3, 8⟩])]), (b!"sum", [(o1, [⟨3, 13⟩])])]] ∧
    answer (debugRun 4 [[(i1, [⟨2, 5⟩])], [(i1, [⟨3, 8⟩])]] Cut.P3) = .ok [[(b!"sum", [(o1, [⟨2, 5⟩])])], [(b!"sum", [(o1, [⟨3, 13⟩])])]] := by
  refine ⟨?_, ?_, ?_⟩ <;> decide +kernel

end Rtbot
