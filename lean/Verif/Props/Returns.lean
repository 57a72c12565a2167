import Verif.Lemmas.QuietRun
import Verif.Props.Defined
import Verif.Props.PortsPipes
import Verif.Props.Terminate

set_option linter.unusedSectionVars false

/-! # C66: every call returns -/

namespace Rtbot
variable {V : Type} [Num V]
open Spec

theorem tight_of_made {o : Op V} (h : Made (bare o)) (hs : Simple o) (hq : Sturdy o) : Tight o := by
  cases h with
  | built h =>
    have := h.tight (show Sturdy (bare o) from hq)
    exact ⟨this.sole, this.fir, this.join, this.linear, this.unnamed, hq, this.ctrl⟩
  | pipe _ hk => exact absurd hk (simple_not_pipe (o := o) hs)

/-- The created program has what `qk_feedAll` needs. -/
theorem firm_of_created {junk : Junk V} {json : Str} {j : Json V} {P : Prog V} (h : Prog.initWith junk json j = .ok P) (hn : PlainPipes P.st.heap)
    (hm : Mild P.st.heap) (hq : ∀ b o, P.st.heap b = some o → Sturdy o) : Firm P.st.heap := by
  refine ⟨grid_of_created h hn, (created_own h hm).ground, fun b o ho hs => ?_, fun b o ho => ?_⟩
  · rcases initWith_orderly h with rfl | ⟨m, h1, h2, _⟩
    · cases ho
    · exact tight_of_made (h1.made b o (by rw [h2] at ho; exact ho)) hs (hq b o ho)
  · rcases initWith_orderly h with rfl | ⟨m, h1, h2, _⟩
    · cases ho
    · exact EmptyIns.snug (o := o) (h1.made b o (by rw [h2] at ho; exact ho)).begun.dataEmpty

theorem steps_of_sturdy {h : Nat → Option (Op V)} (hg : Firm h) (hq : ∀ b o, h b = some o → Sturdy o) : StepsEnd h := by
  refine C28_steps hg.grid.wf (fun b o dt next ini last ho hk => ?_) fun b o as e ho hk he => ?_
  · have := hq b o ho
    unfold Sturdy at this
    rw [hk] at this
    exact this
  · have h1 := hq b o ho
    unfold Sturdy at h1
    rw [hk] at h1
    obtain ⟨i, h2, h3⟩ := (hg.ground.sound b o ho).coeff as hk
    rw [h2] at he
    obtain rfl := List.mem_singleton.1 he
    rw [if_neg (fun h => h1.1 (List.length_eq_zero_iff.1 h))] at h3
    have := h1.2
    show i.max ≠ sizeMax
    unfold sizeMax
    omega

/-- Operators hand messages to operators. -/
theorem edge_exists {junk : Junk V} {json : Str} {j : Json V} {P : Prog V} (h : Prog.initWith junk json j = .ok P) {a b : Nat} (he : Edge P.st.heap a b) :
    ∃ o, P.st.heap b = some o := by
  obtain ⟨o, ho, hb⟩ := he
  unfold nexts at hb
  rcases List.mem_append.1 hb with hb | hb
  · obtain ⟨e, h1, h2⟩ := List.mem_flatMap.1 hb
    obtain ⟨c, h3, rfl⟩ := List.mem_map.1 h2
    obtain ⟨t, h4, _⟩ := (C34_created_conns h a o ho e.1 e.2 h1).2 c h3
    exact ⟨t, h4⟩
  · cases hk : o.kind <;> rw [hk] at hb <;> first | cases hb | skip
    · rename_i i q
      rcases initWith_orderly h with rfl | ⟨m, h1, h2, _⟩
      · cases ho
      · exact absurd hk ((h1.made a o (by rw [h2] at ho; exact ho)).whole i q)
    · rename_i ins outs pm
      obtain ⟨e, h1, rfl⟩ := List.mem_map.1 hb
      obtain ⟨tbl, g, _⟩ := C50_program h ho hk
      obtain ⟨id, p, _, _, ⟨ot, g3, _⟩, _⟩ := (g.inputs e.1 e.2).1 ((mem_of_find g.insSorted).2 h1)
      exact ⟨ot, g3⟩

theorem edge_below {junk : Junk V} {json : Str} {j : Json V} {P : Prog V} (h : Prog.initWith junk json j = .ok P) : ∃ n, ∀ a b, Edge P.st.heap a b → b < n := by
  rcases initWith_orderly h with rfl | ⟨m, h1, h2, _⟩
  · exact ⟨0, fun a b ⟨o, ho, _⟩ => by cases ho⟩
  · refine ⟨m.next, fun a b he => ?_⟩
    obtain ⟨o, ho⟩ := edge_exists h he
    by_contra hlt
    have := h1.free b (by omega)
    rw [h2] at ho
    rw [show m.st.heap b = m.heap b from rfl, this] at ho
    cases ho

theorem history_ends {n : Nat} (fuel : Nat) (calls : List (OpMsg V)) : ∀ {P : Prog V}, HeapWF P.st.heap → StepsEnd P.st.heap →
    (∀ a b, Edge P.st.heap a b → b < n) → Acyclic P.st.heap →
    let P' := history fuel calls P
    HeapWF P'.st.heap ∧ StepsEnd P'.st.heap ∧ (∀ a b, Edge P'.st.heap a b → b < n) ∧ Acyclic P'.st.heap := by
  induction calls with
  | nil => intro P h1 h2 h3 h4; exact ⟨h1, h2, h3, h4⟩
  | cons m calls ih =>
    intro P h1 h2 h3 h4
    obtain ⟨g1, g2, g3, g4⟩ := C28_again h1 h2 h3 h4 fuel m
    exact ih g1 g2 g3 g4

/-- C66: every call of a created program returns a report, whatever has been sent to it before. The program has no cycle; its operators do no arithmetic that
may be undefined and answer every message; the messages of the call name data ports of the entry operator.

Missing: Demultiplexer, Variable and RelativeStrengthIndex over one message, for which it is false; the operators excluded in C65; ConstantResampler; FiniteImpulseResponse
and AutoRegressive without coefficients; inner operators of pipelines with a colon in their names. -/
theorem C66_returns_partial {junk : Junk V} {json : Str} {j : Json V} {P : Prog V} (h : Prog.initWith junk json j = .ok P) (hn : PlainPipes P.st.heap)
    (hm : Mild P.st.heap) (hq : ∀ b o, P.st.heap b = some o → Sturdy o) (hac : Acyclic P.st.heap) {a : Nat} {o : Op V} (ha : P.ops.find? P.entry = some a)
    (ho : P.st.heap a = some o) :
    ∃ n, ∀ fuel, n < fuel → ∀ (calls : List (OpMsg V)) (msgs : OpMsg V), (∀ q ∈ msgs.keys, q ∈ o.core.dataIn.keys) →
      (∃ r P', (history fuel calls P).receiveDebug fuel msgs = .ok r P') ∧ ∃ r P', (history fuel calls P).receive fuel msgs = .ok r P' := by
  have hf := firm_of_created h hn hm hq
  obtain ⟨n, hb⟩ := edge_below h
  refine ⟨n, fun fuel hfuel calls msgs hkeys => ?_⟩
  obtain ⟨g1, g2, g3, g4⟩ := history_ends fuel calls hf.grid.wf (steps_of_sturdy hf hq) hb hac
  obtain ⟨d1, _, d3⟩ := C28_terminates g1 g2 g3 g4 msgs
  obtain ⟨e1, e2, e3⟩ := history_calm hf.grid fuel calls (calm_start h)
  have hst := (created_own h hm).history fuel calls
  have key : ∃ r P', (history fuel calls P).receiveDebug fuel msgs = .ok r P' := by
    cases hr : (history fuel calls P).receiveDebug fuel msgs with
    | ok r P' => exact ⟨r, P', rfl⟩
    | err e P' =>
      exfalso
      cases e with
      | ub u => exact (hst.call fuel msgs).1 ⟨u, P', hr⟩
      | diverge =>
        rw [(d3 fuel hfuel).1] at hr
        exact d1 _ hr
      | exc x =>
        unfold Prog.receiveDebug at hr
        rw [e2, e3, ha] at hr
        dsimp only at hr
        have := qk_feedAll hf fuel ho msgs (fun p hp => (Map.has_iff _ _).2 (hkeys p hp)) (fun _ => 0) _ hst.live e1 x
        cases hx : feedAll fuel a msgs (history fuel calls P).st with
        | ok r s => rw [hx] at hr; cases hr
        | err e' s =>
          rw [hx] at hr
          simp only [Res.err.injEq] at hr
          rw [hr.1] at hx
          exact this _ hx
  refine ⟨key, ?_⟩
  obtain ⟨r, P', hr⟩ := key
  unfold Prog.receive
  rw [hr]
  exact ⟨_, _, rfl⟩

/-! ## A case -/

/-- A program whose operators are downstream only of operators with other numbers in the given order has no cycle. -/
theorem acyclic_of_rank {h : Nat → Option (Op V)} (f : Nat → Nat) (hf : ∀ a b, Edge h a b → f a < f b) : Acyclic h := by
  have : ∀ a b, Reach h a b → f a ≤ f b := by
    intro a b hr
    induction hr with
    | refl => exact Nat.le_refl _
    | step _ e ih => have := hf _ _ e; omega
  intro a b he hr
  have h1 := hf a b he
  have h2 := this b a hr
  omega

/-- The order of the operators of `mildProgram`: the pipeline comes first. -/
def mildRank : Nat → Nat
  | 2 => 0
  | 0 => 1
  | 1 => 2
  | n => n

/-- A pipeline holding an AutoRegressive, followed by a Difference, answers every call, also after calls that failed. -/
example : ∃ P, Prog.initWith (fun _ => (0, 0)) [] mildProgram = .ok P ∧ ∃ n, ∀ fuel, n < fuel → ∀ calls ms,
    ∃ r P', (history fuel calls P).receive fuel [(i1, ms)] = .ok r P' := by
  obtain ⟨P, h, hm, _⟩ := mildProgram_mild
  refine ⟨P, h, ?_⟩
  have hall : PlainPipes P.st.heap ∧ (∀ b o, P.st.heap b = some o → Sturdy o) ∧ Acyclic P.st.heap ∧
      ∃ o, P.ops.find? P.entry = some 2 ∧ P.st.heap 2 = some o ∧ o.core.dataIn.keys = [i1] := by
    clear hm
    cases h
    refine ⟨?_, ?_, acyclic_of_rank mildRank ?_, ⟨_, rfl, rfl, rfl⟩⟩
    · intro a o ins outs pm ho hk
      match a, ho with
      | 0, ho => cases ho; cases hk
      | 1, ho => cases ho; cases hk
      | 2, ho => cases ho; cases hk; decide
      | 3, ho => cases ho; cases hk
      | n + 4, ho => cases ho
    · intro a o ho
      match a, ho with
      | 0, ho => cases ho; trivial
      | 1, ho => cases ho; exact ⟨by simp, by simp⟩
      | 2, ho => cases ho; trivial
      | 3, ho => cases ho; trivial
      | n + 4, ho => cases ho
    · rintro a b ⟨o, ho, hb⟩
      match a, ho with
      | 0, ho => cases ho; obtain rfl := List.mem_singleton.1 hb; decide
      | 1, ho => cases ho; cases hb
      | 2, ho =>
        cases ho
        rcases List.mem_cons.1 hb with rfl | hb
        · decide
        · obtain rfl := List.mem_singleton.1 hb; decide
      | 3, ho => cases ho; cases hb
      | n + 4, ho => cases ho
  obtain ⟨hp, hq, hac, o, ha, ho, hk⟩ := hall
  obtain ⟨n, hn⟩ := C66_returns_partial h hp hm hq hac ha ho
  exact ⟨n, fun fuel hf calls ms => (hn fuel hf calls [(i1, ms)] (by rw [hk]; exact fun q hq => hq)).2⟩

/-! ## Violations -/

/-- A Demultiplexer, whose control port is fed by the second port of the entry operator. -/
def routing : Json ℚ := .obj [
  (b!"connections", .arr [.obj [(b!"from", .str b!"in"), (b!"fromPort", .str b!"o1"), (b!"to", .str b!"d"), (b!"toPort", .str b!"i1")],
    .obj [(b!"from", .str b!"in"), (b!"fromPort", .str b!"o2"), (b!"to", .str b!"d"), (b!"toPort", .str b!"c1")]]),
  (b!"entryOperator", .str b!"in"),
  (b!"operators", .arr [.obj [(b!"id", .str b!"in"), (b!"numPorts", .uint 2), (b!"type", .str b!"Input")],
    .obj [(b!"id", .str b!"d"), (b!"numPorts", .uint 1), (b!"type", .str b!"Demultiplexer")]])]

/-- C66 is violated: a control message that is neither 0 nor 1 makes a Demultiplexer throw, and so does one with a later time than the waiting data message,
although all messages reach the program on existing ports and in ascending order. -/
theorem C66_violated_demux : (match Prog.initWith (fun _ => (0, 0)) [] routing with
    | .ok P => endings 20 [[(i1, [⟨1, 7⟩])], [(i2, [⟨1, 2⟩])]] P ++ endings 20 [[(i1, [⟨1, 7⟩])], [(i2, [⟨2, 1⟩])]] P
    | .error _ => []) = [.report, .exception, .report, .exception] := by decide +kernel

/-- A Variable, which is queried over two ports. -/
def asking : Json ℚ := .obj [
  (b!"connections", .arr [.obj [(b!"from", .str b!"in"), (b!"fromPort", .str b!"o1"), (b!"to", .str b!"v"), (b!"toPort", .str b!"i1")],
    .obj [(b!"from", .str b!"in"), (b!"fromPort", .str b!"o2"), (b!"to", .str b!"v"), (b!"toPort", .str b!"c1")],
    .obj [(b!"from", .str b!"in"), (b!"fromPort", .str b!"o3"), (b!"to", .str b!"v"), (b!"toPort", .str b!"c1")]]),
  (b!"entryOperator", .str b!"in"),
  (b!"operators", .arr [.obj [(b!"id", .str b!"in"), (b!"numPorts", .uint 3), (b!"type", .str b!"Input")],
    .obj [(b!"id", .str b!"v"), (b!"type", .str b!"Variable"), (b!"value", .uint 0)]])]

/-- C66 is violated: a query with an earlier time than the last one makes a Variable throw. -/
theorem C66_violated_variable : (match Prog.initWith (fun _ => (0, 0)) [] asking with
    | .ok P => endings 20 [[(i1, [⟨1, 1⟩, ⟨5, 1⟩])], [(i2, [⟨5, 1⟩])], [(b!"i3", [⟨3, 1⟩])]] P
    | .error _ => []) = [.report, .report, .exception] := by decide +kernel

/-- A RelativeStrengthIndex over no message, which the schema does not accept but the parser does. -/
def indexing : Json ℚ := .obj [(b!"connections", .arr []), (b!"entryOperator", .str b!"r"),
  (b!"operators", .arr [.obj [(b!"id", .str b!"r"), (b!"n", .uint 0), (b!"type", .str b!"RelativeStrengthIndex")]])]

theorem C66_violated_rsi : (match Prog.initWith (fun _ => (0, 0)) [] indexing with
    | .ok P => endings 20 [[(i1, [⟨1, 1⟩])], [(i1, [⟨2, 1⟩])]] P
    | .error _ => []) = [.report, .exception] := by decide +kernel

end Rtbot
