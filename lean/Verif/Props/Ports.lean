import Verif.Lemmas.Built
import Verif.Lemmas.Connect
import Verif.Props.Terminate

set_option linter.unusedSectionVars false

/-! # C34: programs never hit missing ports -/

namespace Rtbot
variable {V : Type} [Num V]
open Spec

/-- The state after a history of calls; the caller goes on after exceptions. -/
def Spec.history (fuel : Nat) (calls : List (OpMsg V)) (P : Prog V) : Prog V :=
  calls.foldl (fun P msgs => (P.receiveDebug fuel msgs).state) P

/-! ## Connecting -/

/-- C34: `connect` reports success only when it has added one connection from an existing output port to an existing input port, the
ports being the ones named or, where none is named, deduced. Nothing else changes. -/
theorem C34_connect {c child c' : Core V} {t : Nat} {op ip : Str} (h : c.connect child t op ip = .ok (some c')) :
    ∃ p q cs, p ∈ c.outIds ∧ (q ∈ child.dataIn.keys ∨ q ∈ child.ctrlIn.keys) ∧ (op = [] ∨ p = op) ∧ (ip = [] ∨ q = ip) ∧
      c' = { c with outputs := c.outputs.put p (cs ++ [⟨t, q⟩]) } ∧ (cs = [] ∧ Map.find? c.outputs p = none ∨ Map.find? c.outputs p = some cs) :=
  connect_spec h

/-- Two identities: the empty names are resolved. -/
example : (Core.simple [97] 1 : Core ℚ).connect (Core.simple [98] 1) 7 [] [] =
    .ok (some { (Core.simple [97] 1 : Core ℚ) with outputs := [(o1, [⟨7, i1⟩])] }) := rfl
/-- A port the child does not have: no connection is made. -/
example : (Core.simple [97] 1 : Core ℚ).connect (Core.simple [98] 1) 7 o1 i2 = .ok none := rfl

/-- C34: a call of `connect` on operators in the heap keeps all connections valid, whatever the ports given and whether it succeeds
or not. -/
theorem C34_connections {s : St V} (h : ConnsOK s.heap) (a b : Nat) (op ip : Str) : ConnsOK (connectOp a b op ip s).state.heap :=
  connectOp_conns h a b op ip

/-! ## Running -/

theorem after_ports {o : Op V} (h : PortsOK o) (hw : o.core.WF) (as : List (Act V)) : PortsOK (after o as) := by
  induction as generalizing o with
  | nil => exact h
  | cons x as ih =>
    have hf := act_fresh o hw x
    exact ih (h.act hw x) (Core.WF.of_fresh (congrArg Op.core hf) hw)

theorem Fine.steps {h0 : Nat → Option (Op V)} {S : Nat → Prop} {s s' : St V} (h : Fine h0 s) (st : Steps S s s') : Fine h0 s' := by
  refine ⟨h.shape.trans st.shape, ?_, ?_, st.shape.wf h.wf⟩
  · intro b o ho
    obtain ⟨o1, k1, k2⟩ := st.shape.get' ho
    exact (simple_of_fresh k2).1 (h.simple b o1 k1)
  · intro b o ho
    obtain ⟨o1, k1, k2⟩ := st.shape.get' ho
    obtain ⟨evs, _, _, h3, _⟩ := st.trace
    have := h3 b o1 k1 (h.simple b o1 k1)
    rw [ho] at this
    cases this
    exact after_ports (h.ports b o1 k1) (h.wf b o1 k1) _

theorem receiveDebug_fine {h0 : Nat → Option (Op V)} {P : Prog V} (h : Fine h0 P.st) (fuel : Nat) (msgs : OpMsg V) :
    Fine h0 (P.receiveDebug fuel msgs).state.st :=
  h.steps (receiveDebug_steps (S := Any) (ctx_any h.wf) fun _ _ => trivial)

theorem history_fine {h0 : Nat → Option (Op V)} (fuel : Nat) (calls : List (OpMsg V)) : ∀ {P : Prog V}, Fine h0 P.st →
    Fine h0 (history fuel calls P).st ∧ (history fuel calls P).ops = P.ops ∧ (history fuel calls P).entry = P.entry := by
  induction calls with
  | nil => intro P h; exact ⟨h, rfl, rfl⟩
  | cons m calls ih =>
    intro P h
    obtain ⟨h1, h2, h3⟩ := ih (receiveDebug_fine h fuel m)
    obtain ⟨_, e1, e2, _⟩ := receiveDebug_frame (fuel := fuel) (P := P) (msgs := m)
    exact ⟨h1, h2.trans e1, h3.trans e2⟩

/-- C34: after any history of calls, also ones naming missing ports, a call whose messages name data ports of the entry operator never
ends with a "non existing port" error, from whichever operator: the program consists of operators as the constructors build them,
connected in any way. -/
theorem C34_run {P : Prog V} (h : ∀ b o, P.st.heap b = some o → Connected o) (fuel : Nat) (calls : List (OpMsg V)) {a : Nat} {o : Op V}
    (ha : P.ops.find? P.entry = some a) (ho : P.st.heap a = some o) (msgs : OpMsg V) (hm : ∀ q ∈ msgs.keys, q ∈ o.core.dataIn.keys) (P' : Prog V) :
    (history fuel calls P).receiveDebug fuel msgs ≠ .err (.exc .badPort) P' ∧
    (history fuel calls P).receive fuel msgs ≠ .err (.exc .badPort) P' := by
  obtain ⟨h1, h2, h3⟩ := history_fine fuel calls (fine_start h)
  have key : ∀ P', (history fuel calls P).receiveDebug fuel msgs ≠ .err (.exc .badPort) P' := by
    intro P'
    unfold Prog.receiveDebug
    rw [h2, h3, ha]
    dsimp only
    have := (kp_feedAll (h0 := P.st.heap) fuel a msgs (fun q hq o' ho' => by
      rw [ho] at ho'; cases ho'; exact (Map.has_iff _ _).2 (hm q hq)) _ h1).2
    intro hc
    cases hx : feedAll fuel a msgs (history fuel calls P).st with
    | ok r s => rw [hx] at hc; cases hc
    | err e s =>
      rw [hx] at hc
      simp only [Res.err.injEq] at hc
      rw [hc.1] at hx
      exact this _ hx
  refine ⟨key P', ?_⟩
  unfold Prog.receive
  intro hc
  cases hx : (history fuel calls P).receiveDebug fuel msgs with
  | ok r s => rw [hx] at hc; cases hc
  | err e s =>
    rw [hx] at hc
    simp only [Res.err.injEq] at hc
    rw [hc.1] at hx
    exact key _ hx

/-! ### A case -/

theorem diamond_connected (f : Map (List Str)) : ∀ b o, (diamond f).st.heap b = some o → Connected o := by
  intro b o ho
  have := List.mem_of_getElem? ho
  simp only [List.mem_cons, List.not_mem_nil, or_false] at this
  rcases this with rfl | rfl | rfl | rfl
  · exact ⟨_, _, .identity _, rfl⟩
  · exact ⟨_, _, .add _ _, rfl⟩
  · exact ⟨_, _, .scale _ _, rfl⟩
  · exact ⟨_, _, .binary _ _, rfl⟩

/-- The diamond, after a call naming a port that does not exist, still answers on its port. -/
example (f : Map (List Str)) (ms : List (Msg ℚ)) (P' : Prog ℚ) :
    (history 9 [[([120], [⟨1, 1⟩])]] (diamond f)).receive 9 [(i1, ms)] ≠ .err (.exc .badPort) P' :=
  (C34_run (diamond_connected f) 9 _ (a := 0) rfl rfl _ (by intro q hq; exact hq) P').2

/-- The error does occur for a port that does not exist. -/
example : ∃ P', (diamond []).receive 9 [([120], [⟨1, 1⟩])] = .err (.exc .badPort) P' := ⟨_, rfl⟩

end Rtbot
