import Verif.Spec.Sync
import Verif.Spec.Order
import Verif.Spec.Graph
import Verif.Spec.Examples
import Verif.Spec.Flow
import Verif.Spec.Compose
import Verif.Spec.Built

/-! # Specification vocabulary: parts of a program that keep step with one stream -/

namespace Rtbot.Spec
variable {V : Type}

/-- The calls on an operator are in step, at time `t`: every message has the current time, the time only moves on right after an `executeData` (or at the start), and
nothing but data is received. The flag says whether something has been received since the last `executeData`. -/
inductive InStep : List (Act V) → UInt64 → Bool → Prop
  | start (t : UInt64) : InStep [] t false
  | later {as t t'} : InStep as t false → t ≤ t' → InStep as t' false
  | recv {as t b} (p : Str) (m : Msg V) : InStep as t b → m.time = t → InStep (as ++ [.recvData p m]) t true
  | exec {as t b} : InStep as t b → InStep (as ++ [.execData]) t false

/-- The operators that emit at the time of the newest message: those that compute from the last messages of one port, the synchronising ones and Output. -/
def Current : Kind V → Prop
  | .output _ | .filter _ _ | .add _ | .scale _ | .power _ | .constant _ | .identity | .count _ | .cumSum _ | .movAvg | .stdDev | .fir _ | .rsi _ | .function _ _
  | .collector | .join _ | .binary _ | .linear _ => True
  | _ => False

/-- No `executeData` among the calls fails. -/
def ExecOk [Num V] (o : Op V) (as : List (Act V)) : Prop :=
  ∀ pre post, as = pre ++ .execData :: post → ∃ out o', (after o pre).execData = .ok out o'

/-- The operators `D` form a part of the program driven by port `pc` of the operator at `c` alone: what reaches them comes from there or from one of them, over data ports, and all of
them emit at the time of the newest message. -/
structure Clocked (h : Nat → Option (Op V)) (c : Nat) (pc : Str) (D : Nat → Prop) : Prop where
  away : ¬ D c
  source : ∀ a p x, x ∈ connsOf h a p → D x.target → (D a ∨ (a = c ∧ p = pc)) ∧ ∃ o, h x.target = some o ∧ o.core.dataIn.has x.port = true
  kinds : ∀ b o, D b → h b = some o → Current o.kind

/-- A program with a part `D` that is driven by port `pc` of the operator at `c`: it has no cycles, its maps of
connections are in key order, no port is reached by two connections and the entry operator, at `x`, by none. -/
structure Driven [Num V] (P : Prog V) (x : Nat) (ox : Op V) (c : Nat) (pc : Str) (D : Nat → Prop) : Prop where
  ops : ∀ b o, P.st.heap b = some o → Connected o
  maps : ∀ b o, P.st.heap b = some o → o.core.outputs.Sorted
  acyclic : Acyclic P.st.heap
  entry : P.ops.find? P.entry = some x
  there : P.st.heap x = some ox
  one : OneInto P.st.heap x
  part : Clocked P.st.heap c pc D
  outside : ¬ D x

/-- The messages given to the entry operator have increasing times, port by port, and what the operators with times of their own need holds (see C52). -/
structure Ordered [Num V] (P P' : Prog V) (ox : Op V) (calls : List (OpMsg V)) : Prop where
  given : ∀ p, ox.core.dataIn.has p = true → Increasing (givenTo (ox.core.dataIn.length == 1) p (calls.map .receiveDebug))
  own : ∀ evs, P'.st.log = P.st.log ++ evs → ∀ b o, P.st.heap b = some o → OrderCond o.kind (actsOf b evs)

/-- The messages for matched pairs: the times of the first stream, the values by `f` (none where it gives none). -/
def matched (f : V → V → Option V) (as bs : List (Msg V)) : List (Msg V) :=
  (as.zip bs).filterMap fun x => (f x.1.value x.2.value).map fun v => ⟨x.1.time, v⟩

/-- The stream that comes out of port `p` of an operator in the part `D` (or of the clock), given the stream of the clock: operators with one data port apply their stream function,
the synchronising ones match the messages with common times, and Output passes everything on. -/
inductive Flows [Num V] (h : Nat → Option (Op V)) (c : Nat) (pc : Str) (D : Nat → Prop) (input : List (Msg V)) : Nat → Str → List (Msg V) → Prop
  | clock : Flows h c pc D input c pc input
  | step {a b o f ms} {p q : Str} (p' : Str) (ha : Flows h c pc D input a p ms) (hb : D b) (hc : (⟨b, q⟩ : Conn) ∈ connsOf h a p) (ho : h b = some o)
      (hq : o.core.dataIn.keys = [q]) (hf : Computes o q f) : Flows h c pc D input b p' (emittedOn p' (answers f [] ms))
  | binary {b id op w s1 s2} {a1 a2 : Nat} {p1 p2 : Str} (f : V → V → Option V) (h1 : Flows h c pc D input a1 p1 s1) (h2 : Flows h c pc D input a2 p2 s2) (hb : D b)
      (hc1 : (⟨b, i1⟩ : Conn) ∈ connsOf h a1 p1) (hc2 : (⟨b, i2⟩ : Conn) ∈ connsOf h a2 p2) (ho : h b = some (wired (Op.newBinary id op) w)) (hf : ∀ x y, op.eval x y = f x y) :
      Flows h c pc D input b o1 (matched f (atTimes (commonTimes [s1, s2]) s1) (atTimes (commonTimes [s1, s2]) s2))
  | join {b id n o w} {src : Nat → Nat × Str} {ss : Nat → List (Msg V)} (hs : ∀ k, 1 ≤ k → k ≤ n → Flows h c pc D input (src k).1 (src k).2 (ss k)) (hb : D b)
      (hc : ∀ k, 1 ≤ k → k ≤ n → (⟨b, iPort k⟩ : Conn) ∈ connsOf h (src k).1 (src k).2) (hj : Op.newJoin id n = .ok o) (ho : h b = some (wired o w)) {k : Nat} (hk1 : 1 ≤ k) (hk2 : k ≤ n) :
      Flows h c pc D input b (oPort k) (atTimes (commonTimes ((List.range n).map fun j => ss (j + 1))) (ss k))
  | output {b id n o w k ms} {a : Nat} {p : Str} (ha : Flows h c pc D input a p ms) (hb : D b) (hc : (⟨b, iPort k⟩ : Conn) ∈ connsOf h a p) (hj : Op.newOutput id n = .ok o)
      (ho : h b = some (wired o w)) (hk1 : 1 ≤ k) (hk2 : k ≤ n) : Flows h c pc D input b (oPort k) ms

end Rtbot.Spec
