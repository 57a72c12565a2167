import Verif.Spec.Lockstep

/-! # Specification vocabulary: programs in which every message is executed before the next -/

namespace Rtbot.Spec
variable {V : Type}

/-- Among the calls on an operator, between two messages for the same port there is an `executeData`. The list holds the ports with a message since the last `executeData`; nothing but
data is received. -/
inductive Singly : List (Act V) → List Str → Prop
  | start : Singly [] []
  | recv {as fs} (p : Str) (m : Msg V) : Singly as fs → p ∉ fs → Singly (as ++ [.recvData p m]) (p :: fs)
  | exec {as fs} : Singly as fs → Singly (as ++ [.execData]) []

/-- Every time of the first stream is one of the second. -/
def TimesIn (s s' : List (Msg V)) : Prop := ∀ x ∈ s, hasTime x.time s' = true

/-- Every connection to the operator at `b` leads to one of its data ports. -/
def OnlyData (h : Nat → Option (Op V)) (b : Nat) : Prop :=
  ∀ a p c, c ∈ connsOf h a p → c.target = b → ∃ o, h b = some o ∧ o.core.dataIn.has c.port = true

/-- A program without cycles whose maps of connections are in key order; no port is reached by two connections and the entry operator, at `x`, by none. -/
structure Plain [Num V] (P : Prog V) (x : Nat) (ox : Op V) : Prop where
  ops : ∀ b o, P.st.heap b = some o → Connected o
  maps : ∀ b o, P.st.heap b = some o → o.core.outputs.Sorted
  acyclic : Acyclic P.st.heap
  entry : P.ops.find? P.entry = some x
  there : P.st.heap x = some ox
  one : OneInto P.st.heap x

/-- The stream that comes out of a port, given the stream that comes out of port `pc` of the operator at `c`: operators with one data port apply their stream function, Output passes
everything on, and the synchronising ones match the messages with common times, provided that the times of one of their streams occur in all the others. -/
inductive Streams [Num V] (h : Nat → Option (Op V)) (x c : Nat) (pc : Str) (input : List (Msg V)) : Nat → Str → List (Msg V) → Prop
  | source : Streams h x c pc input c pc input
  | step {a b o f ms} {p q : Str} (p' : Str) (ha : Streams h x c pc input a p ms) (hc : (⟨b, q⟩ : Conn) ∈ connsOf h a p) (hd : OnlyData h b) (ho : h b = some o)
      (hq : o.core.dataIn.keys = [q]) (hf : Computes o q f) : Streams h x c pc input b p' (emittedOn p' (answers f [] ms))
  | binary {b id op w s1 s2} {a1 a2 : Nat} {p1 p2 : Str} (f : V → V → Option V) (h1 : Streams h x c pc input a1 p1 s1) (h2 : Streams h x c pc input a2 p2 s2)
      (hc1 : (⟨b, i1⟩ : Conn) ∈ connsOf h a1 p1) (hc2 : (⟨b, i2⟩ : Conn) ∈ connsOf h a2 p2) (hd : OnlyData h b) (ho : h b = some (wired (Op.newBinary id op) w))
      (hf : ∀ x y, op.eval x y = f x y) (hs : TimesIn s1 s2 ∨ TimesIn s2 s1) :
      Streams h x c pc input b o1 (matched f (atTimes (commonTimes [s1, s2]) s1) (atTimes (commonTimes [s1, s2]) s2))
  | join {b id n o w} {src : Nat → Nat × Str} {ss : Nat → List (Msg V)} (hs : ∀ k, 1 ≤ k → k ≤ n → Streams h x c pc input (src k).1 (src k).2 (ss k))
      (hc : ∀ k, 1 ≤ k → k ≤ n → (⟨b, iPort k⟩ : Conn) ∈ connsOf h (src k).1 (src k).2) (hd : OnlyData h b) (hj : Op.newJoin id n = .ok o) (ho : h b = some (wired o w))
      {j : Nat} (hj1 : 1 ≤ j) (hj2 : j ≤ n) (ht : ∀ k, 1 ≤ k → k ≤ n → TimesIn (ss j) (ss k)) {k : Nat} (hk1 : 1 ≤ k) (hk2 : k ≤ n) :
      Streams h x c pc input b (oPort k) (atTimes (commonTimes ((List.range n).map fun j => ss (j + 1))) (ss k))
  | output {b id n o w k ms} {a : Nat} {p : Str} (ha : Streams h x c pc input a p ms) (hc : (⟨b, iPort k⟩ : Conn) ∈ connsOf h a p) (hd : OnlyData h b)
      (hj : Op.newOutput id n = .ok o) (ho : h b = some (wired o w)) (hk1 : 1 ≤ k) (hk2 : k ≤ n) : Streams h x c pc input b (oPort k) ms

end Rtbot.Spec
