import Verif.Spec.Program

/-! # Specification vocabulary for composed programs -/

namespace Rtbot.Spec
variable {V : Type} [Num V]

omit [Num V] in
/-- Output port `p` of the operator at `a` feeds data port `q` of the operator at `b`; no other connection leads to `b`, which is no
inner operator either, and no cycle passes through `a`. Apart from this the graph is arbitrary. -/
structure Wire (h : Nat → Option (Op V)) (a : Nat) (p : Str) (b : Nat) (q : Str) : Prop where
  source : ∃ o, h a = some o ∧ Simple o
  target : ∃ t, h b = some t ∧ Simple t ∧ t.core.dataIn.has q = true
  sole : ∀ x, Edge h x b → x = a
  once : ∀ p', (connsOf h a p').filter (fun c => c.target = b) = if p' = p then [⟨b, q⟩] else []
  noBack : ∀ x, Edge h a x → ¬ Reach h x a

/-- What the method calls of an operator that receives the messages `ms` on data port `q`, and nothing else, are: every message is
received and then executed. -/
def inTurn (q : Str) (ms : List (Msg V)) : List (Act V) := ms.flatMap fun m => [.recvData q m, .execData]

/-- The calls a program makes on its entry operator: port after port, message after message. -/
def handed (calls : List (OpMsg V)) : List (Act V) := calls.flatMap fun msgs => msgs.flatMap fun e => inTurn e.1 e.2

/-- The messages for port `p` in the results of a sequence of calls. -/
def collected (p : Str) (rs : List (Except Err (OpMsg V))) : List (Msg V) :=
  rs.flatMap fun
    | .ok out => msgsOn p out
    | .error _ => []

/-- The stream that comes out of port `p` of the operator at an address, given the stream that enters the program: the composition
of the functions computed by the operators on the way from the entry. -/
inductive Yields (h : Nat → Option (Op V)) (entry : Nat) (p0 : Str) (input : List (Msg V)) : Nat → Str → List (Msg V) → Prop
  | entry {o f} (p : Str) (ho : h entry = some o) (hf : Computes o p0 f) : Yields h entry p0 input entry p (emittedOn p (answers f [] input))
  | next {a b o f ms} {p q : Str} (p' : Str) (ha : Yields h entry p0 input a p ms) (w : Wire h a p b q) (ho : h b = some o)
      (hf : Computes o q f) : Yields h entry p0 input b p' (emittedOn p' (answers f [] ms))

end Rtbot.Spec
