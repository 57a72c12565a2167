import Verif.Spec.Copy
import Verif.Spec.Stream
import Verif.Spec.Examples

/-! # Spec: a program cut behind its entry -/

namespace Rtbot.Spec
variable {V : Type} [Num V]

/-- `Q` has an Identity in the place of the entry of `P`, with the same id and the same connections, and from there on the operators of `P`. -/
structure CutAt (φ : Nat → Nat) (D : Nat → Prop) (a b : Nat) (o : Op V) (P Q : Prog V) : Prop where
  /-- the entry computes by itself and has an output port -/
  simple : Simple o
  port : o.core.outIds.contains o1 = true
  entry : P.ops.find? P.entry = some a
  entry' : Q.ops.find? Q.entry = some b
  here : P.st.heap a = some o
  there : Q.st.heap b = some (wired (Op.newIdentity o.core.id) (moveConns φ o.core.outputs))
  /-- the operators behind the entry, among which it is not -/
  rest : Contains φ D P.st.heap Q.st.heap
  behind : ∀ c ∈ nexts o, D c
  apart : ¬ D a
  apart' : ∀ d, D d → φ d ≠ b

/-- What the operator emits on "o1" in answer to each batch, when it answers them all and emits on no other port. -/
inductive OutBatches : Op V → Str → List (List (Msg V)) → List (List (Msg V)) → Prop
  | nil {o : Op V} {p : Str} : OutBatches o p [] []
  | cons {o o' : Op V} {p : Str} {ms : List (Msg V)} {mss outs : List (List (Msg V))} {out : List (OpMsg V)} : feedOp o p ms = .ok out o' →
      (∀ x ∈ out, x = [] ∨ ∃ l, x = [(o1, l)]) → OutBatches o' p mss outs → OutBatches o p (ms :: mss) (emittedOn o1 out :: outs)

/-- The entry of `P` is an Identity that does nothing but hand its messages to the port `q` of the operator at `c`, and `Q` has that operator as its entry. -/
structure Headed (φ : Nat → Nat) (D : Nat → Prop) (b c : Nat) (id q : Str) (P Q : Prog V) : Prop where
  entry : P.ops.find? P.entry = some b
  entry' : Q.ops.find? Q.entry = some (φ c)
  here : P.st.heap b = some (wired (Op.newIdentity id) [(o1, [⟨c, q⟩])])
  there : ∃ t, P.st.heap c = some t ∧ t.core.isData q = true
  rest : Contains φ D P.st.heap Q.st.heap
  inside : D c
  apart : ¬ D b

/-- The same failure, or reports that differ only in what they list for the operator with the given id. -/
def SameBut (id : Str) : Except Err (List (ProgMsg V)) → Except Err (List (ProgMsg V)) → Prop
  | .ok rs, .ok rs' => List.Forall₂ (fun r r' => ∀ id', id' ≠ id → ∀ p, listed r id' p = listed r' id' p) rs rs'
  | .error e, .error e' => e = e'
  | _, _ => False

end Rtbot.Spec
