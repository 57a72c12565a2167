import Verif.Spec.Graph
import Verif.Spec.Create
import Verif.Spec.ReceiveRun

/-! # Spec: one heap of operators contains a copy of a part of another one -/

namespace Rtbot.Spec
variable {V : Type}

/-- The connections with their targets at other addresses. -/
def moveConns (φ : Nat → Nat) (outs : Map (List Conn)) : Map (List Conn) := outs.map fun e => (e.1, e.2.map fun c => ⟨φ c.target, c.port⟩)

/-- A Composite or Pipeline with its inner operators at other addresses. -/
def moveKind (φ : Nat → Nat) : Kind V → Kind V
  | .composite i q => .composite (i.map φ) (q.map φ)
  | .pipeline ins outs pm => .pipeline (ins.map fun e => (e.1, φ e.2)) (outs.map fun e => (e.1, φ e.2)) pm
  | k => k

/-- The same operator, with all operators it points to at other addresses. -/
def copied (φ : Nat → Nat) (o : Op V) : Op V := ⟨{ o.core with outputs := moveConns φ o.core.outputs }, moveKind φ o.kind⟩

/-- The operators in `S` of the heap `h` are in the heap `h'` too, at the addresses that `φ` gives; they only point to each other. -/
structure Contains (φ : Nat → Nat) (S : Nat → Prop) (h h' : Nat → Option (Op V)) : Prop where
  apart : ∀ a b, S a → S b → φ a = φ b → a = b
  ops : ∀ a, S a → ∃ o, h a = some o ∧ h' (φ a) = some (copied φ o)
  closed : ∀ a o b, S a → h a = some o → b ∈ nexts o → S b

/-- What became of a call: the answer, or how it failed. -/
def answer {σ α : Type} : Res σ α → Except Err α
  | .ok r _ => .ok r
  | .err e _ => .error e

/-- No two of the descriptions have the same id. -/
def DistinctIds (xs : List (Json V)) : Prop := xs.Pairwise fun x y => ∀ k, HasId x k → ¬ HasId y k

/-- A list with further entries put in anywhere, for which `other` holds. -/
inductive Inserted {α : Type} (other : α → Prop) : List α → List α → Prop
  | nil : Inserted other [] []
  | keep {x : α} {xs ys : List α} : Inserted other xs ys → Inserted other (x :: xs) (x :: ys)
  | extra {x : α} {xs ys : List α} : other x → Inserted other xs ys → Inserted other xs (x :: ys)

/-- The description of a connection that comes from none of these operators. -/
def FromElsewhere (xs : List (Json V)) (c : Json V) : Prop := ∀ k, Member c b!"from" (.str k) → ∀ x ∈ xs, ¬ HasId x k

end Rtbot.Spec
