import Verif.Spec.Create
import Verif.Spec.Codec

/-! # Specification vocabulary for snapshots of programs -/

namespace Rtbot.Spec
variable {V : Type} [Num V]

/-- Results and errors can be compared. -/
instance {ε α : Type} [DecidableEq ε] [DecidableEq α] : DecidableEq (Except ε α)
  | .ok a, .ok b => decidable_of_iff (a = b) ⟨fun h => h ▸ rfl, fun h => Except.ok.inj h⟩
  | .error a, .error b => decidable_of_iff (a = b) ⟨fun h => h ▸ rfl, fun h => Except.error.inj h⟩
  | .ok _, .error _ => isFalse fun h => (by cases h)
  | .error _, .ok _ => isFalse fun h => (by cases h)

/-- A call that gives messages to a program. -/
inductive Feed (V : Type)
  | receive (msgs : OpMsg V)
  | receiveDebug (msgs : OpMsg V)

/-- The call on a program. -/
def Feed.on (fuel : Nat) (P : Prog V) : Feed V → Res (Prog V) (ProgMsg V)
  | .receive msgs => P.receive fuel msgs
  | .receiveDebug msgs => P.receiveDebug fuel msgs

/-- The program after a sequence of calls (exceptions are caught by the caller, who goes on). -/
def afterCalls (fuel : Nat) (P : Prog V) : List (Feed V) → Prog V
  | [] => P
  | c :: cs => match c.on fuel P with
    | .ok _ P' => afterCalls fuel P' cs
    | .err _ P' => afterCalls fuel P' cs

/-- What a sequence of calls returns or throws. -/
def replies (fuel : Nat) (P : Prog V) : List (Feed V) → List (Except Err (ProgMsg V))
  | [] => []
  | c :: cs => match c.on fuel P with
    | .ok r P' => .ok r :: replies fuel P' cs
    | .err e P' => .error e :: replies fuel P' cs

omit [Num V] in
/-- All sizes in the program can be stored in a `size_t` (always the case for objects in memory). -/
structure ProgFits (P : Prog V) : Prop where
  json : Word P.json.length
  ids : ∀ id a, P.ops.find? id = some a → Word id.length
  ops : ∀ a o, P.st.heap a = some o → Fits o

omit [Num V] in
/-- The program contains no RelativeStrengthIndex. -/
def NoRsi (P : Prog V) : Prop := ∀ a o, P.st.heap a = some o → ∀ x, o.kind ≠ .rsi x

end Rtbot.Spec
