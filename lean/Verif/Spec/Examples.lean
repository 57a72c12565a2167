import Verif.Model.Program
import Verif.Spec.Exact

/-! # Small programs used in the examples beside the theorems -/

namespace Rtbot.Spec

instance : DecidableEq (OpMsg ℚ) := inferInstance
instance : DecidableEq (ProgMsg ℚ) :=
  let _ : DecidableEq (Str × OpMsg ℚ) := instDecidableEqProd
  fun a b => instDecidableEqList a b

variable {V : Type} [Num V]

omit [Num V] in
/-- The heap holding the listed operators at addresses 0, 1, … -/
def heapOf (l : List (Op V)) : Nat → Option (Op V) := fun a => l[a]?

omit [Num V] in
/-- The operator with the given connections. -/
def wired (o : Op V) (outputs : Map (List Conn)) : Op V := { o with core := { o.core with outputs := outputs } }

omit [Num V] in
/-- A program with the listed operators; the first one is the entry. -/
def progOf (l : List (Op V)) (filter : Map (List Str)) : Prog V :=
  { json := [], ops := [([97], 0)], entry := [97], filter := filter, st := ⟨heapOf l, 0, []⟩ }

omit [Num V] in
/-- The report of a call; `none` for a failed one. -/
def reportOf {σ α : Type} : Res σ α → Option α
  | .ok r _ => some r
  | .err _ _ => none

/-- a → b (+1), a → c (×2), b and c → d (difference b − c). -/
def diamond (filter : Map (List Str)) : Prog ℚ :=
  progOf [wired (Op.newIdentity [97]) [(o1, [⟨1, i1⟩, ⟨2, i1⟩])], wired (Op.newAdd [98] 1) [(o1, [⟨3, i1⟩])],
    wired (Op.newScale [99] 2) [(o1, [⟨3, i2⟩])], Op.newBinary [100] .minus] filter

/-- a feedback loop: a → b (+1) → c (only values below 3) → b. -/
def loop : Prog ℚ :=
  progOf [wired (Op.newIdentity [97]) [(o1, [⟨1, i1⟩])], wired (Op.newAdd [98] 1) [(o1, [⟨2, i1⟩])],
    wired (Op.newFilter [99] .lessThan 3) [(o1, [⟨1, i1⟩])]] []

end Rtbot.Spec
