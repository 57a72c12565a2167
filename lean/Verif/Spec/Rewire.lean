import Verif.Spec.Compose
import Verif.Spec.Examples

/-! # Specification vocabulary: the same connections in another order -/

namespace Rtbot.Spec
variable {V : Type}

/-- The same ports with the same connections, in another order. -/
def SameConns (w w' : Map (List Conn)) : Prop := List.Forall₂ (fun e e' => e.1 = e'.1 ∧ e.2.Perm e'.2) w w'

/-- The same operators, connected in another order. -/
def Rewired (h h' : Nat → Option (Op V)) : Prop :=
  ∀ a, match h a, h' a with
    | none, none => True
    | some o, some o' => ∃ w, o' = wired o w ∧ SameConns o.core.outputs w
    | _, _ => False

/-- a → b (+1) → c and a → c, with the two connections of a in the given order. -/
def shortcut (conns : List Conn) : Prog ℚ :=
  progOf [wired (Op.newIdentity [97]) [(o1, conns)], wired (Op.newAdd [98] 1) [(o1, [⟨2, i1⟩])], Op.newIdentity [99]] []

end Rtbot.Spec
