import Verif.Spec.Program

/-! # Spec: a sequence of calls of `receive` -/

namespace Rtbot.Spec
variable {V : Type} [Num V]

/-- A sequence of calls of `receive`; the replies in order. -/
def receiveRun (fuel : Nat) : List (OpMsg V) → Prog V → Res (Prog V) (List (ProgMsg V))
  | [], P => .ok [] P
  | msgs :: rest, P =>
    match P.receive fuel msgs with
    | .err e P' => .err e P'
    | .ok r P' =>
      match receiveRun fuel rest P' with
      | .err e P'' => .err e P''
      | .ok rs P'' => .ok (r :: rs) P''

end Rtbot.Spec
