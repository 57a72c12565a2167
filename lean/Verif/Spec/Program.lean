import Verif.Model.Program
import Verif.Spec.Graph

/-! # Specification vocabulary for programs -/

namespace Rtbot.Spec
variable {V : Type} [Num V]

/-- Consecutive calls of `receiveDebug`, each with the messages `ms` for port `p`; the reports in call order. -/
def debugCalls (fuel : Nat) (p : Str) : List (List (Msg V)) → Prog V → Res (Prog V) (List (ProgMsg V))
  | [], P => .ok [] P
  | ms :: mss, P =>
    match P.receiveDebug fuel [(p, ms)] with
    | .err e P' => .err e P'
    | .ok r P' =>
      match debugCalls fuel p mss P' with
      | .err e P'' => .err e P''
      | .ok rs P'' => .ok (r :: rs) P''

/-- Consecutive calls of `receive`. -/
def calls (fuel : Nat) (p : Str) : List (List (Msg V)) → Prog V → Res (Prog V) (List (ProgMsg V))
  | [], P => .ok [] P
  | ms :: mss, P =>
    match P.receive fuel [(p, ms)] with
    | .err e P' => .err e P'
    | .ok r P' =>
      match calls fuel p mss P' with
      | .err e P'' => .err e P''
      | .ok rs P'' => .ok (r :: rs) P''

omit [Num V] in
/-- A report lists an operator only with ports, a port only with messages, both in key order and without repetition. -/
def NoEmptyEntries (r : ProgMsg V) : Prop :=
  r.keys.Pairwise (fun a b => strLt a b = true) ∧
  ∀ id x, r.find? id = some x → x ≠ [] ∧ x.keys.Pairwise (fun a b => strLt a b = true) ∧
    ∀ p ms, x.find? p = some ms → ms ≠ []

/-- Consecutive calls of `receiveDebug`; the reports in call order. -/
def debugRun (fuel : Nat) : List (OpMsg V) → Prog V → Res (Prog V) (List (ProgMsg V))
  | [], P => .ok [] P
  | msgs :: rest, P =>
    match P.receiveDebug fuel msgs with
    | .err e P' => .err e P'
    | .ok r P' =>
      match debugRun fuel rest P' with
      | .err e P'' => .err e P''
      | .ok rs P'' => .ok (r :: rs) P''

omit [Num V] in
/-- The output filter lets port `p` of operator `id` pass: it is empty, or it lists them. -/
def Passes (f : Map (List Str)) (id p : Str) : Prop := f = [] ∨ ∃ ps, f.find? id = some ps ∧ p ∈ ps

omit [Num V] in
/-- The output filter names each operator once (in key order, as a `std::map`) and each port of it once. -/
def PlainFilter (f : Map (List Str)) : Prop :=
  f.keys.Pairwise (fun a b => strLt a b = true) ∧ ∀ id ps, f.find? id = some ps → ps.Nodup

end Rtbot.Spec
