import Verif.Model.Factory
import Verif.Spec.Program

/-! # Specification vocabulary for the registry of programs -/

namespace Rtbot.Spec
variable {V : Type} [Num V]

omit [Num V] in
/-- The program a call names. -/
def Req.id : Req V → Str
  | .serialize id | .createBytes _ id _ | .createJson _ id _ | .createChecked _ id _ | .delete id | .add id _ _ | .processBuffer _ id
  | .processMap _ id _ | .batch _ id _ _ _ | .entryId id | .entryPorts id | .outputFilter id => id

omit [Num V] in
/-- The call creates a program. -/
def Req.creates : Req V → Bool
  | .createBytes .. | .createJson .. | .createChecked .. => true
  | _ => false

omit [Num V] in
/-- What the caller sees: a value or an error. -/
def outcome {σ α : Type} : Res σ α → Except Err α
  | .ok a _ => .ok a
  | .err e _ => .error e

/-- The registry after a sequence of calls; exceptions are caught by the caller, who goes on. -/
def served (env : Env V) (F : Factory V) : List (Req V) → Factory V
  | [] => F
  | r :: rs => served env (F.serve env r).state rs

/-- The outcomes of a sequence of calls. -/
def outcomes (env : Env V) (F : Factory V) : List (Req V) → List (Except Err (Reply V))
  | [] => []
  | r :: rs => outcome (F.serve env r) :: outcomes env (F.serve env r).state rs

/-- The outcomes of those calls of a sequence that name the program `b`. -/
def outcomesOf (env : Env V) (b : Str) (F : Factory V) : List (Req V) → List (Except Err (Reply V))
  | [] => []
  | r :: rs =>
    if Req.id r = b then outcome (F.serve env r) :: outcomesOf env b (F.serve env r).state rs
    else outcomesOf env b (F.serve env r).state rs

omit [Num V] in
/-- The call returned a value. -/
def worked {σ α : Type} : Res σ α → Bool
  | .ok _ _ => true
  | .err _ _ => false

/-- The messages waiting on a port of a program after one more call: accepted messages queue up, successful processing takes them all. -/
def waitingStep (env : Env V) (id port : Str) (F : Factory V) (ms : List (Msg V)) : Req V → List (Msg V)
  | .add i p m => if i = id ∧ p = port ∧ (F.programs.find? id).isSome then ms ++ [m] else ms
  | .processBuffer d i => if i = id ∧ worked (F.serve env (.processBuffer d i)) then [] else ms
  | .batch d i ts vs ps =>
    if i = id ∧ (F.programs.find? id).isSome ∧ ts.length = vs.length ∧ vs.length = ps.length then
      if worked (F.serve env (.batch d i ts vs ps)) then []
      else ms ++ ((ts.zip (vs.zip ps)).filter fun x => x.2.2 = port).map fun x => ⟨x.1, x.2.1⟩
    else ms
  | _ => ms

/-- The messages waiting on a port of a program after a sequence of calls. -/
def waiting (env : Env V) (id port : Str) (F : Factory V) (ms : List (Msg V)) : List (Req V) → List (Msg V)
  | [] => ms
  | r :: rs => waiting env id port (F.serve env r).state (waitingStep env id port F ms r) rs

/-- The messages of a batch given to the program one at a time. -/
def singly (debug : Bool) (fuel : Nat) : List (UInt64 × V × Str) → Prog V → Res (Prog V) (List (ProgMsg V))
  | [], P => .ok [] P
  | (t, v, port) :: rest, P =>
    match P.answer debug fuel [(port, [⟨t, v⟩])] with
    | .err e P' => .err e P'
    | .ok r P' =>
      match singly debug fuel rest P' with
      | .err e P'' => .err e P''
      | .ok rs P'' => .ok (r :: rs) P''

omit [Num V] in
/-- The ports of the batch are in nondecreasing order. -/
def PortOrder (l : List (UInt64 × V × Str)) : Prop := l.Pairwise fun a b => strLt b.2.2 a.2.2 = false

omit [Num V] in
/-- The same messages for every port, in the same order. -/
def SamePerPort (l l' : List (UInt64 × V × Str)) : Prop := ∀ q, (l.filter fun e => e.2.2 = q) = l'.filter fun e => e.2.2 = q

omit [Num V] in
/-- How a call naming an unknown program must answer. -/
def unknownAnswer : Req V → Except Err (Reply V)
  | .processMap _ _ _ => .ok (.report [])
  | .delete _ => .ok (.flag false)
  | _ => .error (.exc .runtime)

deriving instance DecidableEq for Reply

end Rtbot.Spec
