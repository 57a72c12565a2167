import Verif.Model.Engine
import Verif.Spec.Stream

/-! # Specification vocabulary for programs: connections, the log of a call -/

namespace Rtbot.Spec
variable {V : Type}

/-- The operators an operator hands messages to: the targets of its connections and, for Composite and Pipeline, the inner
operators they forward to. -/
def nexts (o : Op V) : List Nat :=
  o.core.outputs.flatMap (fun e => e.2.map Conn.target) ++
    match o.kind with
    | .composite i _ => i.toList
    | .pipeline inputs _ _ => inputs.map (·.2)
    | _ => []

/-- `b` is directly downstream of `a`. -/
def Edge (h : Nat → Option (Op V)) (a b : Nat) : Prop := ∃ o, h a = some o ∧ b ∈ nexts o

/-- `b` is `a` or downstream of `a`. -/
inductive Reach (h : Nat → Option (Op V)) (a : Nat) : Nat → Prop
  | refl : Reach h a a
  | step {b c : Nat} : Reach h a b → Edge h b c → Reach h a c

/-- Operators that compute by themselves, i.e. anything but Composite and Pipeline. -/
def Simple (o : Op V) : Prop :=
  match o.kind with
  | .composite _ _ | .pipeline _ _ _ => False
  | _ => True

/-- No operator is downstream of itself. -/
def Acyclic (h : Nat → Option (Op V)) : Prop := ∀ a b, Edge h a b → ¬ Reach h b a

/-- No call on one of the simple operators diverges, in any state that calls can lead to. -/
def StepsEnd [Num V] (h : Nat → Option (Op V)) : Prop :=
  ∀ b o, h b = some o → Simple o → ∀ as, ∀ r ∈ results o as, r ≠ .error .diverge

/-- The operator an event concerns. -/
def addr : Ev V → Nat
  | .emit _ a _ _ _ => a
  | .recv _ a _ _ _ => a
  | .exec a _ => a

/-- The method call on operator `b` an event stands for. -/
def actOf (b : Nat) : Ev V → Option (Act V)
  | .emit _ _ _ _ _ => none
  | .recv _ a p false m => if a = b then some (.recvData p m) else none
  | .recv _ a p true m => if a = b then some (.recvCtrl p m) else none
  | .exec a false => if a = b then some .execData else none
  | .exec a true => if a = b then some .execCtrl else none

/-- The calls made on operator `b`, in order. -/
def actsOf (b : Nat) (evs : List (Ev V)) : List (Act V) := evs.filterMap (actOf b)

/-! ## Emissions and deliveries -/

/-- The messages listed in a report for operator id `id` and port `p`. -/
def listed (r : ProgMsg V) (id p : Str) : List (Msg V) :=
  match r.find? id with
  | some x => msgsOn p x
  | none => []

/-- The messages emitted by operators with id `id` on port `p` at pipeline depth `d`, in order. -/
def emitted (d : Nat) (id p : Str) (evs : List (Ev V)) : List (Msg V) :=
  evs.filterMap fun
    | .emit d' _ id' p' m => if d' = d ∧ id' = id ∧ p' = p then some m else none
    | _ => none

/-- The messages emitted by the operator at address `a` on port `p`, in order. -/
def emittedBy (a : Nat) (p : Str) (evs : List (Ev V)) : List (Msg V) :=
  evs.filterMap fun
    | .emit _ a' _ p' m => if a' = a ∧ p' = p then some m else none
    | _ => none

/-- The messages handed to input port `q` of `b` over connections from output port `p` of `a`, in order. -/
def deliveredFrom (a : Nat) (p : Str) (b : Nat) (q : Str) (evs : List (Ev V)) : List (Msg V) :=
  evs.filterMap fun
    | .recv (some src) b' q' _ m => if src = (a, p) ∧ b' = b ∧ q' = q then some m else none
    | _ => none

/-- The connections of output port `p` of the operator at `a`. -/
def connsOf (h : Nat → Option (Op V)) (a : Nat) (p : Str) : List Conn :=
  match h a with
  | none => []
  | some o => match o.core.outputs.find? p with
    | none => []
    | some cs => cs

/-- The event of handing `m` over connection `c` of `(a, p)`: to the data input of that name, else to the control input. -/
def delivery (h : Nat → Option (Op V)) (a : Nat) (p : Str) (m : Msg V) (c : Conn) : Option (Ev V) :=
  match h c.target with
  | none => none
  | some t =>
    if t.core.isData c.port then some (.recv (some (a, p)) c.target c.port false m)
    else if t.core.isCtrl c.port then some (.recv (some (a, p)) c.target c.port true m)
    else none

/-- The deliveries an emission must cause: one per connection, in connection order. -/
def deliveries (h : Nat → Option (Op V)) : Ev V → List (Ev V)
  | .emit _ a _ p m => (connsOf h a p).filterMap (delivery h a p m)
  | _ => []

/-- Is the event a delivery over a connection? -/
def overConn : Ev V → Bool
  | .recv (some _) _ _ _ _ => true
  | _ => false

/-- Is the event a `receiveData`/`receiveControl`? -/
def isRecv : Ev V → Bool
  | .recv _ _ _ _ _ => true
  | _ => false

/-- The log goes on with the deliveries `ds`, all of them before anything else than receiving happens. -/
def StartsWith (ds : List (Ev V)) (l : List (Ev V)) : Prop :=
  ∃ block rest, l = block ++ rest ∧ (∀ e ∈ block, isRecv e = true) ∧ block.filter overConn = ds

/-- Every emission in the log is directly followed by its deliveries. -/
def Orderly (h : Nat → Option (Op V)) : List (Ev V) → Prop
  | [] => True
  | e :: l => (∀ d a id p m, e = .emit d a id p m → StartsWith (deliveries h e) l) ∧ Orderly h l

end Rtbot.Spec
