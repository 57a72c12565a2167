import Verif.Spec.Snapshot
import Verif.Spec.Order
import Verif.Spec.Graph
import Verif.Lemmas.Map

/-! # Specification vocabulary: what a program reports, given what it was handed -/

namespace Rtbot.Spec
variable {V : Type}

/-- The messages a call gives to the program. -/
def Feed.msgs : Feed V → OpMsg V
  | .receive msgs => msgs
  | .receiveDebug msgs => msgs

/-- The message is among those given to the program by the calls. -/
def GivenBy (cs : List (Feed V)) (m : Msg V) : Prop := ∃ c ∈ cs, ∃ e ∈ c.msgs, m ∈ e.2

/-- The message is listed in the report. -/
def InReport (r : ProgMsg V) (m : Msg V) : Prop := ∃ e ∈ r, ∃ f ∈ e.2, m ∈ f.2

/-- The message an event is about has the property. -/
def EvIn (T : Msg V → Prop) : Ev V → Prop
  | .emit _ _ _ _ m => T m
  | .recv _ _ _ _ m => T m
  | .exec _ _ => True

/-- Whatever is called on the operator, as long as it is handed only messages with the property `T`, it returns only messages with this property. -/
def Obeys [Num V] (T : Msg V → Prop) (o : Op V) : Prop :=
  ∀ as : List (Act V), (∀ p m, .recvData p m ∈ as ∨ .recvCtrl p m ∈ as → T m) → ∀ q, ∀ m ∈ sent q (results o as), T m

/-- The messages that the calls give for port `p` of the entry operator, in order: those naming `p`, and those naming no port when `p` is the only port. -/
def givenTo (sole : Bool) (p : Str) (cs : List (Feed V)) : List (Msg V) :=
  cs.flatMap fun c => c.msgs.flatMap fun e => if e.1 = p ∨ (e.1 = [] ∧ sole = true) then e.2 else []

/-- No connection leads to `x`, and at most one connection leads to each input port of the other operators. -/
structure OneInto (h : Nat → Option (Op V)) (x : Nat) : Prop where
  entry : ∀ a p, ∀ c ∈ connsOf h a p, c.target ≠ x
  once : ∀ a p, (connsOf h a p).Nodup
  sole : ∀ a p a' p' c, c ∈ connsOf h a p → c ∈ connsOf h a' p' → a = a' ∧ p = p'

/-- All that a sequence of replies lists for an operator id and a port, in order. -/
def listedIn (rs : List (Except Err (ProgMsg V))) (id p : Str) : List (Msg V) :=
  rs.flatMap fun
    | .ok r => listed r id p
    | .error _ => []

/-- The outputs listed by the program's description name no port of an operator twice. -/
def FilterOnce (P : Prog V) : Prop := P.filter.Sorted ∧ ∀ id ps, P.filter.find? id = some ps → ps.Nodup

/-- The operator at `b` is the only one with its id. -/
def OnlyId (h : Nat → Option (Op V)) (b : Nat) (id : Str) : Prop := ∀ y o, h y = some o → o.core.id = id → y = b

end Rtbot.Spec
