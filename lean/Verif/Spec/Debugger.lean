import Verif.Model.Debugger

/-! # Specification vocabulary: what the debugger should show -/

namespace Rtbot.Spec
variable {V : Type}

/-- The columns: the ports of the operators that are selected, in order. -/
def places (ops : List DbgOp) : List (Str × Str) := (ops.filter (·.selected)).flatMap fun op => op.ports.map fun p => (op.id, p)

/-- The titles of the columns: an operator with one port has its id. -/
def titles (ops : List DbgOp) : List Str :=
  (ops.filter (·.selected)).flatMap fun op => match op.ports with
    | [_] => [op.id]
    | ps => ps.map fun p => op.id ++ 58 :: p

/-- What was reported for a port. -/
def reportedAt (r : JsReport V) (id p : Str) : List (JsMsg V) :=
  match r.find? id with
  | none => []
  | some ports => match ports.find? p with
    | none => []
    | some ms => ms

/-- The text for what was reported; `text` is that of a message. -/
def shownText (text : JsMsg V → Str) : List (JsMsg V) → Str
  | [] => b!"-"
  | ms => List.intercalate b!", " (ms.map text)

/-- The table at a position: below the titles at most eleven reports, from the one before the position on, with their numbers. -/
def tableAt (text : JsMsg V → Str) (rs : List (JsReport V)) (ops : List DbgOp) : Nat → List (List Str)
  | 0 => [b!"iter" :: titles ops]
  | k + 1 => (b!"iter" :: titles ops) ::
      (((rs.drop k).take 11).zipIdx k).map fun x => toStr x.2 :: (places ops).map fun c => shownText text (reportedAt x.1 c.1 c.2)

/-- The position after some actions when there are `n` reports. -/
def positionAfter (n : Nat) : List DbgAct → Nat → Nat
  | [], k => k
  | .forward :: l, k => positionAfter n l (if k < n then k + 1 else n)
  | .backward :: l, k => positionAfter n l (k - 1)
  | .select _ _ :: l, k => positionAfter n l k

/-- Whether an operator is selected after some actions. -/
def selectedAfter (id : Str) : List DbgAct → Bool → Bool
  | [], b => b
  | .select id' sel :: l, b => selectedAfter id l (if id' = id then sel else b)
  | _ :: l, b => selectedAfter id l b

/-- An id that can be told from the names the code makes of it and from what every object inherits. -/
structure GoodId (id : Str) : Prop where
  some : id ≠ []
  clean : (58 : UInt8) ∉ id
  own : id ∉ inherited

/-- An operator that is in the report is there with all the ports that are shown. -/
def AllPorts (ops : List DbgOp) (r : JsReport V) : Prop :=
  ∀ op ∈ ops, op.selected = true → ∀ ports, r.find? op.id = some ports → ∀ p ∈ op.ports, ∃ ms, ports.find? p = some ms ∧ ms ≠ []

/-- No value that is shown is `null`. -/
def AllNumbers (ops : List DbgOp) (r : JsReport V) : Prop := ∀ c ∈ places ops, ∀ m ∈ reportedAt r c.1 c.2, m.2.isSome = true

/-- The rows of a table with two columns that are numbers. -/
def numberRows (time value : Str → Option V) (rows : List (List Str)) : List (V × V) :=
  rows.filterMap fun
    | t :: v :: _ => match time t, value v with
      | some t, some v => some (t, v)
      | _, _ => none
    | _ => none

end Rtbot.Spec
