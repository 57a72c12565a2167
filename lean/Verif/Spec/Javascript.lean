import Verif.Model.Javascript
import Verif.Spec.Schema
import Verif.Spec.Python

/-! # Specification vocabulary: what the JavaScript wrapper is for -/

namespace Rtbot.Spec
variable {V : Type}

/-- A call of a method that changes a program. -/
inductive JsEdit (V : Type)
  | addOp (x : JsOp V)
  | delOp (id : Str)
  | addConn (c : JsConn)
  | delConn (c : JsConn)

/-- The program after an attempt to add a connection. -/
def connTried (p : JsProgram V) (c : JsConn) : JsProgram V :=
  match p.addConnection c with
  | .ok q => q
  | .error _ => p

/-- The program after calls of methods; when one throws the program is as before. -/
def jsEdited (p : JsProgram V) : List (JsEdit V) → JsProgram V
  | [] => p
  | .addOp x :: es => jsEdited (p.addOperator x) es
  | .delOp id :: es => jsEdited (p.deleteOperator id) es
  | .addConn c :: es => jsEdited (connTried p c) es
  | .delConn c :: es => jsEdited (p.deleteConnection c) es

/-- The ids of the operators of type Input that are added, in order. -/
def inputsAdded : List (JsEdit V) → List Str
  | [] => []
  | .addOp x :: es => if x.type = b!"Input" then x.id :: inputsAdded es else inputsAdded es
  | _ :: es => inputsAdded es

/-- The operator is written as the documentation says, with the id and the type it has. -/
def JsValid (x : JsOp V) : Prop := DocOp x.plain x.type ∧ Member x.plain b!"id" (.str x.id)


/-- The calls for a table of numbers: one for each row, with the values for the ports in order. -/
def jsCalls (js : JsEnv V) (ports : List Str) (rows : List (V × List V)) : List (OpMsg V) :=
  rows.filterMap fun r => (js.time r.1).map fun t => rowMsgs ports (t, r.2)

/-- The lists hold the messages in the order of the calls, after what was there before. -/
def CollapsedOf (js : JsEnv V) (c c' : Collapsed V) (key : Str) (ms : List (Msg V)) : Prop :=
  match c.find? key, c'.find? key with
  | none, none => ms = []
  | none, some (ts, vs) => ms ≠ [] ∧ ts = ms.map (fun m => js.shown m.time) ∧ vs = ms.map fun m => js.read m.value
  | some _, none => False
  | some (ts, vs), some (ts', vs') => ts' = ts ++ ms.map (fun m => js.shown m.time) ∧ vs' = vs ++ ms.map fun m => js.read m.value

end Rtbot.Spec
