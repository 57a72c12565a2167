import Mathlib.Data.List.Forall2
import Verif.Model.Mermaid
import Verif.Spec.Python

/-! # Spec: diagrams -/

namespace Rtbot.Spec
variable {V : Type}

/-- An arrow of a diagram. -/
structure Arrow where
  src : Str
  dst : Str
  out : Str
  inp : Str
deriving DecidableEq

/-- A connection that names both of its ports is the arrow. -/
structure Drawn (c : Json V) (e : Arrow) : Prop where
  src : Member c b!"from" (.str e.src)
  dst : Member c b!"to" (.str e.dst)
  out : Member c b!"fromPort" (.str e.out)
  inp : Member c b!"toPort" (.str e.inp)

/-- The line of an arrow: both operators with their labels, and the ports on the arrow. -/
def arrowLine (label : Str → Str) (e : Arrow) : Str :=
  e.src ++ b!"(\"" ++ label e.src ++ b!"\") --> |" ++ e.out ++ b!":" ++ e.inp ++ b!"| " ++ e.dst ++ b!"(\"" ++ label e.dst ++ b!"\");\n"

/-- The diagram with the arrows. -/
def diagram (label : Str → Str) (es : List Arrow) : Str := b!"flowchart LR;" ++ (es.map (arrowLine label)).flatten

/-- The label of an operator: its type, and behind it in brackets the values of its other members, if there are any. -/
def Labels (py : PyText V) (x : Json V) (l : Str) : Prop := ∃ m t vs, x = .obj m ∧ HasType x t ∧
  List.Forall₂ (fun k v => Member x k v) ((py.order m).filter fun k => k ≠ b!"id" ∧ k ≠ b!"type") vs ∧
  (vs = [] ∧ l = t ∨ vs ≠ [] ∧ l = t ++ b!"(" ++ (List.intersperse b!"," (vs.map py.format)).flatten ++ b!")")

/-- Arrows whose names can be told apart in the text. -/
def PlainArrow (e : Arrow) : Prop := 40 ∉ e.src ∧ 40 ∉ e.dst ∧ 58 ∉ e.out ∧ 124 ∉ e.inp

end Rtbot.Spec
