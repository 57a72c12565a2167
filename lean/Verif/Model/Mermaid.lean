import Verif.Model.Python

/-! # The diagram of a program in the Python wrapper

Model of `Program.toMermaidJs` (libs/wrappers/python/rtbot.py:145-172).

Simplifications, besides those of `Model/Python`: ids that are no texts are equal to nothing. What `f"{x}"` makes of a value that is no text, and the order in which a dictionary lists
its keys, are parameters. -/

namespace Rtbot
variable {V : Type}

/-- How values are written and in which order the keys of a dictionary are listed. -/
structure PyText (V : Type) where
  shown : Json V → Str
  order : Map (Json V) → List Str
  listed : ∀ m, (order m).Perm m.keys

/-- `f"{x}"`. -/
def PyText.format (py : PyText V) : Json V → Str
  | .str s => s
  | x => py.shown x

/-- `next((x for x in operators if x["id"] == id), None)` (rtbot.py:148-149). -/
def pyNext (id : Json V) : List (Json V) → Except Err (Option (Json V))
  | [] => .ok none
  | x :: xs => do
    match ← pyItem x b!"id", id with
    | .str a, .str b => if a = b then .ok (some x) else pyNext id xs
    | _, _ => pyNext id xs

/-- The loop over the keys (rtbot.py:152-155, 161-164). -/
def mermaidArgs (py : PyText V) (x : Json V) : List Str → Except Err (List Str)
  | [] => .ok []
  | k :: ks =>
    if k ≠ b!"id" ∧ k ≠ b!"type" then do
      let v ← pyItem x k
      let rest ← mermaidArgs py x ks
      .ok (py.format v :: rest)
    else mermaidArgs py x ks

/-- `",".join(args)`. -/
def commaJoin : List Str → Str
  | [] => []
  | [a] => a
  | a :: b :: l => a ++ b!"," ++ commaJoin (b :: l)

/-- Type and arguments of an operator (rtbot.py:150-168): the text between the quotation marks. -/
def mermaidLabel (py : PyText V) (x : Json V) : Except Err Str := do
  let t ← pyItem x b!"type"
  match x with
  | .obj m =>
    let args ← mermaidArgs py x (py.order m)
    .ok (py.format t ++ if 0 < args.length then b!"(" ++ commaJoin args ++ b!")" else [])
  | _ => throwExc .runtime

/-- One round of the loop over the connections (rtbot.py:148-170). -/
def mermaidLine (py : PyText V) (operators con : Json V) : Except Err Str := do
  let ops ← pyList operators
  let f ← pyItem con b!"from"
  let t ← pyItem con b!"to"
  match ← pyNext f ops, ← pyNext t ops with
  | some x, some y => do
    let lx ← mermaidLabel py x
    let ly ← mermaidLabel py y
    let o ← pyItem con b!"fromPort"
    let i ← pyItem con b!"toPort"
    .ok (py.format f ++ b!"(\"" ++ lx ++ b!"\") --> |" ++ py.format o ++ b!":" ++ py.format i ++ b!"| " ++ py.format t ++ b!"(\"" ++ ly ++ b!"\");\n")
  | _, _ => throwExc .runtime

/-- The loop over the connections. -/
def mermaidLines (py : PyText V) (operators : Json V) : List (Json V) → Except Err Str
  | [] => .ok []
  | c :: cs => do
    let l ← mermaidLine py operators c
    let rest ← mermaidLines py operators cs
    .ok (l ++ rest)

/-- `Program.toMermaidJs` (rtbot.py:145-172). -/
def PyProgram.toMermaidJs (py : PyText V) (p : PyProgram V) : Except Err Str := do
  let cs ← pyList p.connections
  let lines ← mermaidLines py p.operators cs
  .ok (b!"flowchart LR;" ++ lines)

end Rtbot
