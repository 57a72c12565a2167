import Verif.Model.Factory

/-! # The JSON schema

Model of `validate` and `validateOperator` (libs/api/src/bindings.cpp:52-102) and of the schema they use. The schema is not in the repository
as such: tools/generator/src/index.ts:37-61 assembles it from the template tools/generator/templates/jsonschema.hbs and the front matter of
the markdown files libs/core/include/rtbot/*.md and libs/std/include/rtbot/std/*.md (tools/generator/generator.bzl:57-60).

The validator is the library json-schema-validator 2.2.0 (deps.bzl:27-31), which implements draft 7. Of the keywords only those that occur in
the schema are modelled; "examples", "description" and "default" have no influence on the result. Two peculiarities of the library: a number
written with a fraction or an exponent is never an integer, and an integer is compared with a "minimum" after conversion to `int64_t`. -/

namespace Rtbot

/-- The schemas that occur. -/
inductive Schema
  /-- `{"oneOf": […]}` -/
  | oneOf (l : List Schema)
  /-- `{"enum": […]}` with texts -/
  | enum (l : List Str)
  /-- `{"type": "string"}` -/
  | string
  /-- `{"type": "string", "format": "date"}` -/
  | date
  /-- `{"type": "integer", "minimum": …}` -/
  | integer (min : Option Int)
  /-- `{"type": "number"}` -/
  | number
  /-- `{"type": "array", "items": …, "minItems": …, "maxItems": …}` -/
  | array (items : Schema) (min : Nat) (max : Option Nat)
  /-- `{"type": "object", "patternProperties": {…: …}}`; the pattern as the set of keys that match it. -/
  | dict (pattern : Str → Bool) (items : Schema)
  /-- `{"type": "object", "properties": {…}, "required": […], "additionalProperties": …}` -/
  | object (props : List (Str × Schema)) (required : List Str) (more : Bool)

/-- The two digits as a number. -/
def twoDigits (a b : UInt8) : Option Nat :=
  if 48 ≤ a ∧ a ≤ 57 ∧ 48 ≤ b ∧ b ≤ 57 then some ((a.toNat - 48) * 10 + (b.toNat - 48)) else none

/-- The number of days of a month. -/
def monthDays (year month : Nat) : Nat :=
  if month = 2 then (if (year % 4 = 0 ∧ year % 100 ≠ 0) ∨ year % 400 = 0 then 29 else 28)
  else if month ≤ 7 then (if month % 2 = 0 then 30 else 31) else (if month % 2 = 0 then 31 else 30)

/-- The check of the format "date" (`default_string_format_check`): yyyy-mm-dd. -/
def isDate : Str → Bool
  | [a, b, c, d, 45, e, f, 45, g, h] => match twoDigits a b, twoDigits c d, twoDigits e f, twoDigits g h with
    | some hi, some lo, some month, some day => decide (1 ≤ month ∧ month ≤ 12 ∧ 1 ≤ day ∧ day ≤ monthDays (hi * 100 + lo) month)
    | _, _, _, _ => false
  | _ => false

/-- The value of an integer as an `int64_t`; `none` when the value is not of an integer type. -/
def Json.int64? {V : Type} : Json V → Option Int
  | .uint n => some (if n.toNat < 2 ^ 63 then n.toNat else (n.toNat : Int) - 2 ^ 64)
  | .int i => some i
  | _ => none

/-- A bound that may be absent. -/
def atLeast (lo : Option Int) (i : Int) : Bool :=
  match lo with
  | none => true
  | some m => m ≤ i

@[inherit_doc atLeast] def atMost (hi : Option Nat) (n : Nat) : Bool :=
  match hi with
  | none => true
  | some m => n ≤ m

mutual
/-- The result of the validator. -/
def Schema.accepts {V : Type} : Schema → Json V → Bool
  | .oneOf l, j => Schema.count l j == 1
  | .enum l, j => match j with
    | .str s => l.contains s
    | _ => false
  | .string, j => match j with
    | .str _ => true
    | _ => false
  | .date, j => match j with
    | .str s => isDate s
    | _ => false
  | .integer lo, j => match j.int64? with
    | some i => atLeast lo i
    | none => false
  | .number, j => match j with
    | .uint _ | .int _ | .float _ => true
    | _ => false
  | .array items lo hi, j => match j with
    | .arr l => decide (lo ≤ l.length) && atMost hi l.length && l.all fun x => items.accepts x
    | _ => false
  | .dict pattern items, j => match j with
    | .obj m => m.all fun e => !pattern e.1 || items.accepts e.2
    | _ => false
  | .object props required more, j => match j with
    | .obj m => Schema.members props m && required.all (fun k => Map.has m k) && (more || m.all fun e => props.any fun p => p.1 == e.1)
    | _ => false
/-- The number of schemas that accept the value. -/
def Schema.count {V : Type} : List Schema → Json V → Nat
  | [], _ => 0
  | s :: l, j => (if s.accepts j then 1 else 0) + Schema.count l j
/-- The members that are mentioned in "properties" are accepted. -/
def Schema.members {V : Type} : List (Str × Schema) → Map (Json V) → Bool
  | [], _ => true
  | (k, s) :: l, m => (match Map.find? m k with
    | some x => s.accepts x
    | none => true) && Schema.members l m
end

/-! ## The schema of an operator -/

/-- What the generator makes of the front matter of the file of an operator (index.ts:45-49): the property "type" becomes the name of the file,
and is required. A property "type" in the file is overwritten. -/
def opSchema (type : Str) (props : List (Str × Schema)) (required : List Str) : Schema :=
  .object ((b!"type", .enum [type]) :: props.filter fun p => p.1 ≠ b!"type") (b!"type" :: required) true

/-- Files with the single property "id" (And.md, Or.md, Plus.md, …, lines 10-16). -/
def idOnly (type : Str) : Schema := opSchema type [(b!"id", .string)] [b!"id"]

/-- Files with the properties "id" and "value" (lines 10-22). -/
def idValue (type : Str) (value : Schema) : Schema := opSchema type [(b!"id", .string), (b!"value", value)] [b!"id", b!"value"]

/-- Files with the properties "id" and a size or interval (lines 10-22). -/
def idAnd (type key : Str) (s : Schema) : Schema := opSchema type [(b!"id", .string), (key, s)] [b!"id", key]

/-- Files with the optional property "numPorts" (Input.md:10-23, Output.md:11-22, Join.md:10-21, Demultiplexer.md:10-23). -/
def idPorts (type : Str) (min : Int) : Schema := opSchema type [(b!"id", .string), (b!"numPorts", .integer (some min))] [b!"id"]

/-- Function.md:10-31. -/
def functionSchema : Schema :=
  opSchema b!"Function" [(b!"id", .string), (b!"points", .array (.array .number 2 (some 2)) 2 none), (b!"type", .enum [b!"linear", b!"hermite"])]
    [b!"id", b!"points"]

/-- The schemas of all operators by type, in the order of the file names of libs/std and libs/core. -/
def opSchemas : List (Str × Schema) :=
  [(b!"Add", idValue b!"Add" .number),
   (b!"And", idOnly b!"And"),
   (b!"AutoRegressive", idAnd b!"AutoRegressive" b!"coeff" (.array .number 1 none)),
   (b!"Constant", idValue b!"Constant" .number),
   (b!"ConstantResampler", idAnd b!"ConstantResampler" b!"interval" (.integer (some 1))),
   (b!"CosineResampler", idAnd b!"CosineResampler" b!"dt" (.integer none)),
   (b!"Count", idOnly b!"Count"),
   (b!"CumulativeSum", idOnly b!"CumulativeSum"),
   (b!"Difference", idOnly b!"Difference"),
   (b!"Division", idOnly b!"Division"),
   (b!"EqualTo", idValue b!"EqualTo" .number),
   (b!"FiniteImpulseResponse", idAnd b!"FiniteImpulseResponse" b!"coeff" (.array .number 0 none)),
   (b!"Function", functionSchema),
   (b!"GreaterThan", idValue b!"GreaterThan" .number),
   (b!"GreaterThanStream", idOnly b!"GreaterThanStream"),
   (b!"HermiteResampler", idAnd b!"HermiteResampler" b!"dt" (.integer none)),
   (b!"Identity", idOnly b!"Identity"),
   (b!"LessThan", idValue b!"LessThan" (.integer none)),
   (b!"LessThanStream", idOnly b!"LessThanStream"),
   (b!"Linear", opSchema b!"Linear" [(b!"id", .string), (b!"coeff", .array .number 2 none)] [b!"id"]),
   (b!"Minus", idOnly b!"Minus"),
   (b!"MovingAverage", idAnd b!"MovingAverage" b!"n" (.integer none)),
   (b!"Multiplication", idOnly b!"Multiplication"),
   (b!"Or", idOnly b!"Or"),
   (b!"PeakDetector", idAnd b!"PeakDetector" b!"n" (.integer none)),
   (b!"Plus", idOnly b!"Plus"),
   (b!"Power", idValue b!"Power" .number),
   (b!"Scale", idValue b!"Scale" .number),
   (b!"StandardDeviation", idAnd b!"StandardDeviation" b!"n" .number),
   (b!"TimeShift", opSchema b!"TimeShift" [(b!"id", .string), (b!"dt", .integer (some 1)), (b!"times", .integer none)] [b!"id"]),
   (b!"Variable", opSchema b!"Variable" [(b!"id", .string), (b!"value", .number)] [b!"id"]),
   (b!"Demultiplexer", idPorts b!"Demultiplexer" 1),
   (b!"Input", idPorts b!"Input" 1),
   (b!"Join", idPorts b!"Join" 2),
   (b!"Output", idPorts b!"Output" 1)]

/-! ## The schema of a program -/

/-- The pattern `^[A-Z0-9a-t_-]+$` (jsonschema.hbs:36). -/
def keyPattern (s : Str) : Bool :=
  !s.isEmpty && s.all fun c => decide (65 ≤ c ∧ c ≤ 90) || decide (48 ≤ c ∧ c ≤ 57) || decide (97 ≤ c ∧ c ≤ 116) || c == 95 || c == 45

/-- A connection (jsonschema.hbs:56-80). -/
def connSchema : Schema :=
  .object [(b!"from", .string), (b!"to", .string), (b!"fromPort", .string), (b!"toPort", .string)] [b!"from", b!"to"] false

/-- The template (jsonschema.hbs). -/
def programSchema : Schema :=
  .object [(b!"title", .string), (b!"description", .string), (b!"date", .date), (b!"apiVersion", .enum [b!"v1"]), (b!"author", .string),
      (b!"license", .string), (b!"entryOperator", .string), (b!"output", .dict keyPattern (.array .string 0 none)),
      (b!"operators", .array (.oneOf (opSchemas.map (·.2))) 0 none), (b!"connections", .array connSchema 0 none)]
    [b!"operators", b!"connections", b!"entryOperator"] true

variable {V : Type}

/-- `validate` (bindings.cpp:82-102): whether the answer is "valid". -/
def validates (parse : Parser V) (json : Str) : Bool :=
  match parse json with
  | .error _ => false
  | .ok j => programSchema.accepts j

/-- `validateOperator` (bindings.cpp:52-80): whether the answer is "valid". -/
def validatesOp (parse : Parser V) (type json : Str) : Bool :=
  match Map.find? opSchemas type with
  | none => false
  | some s => match parse json with
    | .error _ => false
    | .ok j => s.accepts j

/-- The answer of `validate`, as `createProgram` looks at it (bindings.cpp:106-109); the function stands for the text of the error. -/
def schemaCheck (text : Str → Str) (parse : Parser V) (json : Str) : Option Str :=
  if validates parse json then none else some (text json)

end Rtbot
