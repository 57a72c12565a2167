import Verif.Model.Redis
import Verif.Spec.Rust
import Verif.Spec.Schema

/-! # Specification vocabulary: the Redis module -/

namespace Rtbot.Spec
variable {β V : Type}

/-- The samples go to one pipeline, one after the other: the results and the library afterwards. -/
def replied (b : Bridge β V) (id : Str) : List (UInt64 × V) → β → List (List (RsMsg V)) × β
  | [], lib => ([], lib)
  | (t, v) :: l, lib =>
    let x := b.receive id ⟨t, [v]⟩ lib
    let rest := replied b id l x.2
    (x.1 :: rest.1, rest.2)

/-- `x` is the first value of the first message of a result. -/
inductive First : List (RsMsg V) → UInt64 × V → Prop
  | mk (t : UInt64) (v : V) (vs : List V) (ms : List (RsMsg V)) : First (⟨t, v :: vs⟩ :: ms) (t, v)

/-- `xs` are the first values of the first messages of those results that have messages. -/
inductive Firsts : List (List (RsMsg V)) → List (UInt64 × V) → Prop
  | nil : Firsts [] []
  | silent {rs : List (List (RsMsg V))} {xs : List (UInt64 × V)} (h : Firsts rs xs) : Firsts ([] :: rs) xs
  | cons {r : List (RsMsg V)} {rs : List (List (RsMsg V))} {x : UInt64 × V} {xs : List (UInt64 × V)} (h : First r x) (t : Firsts rs xs) :
    Firsts (r :: rs) (x :: xs)

/-- The value of the last of the samples with this time. -/
def latest (xs : List (UInt64 × V)) (t : UInt64) : Option V := (xs.reverse.find? fun x => decide (x.1 = t)).map (·.2)

/-- The series has the samples `xs`, sorted by time, the later ones of the same time instead of the earlier ones. -/
structure SeriesOf (xs S : List (UInt64 × V)) : Prop where
  sorted : S.Pairwise fun x y => x.1 < y.1
  value : ∀ t, (S.find? fun x => decide (x.1 = t)).map (·.2) = latest xs t

/-- The registry in force: a new one when there is none yet. -/
def registryOf (lib : β) (r : Redis β V) : Rs β :=
  match r.registry with
  | none => Rs.new lib
  | some g => g

/-- What becomes of a key when a sample is to be stored under it: a new series, nothing for a document, nothing when the series allows one sample per time and has one,
otherwise the sample is in the series, alone at its time. -/
inductive Stored (x : UInt64 × V) : Option (Entry V) → Option (Entry V) → Prop
  | fresh : Stored x none (some (.series false [x]))
  | json (s : Str) : Stored x (some (.json s)) (some (.json s))
  | refused (l : List (UInt64 × V)) (h : ∃ y ∈ l, y.1 = x.1) : Stored x (some (.series false l)) (some (.series false l))
  | put (last : Bool) (l l' : List (UInt64 × V)) (h : last = true ∨ ∀ y ∈ l, y.1 ≠ x.1) (sorted : l'.Pairwise fun y z => y.1 < z.1)
      (mem : ∀ y, y ∈ l' ↔ y = x ∨ y ∈ l ∧ y.1 ≠ x.1) : Stored x (some (.series last l)) (some (.series last l'))

/-- The series of the database are sorted by time. -/
def SeriesSorted (db : Map (Entry V)) : Prop := ∀ k last l, db.find? k = some (.series last l) → l.Pairwise fun y z => y.1 < z.1

/-! ## Programs -/

/-- An object with no other keys than these. -/
def OnlyKeys (j : Json V) (ks : List Str) : Prop := ∃ m, j = .obj m ∧ ∀ k ∈ Map.keys m, k ∈ ks

/-- A parameter in the description of an operator, as the module wants it. -/
structure RedisParam (j : Json V) : Prop where
  name : Needs j b!"name" IsText
  type : Needs j b!"type" fun x => ∃ s ∈ [b!"integer", b!"float"], x = .str s
  value : Needs j b!"value" IsNumber
  optim : May j b!"optim" fun x => OnlyKeys x [b!"range"] ∧ May x b!"range" fun y => OnlyKeys y [b!"min", b!"max"] ∧ May y b!"min" IsNumber ∧ May y b!"max" IsNumber
  only : OnlyKeys j [b!"name", b!"type", b!"value", b!"optim"]

/-- A program as the module wants it. -/
structure RedisProgram (j : Json V) : Prop where
  title : Needs j b!"title" IsText
  entry : Needs j b!"entryNode" IsText
  operators : Needs j b!"operators" (ListOf fun x => Needs x b!"id" IsText ∧ Needs x b!"type" IsText ∧ May x b!"parameters" (ListOf RedisParam))
  connections : Needs j b!"connections" (ListOf fun x => Needs x b!"from" IsText ∧ Needs x b!"to" IsText ∧ OnlyKeys x [b!"from", b!"to"])
  texts : ∀ k ∈ [b!"description", b!"version", b!"author", b!"license"], May j k IsText
  optim : May j b!"optim" fun x => (∃ m, x = .obj m) ∧ May x b!"algorithm" IsText

end Rtbot.Spec
