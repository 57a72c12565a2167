import Verif.Spec.Copy
import Verif.Spec.Stream

/-! # Spec: operators that can take the place of each other -/

namespace Rtbot.Spec
variable {V : Type} [Num V]

/-- The operators look the same from outside: same id, same ports, same connections. -/
structure SameFace (o o' : Op V) : Prop where
  id : o.core.id = o'.core.id
  data : o.core.dataIn.keys = o'.core.dataIn.keys
  ctrl : o.core.ctrlIn.keys = o'.core.ctrlIn.keys
  outs : o.core.outIds = o'.core.outIds
  conns : o.core.outputs = o'.core.outputs

/-- Two operators that compute by themselves, look the same from outside and give the same answers to every sequence of calls, failures included. -/
structure Interchangeable (o o' : Op V) : Prop where
  simple : Simple o
  simple' : Simple o'
  face : SameFace o o'
  answers : ∀ as : List (Act V), results o as = results o' as

/-- The heaps have operators at the same addresses, and those at the same address are the same or interchangeable. -/
def Replaced (h h' : Nat → Option (Op V)) : Prop := ∀ a, Option.Rel (fun o o' => o = o' ∨ Interchangeable o o') (h a) (h' a)

/-- Two descriptions of operators with the same id that make, in whatever memory, the same operator or interchangeable ones. -/
def SameOperator (junk : Junk V) (x y : Json V) : Prop :=
  (∀ k, HasId x k ↔ HasId y k) ∧ ∀ t u a o o', HasType x t → HasType y u → simpleOpOf t x (junk a) = some (.ok o) → simpleOpOf u y (junk a) = some (.ok o') → o = o' ∨ Interchangeable o o'

end Rtbot.Spec
