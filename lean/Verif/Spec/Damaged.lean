import Verif.Spec.Snapshot

/-! # Specification vocabulary for damaged snapshots -/

namespace Rtbot.Spec
variable {V : Type}

/-- The same subclass, whatever its members. -/
inductive SameClass : Kind V → Kind V → Prop
  | same (k : Kind V) : SameClass k k
  | input (pm : Map Str) (l l' : Map (Msg V)) : SameClass (.input pm l) (.input pm l')
  | count (n n' : UInt64) : SameClass (.count n) (.count n')
  | cumSum (x x' : V) : SameClass (.cumSum x) (.cumSum x')
  | variable (x x' : V) (b b' : Bool) : SameClass (.variable x b) (.variable x' b')
  | constRes (dt dt' t t' : UInt64) (b b' : Bool) (x x' : V) : SameClass (.constRes dt t b x) (.constRes dt' t' b' x')
  | cosRes (dt t t' : UInt64) : SameClass (.cosRes dt t) (.cosRes dt t')
  | hermRes (dt t t' : UInt64) (m m' : Option (Msg V)) : SameClass (.hermRes dt t m) (.hermRes dt t' m')
  | function (ps ps' : List (V × V)) (i i' : Interp) : SameClass (.function ps i) (.function ps' i')

/-- What no bytes can change in an operator: the identifier, the class, the outputs and where they lead. The ports stay, but others may join them. -/
structure Outline (o o' : Op V) : Prop where
  id : o'.core.id = o.core.id
  outIds : o'.core.outIds = o.core.outIds
  outputs : o'.core.outputs = o.core.outputs
  kind : SameClass o.kind o'.kind
  data : ∀ p, o.core.dataIn.has p = true → o'.core.dataIn.has p = true
  ctrl : ∀ p, o.core.ctrlIn.has p = true → o'.core.ctrlIn.has p = true

end Rtbot.Spec
