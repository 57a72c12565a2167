import Verif.Model.Engine

/-! # Newly built operators -/

namespace Rtbot.Spec
variable {V : Type} [Num V]

/-- The operator is what one of the constructors returns, with whatever parameters (Composite and Pipeline excepted). -/
inductive Built : Op V → Prop
  | input {id n o} (h : Op.newInput id n = .ok o) : Built o
  | output {id n o} (h : Op.newOutput id n = .ok o) : Built o
  | join {id n o} (h : Op.newJoin id n = .ok o) : Built o
  | binary (id op) : Built (Op.newBinary id op)
  | linear {id coeff o} (h : Op.newLinear id coeff = .ok o) : Built o
  | demux {id n o} (h : Op.newDemux id n = .ok o) : Built o
  | variable (id value) : Built (Op.newVariable id value)
  | collector (id n) : Built (Op.newCollector id n)
  | filter (id f value) : Built (Op.newFilter id f value)
  | add (id value) : Built (Op.newAdd id value)
  | scale (id value) : Built (Op.newScale id value)
  | power (id value) : Built (Op.newPower id value)
  | constant (id value) : Built (Op.newConstant id value)
  | identity (id) : Built (Op.newIdentity id)
  | count (id) : Built (Op.newCount id)
  | cumSum (id) : Built (Op.newCumSum id)
  | difference (id b) : Built (Op.newDifference id b)
  | movAvg (id n) : Built (Op.newMovAvg id n)
  | stdDev (id n) : Built (Op.newStdDev id n)
  | peak (id n) : Built (Op.newPeak id n)
  | fir (id coeff) : Built (Op.newFir id coeff)
  | autoReg (id coeff) : Built (Op.newAutoReg id coeff)
  | timeShift (id dt times) : Built (Op.newTimeShift id dt times)
  | constRes {id dt t v o} (h : Op.newConstRes id dt t v = .ok o) : Built o
  | cosRes (id dt) : Built (Op.newCosRes id dt)
  | hermRes (id dt) : Built (Op.newHermRes id dt)
  | rsi (id n) : Built (Op.newRsi id n)
  | function {id points type o} (h : Op.newFunction id points type = .ok o) : Built o

/-- A newly built operator to which connections have been added. -/
def Connected (o : Op V) : Prop := ∃ o0 outs, Built o0 ∧ o = { o0 with core := { o0.core with outputs := outs } }

end Rtbot.Spec
