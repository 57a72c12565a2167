import Verif.Spec.Sync

/-! # Specification of the Demultiplexer -/

namespace Rtbot.Spec
variable {V : Type}

/-- The names "c1".."cn" in numeric order. -/
def cPorts (n : Nat) : List Str := (List.range n).map fun k => cPort (k + 1)

/-- The messages waiting in the buffer of control port `p`. -/
def bufferedCtrl (o : Op V) (p : Str) : List (Msg V) :=
  match o.core.ctrlIn.find? p with
  | some i => i.data
  | none => []

/-- Calls that address existing ports of a demultiplexer with `n` outputs. -/
def DemuxCall (n : Nat) : Act V → Prop
  | .recvData p _ => p = i1 ∨ p = []
  | .recvCtrl p _ => p ∈ cPorts n
  | _ => True

instance (n : Nat) (a : Act V) : Decidable (DemuxCall n a) := by
  cases a <;> unfold DemuxCall <;> infer_instance

variable [Num V]

/-- The instruction stream carries the value 1 at time `t`. -/
def selects (cs : List (Msg V)) (t : UInt64) : Bool := cs.any fun c => c.time == t && Num.eq c.value (Num.ofNat 1)

/-- The value is a valid instruction: 1 or 0. -/
def isInstruction (v : V) : Bool := Num.eq v (Num.ofNat 1) || Num.eq v (Num.ofNat 0)

end Rtbot.Spec
