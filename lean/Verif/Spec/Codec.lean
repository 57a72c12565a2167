import Verif.Model.Codec
import Verif.Spec.Built

/-! # Specification vocabulary for snapshots -/

namespace Rtbot.Spec
variable {V : Type}

/-- The object representation of a value determines the value. -/
class LosslessBits (V : Type) [Num V] : Prop where
  ofBits_bits : ∀ v : V, Num.ofBits (Num.bits v) = v

/-- Whatever follows the bytes, the reader yields `a` and stops right behind them. -/
def Reads {α : Type} (r : Reader α) (bs : Bytes) (a : α) : Prop := ∀ rest, r (bs ++ rest) = .ok (a, rest)

/-- The number can be stored in a `size_t`. -/
def Word (n : Nat) : Prop := n < 2 ^ 64

/-- All sizes can be stored in a `size_t`. -/
structure InpFits (e : Str × Inp V) : Prop where
  port : Word e.1.length
  id : Word e.2.id.length
  max : Word e.2.max
  data : Word e.2.data.length

/-- All sizes in the base class members can be stored in a `size_t` (always the case for objects in memory). -/
structure CoreFits (c : Core V) : Prop where
  nData : Word c.dataIn.length
  nCtrl : Word c.ctrlIn.length
  nPend : Word c.toProcess.length
  data : ∀ e ∈ c.dataIn, InpFits e
  ctrl : ∀ e ∈ c.ctrlIn, InpFits e
  pend : ∀ p ∈ c.toProcess, Word p.length

/-- The same for the members of the subclass. -/
def KindFits : Kind V → Prop
  | .input _ last => Word last.length ∧ ∀ e ∈ last, Word e.1.length
  | .function points _ => Word points.length
  | _ => True

/-- All sizes in the operator can be stored in a `size_t`. -/
def Fits (o : Op V) : Prop := CoreFits o.core ∧ KindFits o.kind

instance (n : Nat) : Decidable (Word n) := inferInstanceAs (Decidable (n < 2 ^ 64))

instance (e : Str × Inp V) : Decidable (InpFits e) :=
  decidable_of_iff (Word e.1.length ∧ Word e.2.id.length ∧ Word e.2.max ∧ Word e.2.data.length)
    ⟨fun ⟨a, b, c, d⟩ => ⟨a, b, c, d⟩, fun ⟨a, b, c, d⟩ => ⟨a, b, c, d⟩⟩

instance (c : Core V) : Decidable (CoreFits c) :=
  decidable_of_iff (Word c.dataIn.length ∧ Word c.ctrlIn.length ∧ Word c.toProcess.length ∧ (∀ e ∈ c.dataIn, InpFits e) ∧
      (∀ e ∈ c.ctrlIn, InpFits e) ∧ ∀ p ∈ c.toProcess, Word p.length)
    ⟨fun ⟨a, b, c, d, e, f⟩ => ⟨a, b, c, d, e, f⟩, fun ⟨a, b, c, d, e, f⟩ => ⟨a, b, c, d, e, f⟩⟩

instance (k : Kind V) : Decidable (KindFits k) := by
  cases k <;> unfold KindFits <;> infer_instance

instance (o : Op V) : Decidable (Fits o) := inferInstanceAs (Decidable (_ ∧ _))

/-- Two operators built with the same parameters. They can only differ in the members of a ConstantResampler that are not
initialised. -/
def SameParams (o o' : Op V) : Prop :=
  o.core = o'.core ∧ (o.kind = o'.kind ∨ ∃ dt t v t' v', o.kind = .constRes dt t false v ∧ o'.kind = .constRes dt t' false v')

/-- Operators whose members are all written to the snapshot: all but RelativeStrengthIndex and CumulativeSum. -/
def Covered (o : Op V) : Prop :=
  match o.kind with
  | .rsi _ | .cumSum _ => False
  | _ => True

end Rtbot.Spec
