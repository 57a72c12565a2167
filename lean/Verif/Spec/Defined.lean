import Verif.Spec.Built
import Verif.Spec.Create
import Verif.Spec.Factory

/-! # Specification vocabulary for undefined behaviour at run time -/

namespace Rtbot.Spec
variable {V : Type} [Num V]

/-- The call runs into undefined behaviour. -/
def Undefined {σ α : Type} (r : Res σ α) : Prop := ∃ u s, r = .err (.ub u) s

/-- Every time survives the conversion to a value and back, though perhaps changed. -/
def TimesConvert (V : Type) [Num V] : Prop := ∀ t : UInt64, ∃ t', Num.toTime (ofTime t : V) = some t'

/-- The operator does no arithmetic that may be undefined: it is neither a CosineResampler nor a HermiteResampler, and a Difference must carry the
time of a message and not a value as time. -/
def Tame (o : Op V) : Prop :=
  match o.kind with
  | .cosRes _ _ | .hermRes _ _ _ => False
  | .difference b => b = true ∧ TimesConvert V
  | _ => True

/-- All operators are tame, and no message to a pipeline goes to an AutoRegressive directly. -/
structure Mild (h : Nat → Option (Op V)) : Prop where
  tame : ∀ a o, h a = some o → Tame o
  shielded : ∀ a o ins outs pm, h a = some o → o.kind = .pipeline ins outs pm → ∀ k t ot as, ins.find? k = some t → h t = some ot →
    ot.kind ≠ .autoReg as

/-- Creating the program of this text is defined, and the program is mild. -/
def MildText (parse : Parser V) (junk : Junk V) (s : Str) : Prop :=
  (∀ u, Prog.create parse junk s ≠ .error (.ub u)) ∧ ∀ P, Prog.create parse junk s = .ok P → Mild P.st.heap

/-- The call does not create programs, except mild ones from texts. -/
def MildCall (env : Env V) : Req V → Prop
  | .createBytes _ _ _ => False
  | .createJson junk _ s => MildText env.parse junk s
  | .createChecked junk _ s => env.valid s = none → MildText env.parse junk s
  | _ => True

end Rtbot.Spec
