import Verif.Spec.Bands
import Verif.Lemmas.Finite
import Verif.Spec.Built

/-! # Lemmas: the program made from the description of the Bollinger bands -/

namespace Rtbot.Bands
open Spec
variable {V : Type} [Num V]

/-- The Output with three ports. -/
def out3 : Op V := match Op.newOutput b!"37" 3 with | .ok o => o | .error _ => Op.newIdentity []
/-- The Input with one port. -/
def in1 : Op V := match Op.newInput b!"754" 1 with | .ok o => o | .error _ => Op.newIdentity []

theorem out3_eq : (Op.newOutput b!"37" 3 : Except Err (Op V)) = .ok out3 := rfl
theorem in1_eq : (Op.newInput b!"754" 1 : Except Err (Op V)) = .ok in1 := rfl

/-- The operators of the program, by address. -/
def ops : List (Op V) := [
  wired out3 [],
  wired (Op.newBinary b!"495" .minus) [(o1, [⟨0, i1⟩])],
  wired (Op.newBinary b!"861" .plus) [(o1, [⟨0, i2⟩])],
  wired (Op.newScale b!"996" (Num.ofNat 2)) [(o1, [⟨1, i2⟩, ⟨2, i2⟩])],
  wired (Op.newStdDev b!"865" 14) [(o1, [⟨3, i1⟩])],
  wired (Op.newMovAvg b!"510" 14) [(o1, [⟨0, b!"i3"⟩, ⟨1, i1⟩, ⟨2, i1⟩])],
  wired (Op.newHermRes b!"262" 1) [(o1, [⟨4, i1⟩, ⟨5, i1⟩])],
  wired in1 [(o1, [⟨6, i1⟩])]]

/-- The program that is made. -/
theorem made (junk : Junk V) (json : Str) : ∃ P, Prog.initWith junk json (bandsJson V) = .ok P ∧ P.st.heap = heapOf ops ∧ P.ops.find? P.entry = some 7 ∧
    P.st.log = [] ∧ P.filter = [(b!"37", [b!"o2", o1, b!"o3"])] := by
  refine ⟨_, rfl, ?_, rfl, rfl, rfl⟩
  funext a
  match a with
  | 0 => rfl
  | 1 => rfl
  | 2 => rfl
  | 3 => rfl
  | 4 => rfl
  | 5 => rfl
  | 6 => rfl
  | 7 => rfl
  | a + 8 => rfl

theorem arrows_eq : Finite.arrows (ops : List (Op V)) = [(1, o1, ⟨0, i1⟩), (2, o1, ⟨0, i2⟩), (3, o1, ⟨1, i2⟩), (3, o1, ⟨2, i2⟩), (4, o1, ⟨3, i1⟩), (5, o1, ⟨0, b!"i3"⟩),
    (5, o1, ⟨1, i1⟩), (5, o1, ⟨2, i1⟩), (6, o1, ⟨4, i1⟩), (6, o1, ⟨5, i1⟩), (7, o1, ⟨6, i1⟩)] := rfl

end Rtbot.Bands
