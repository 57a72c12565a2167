import Verif.Model.Rust

/-! # Specification vocabulary: the registry of the Rust wrapper -/

namespace Rtbot.Spec
variable {β V : Type}

/-- The pipeline from an input key to an output key. -/
def pipeBetween (s : Rs β) (input output : Str) : Option Str := (s.pipelines.find? input).bind fun outs => outs.find? output

/-- The message goes to the pipelines one after the other. -/
def turns (b : Bridge β V) (m : RsMsg V) : List (Str × Str) → β → List (Str × List (RsMsg V)) × β
  | [], lib => ([], lib)
  | (o, id) :: outs, lib =>
    let r := b.receive id m lib
    let rest := turns b m outs r.2
    ((o, r.1) :: rest.1, rest.2)

/-- A call of the registry. -/
inductive RsCall (V : Type)
  | create (fresh program input output : Str)
  | delete (input output : Str)
  | receive (input : Str) (m : RsMsg V)

/-- The registry after a call. -/
def rsCalled (b : Bridge β V) (s : Rs β) : RsCall V → Rs β
  | .create f p i o => (s.create b f p i o).state
  | .delete i o => (s.delete b i o).state
  | .receive i m => (s.receive b i m).state

/-- The pipeline between two keys after a call: a creation makes one when there was none and the library accepts the program, and a deletion removes it. -/
def madeBy (b : Bridge β V) (input output : Str) (s : Rs β) (x : Option Str) : RsCall V → Option Str
  | .create f p i o => if i = input ∧ o = output ∧ x = none ∧ (b.create f p s.lib).1 = [] then some f else x
  | .delete i o => if i = input ∧ o = output then none else x
  | .receive _ _ => x

/-- The pipeline between two keys after calls. -/
def lastMade (b : Bridge β V) (input output : Str) : Rs β → Option Str → List (RsCall V) → Option Str
  | _, x, [] => x
  | s, x, c :: cs => lastMade b input output (rsCalled b s c) (madeBy b input output s x c) cs

/-- The registry of a new process. -/
def Rs.new (lib : β) : Rs β := ⟨[], false, lib⟩

end Rtbot.Spec
