import Verif.Model.Wasm
import Verif.Spec.Factory

/-! # Specification vocabulary: calls from a page -/

namespace Rtbot.Spec
variable {V : Type}

/-- The call a page means: that of the interface with the times it was given. -/
def meant : WasmReq V → Req V
  | .create junk id json => .createChecked junk id json
  | .delete id => .delete id
  | .add id port time value => .add id port ⟨UInt64.ofNat time, value⟩
  | .processBuffer debug id => .processBuffer debug id
  | .entryId id => .entryId id
  | .entryPorts id => .entryPorts id
  | .outputFilter id => .outputFilter id
  | .batch debug id times values ports => .batch debug id (times.map UInt64.ofNat) values ports

/-- The times in a call. -/
def timesOf : WasmReq V → List Nat
  | .add _ _ time _ => [time]
  | .batch _ _ times _ _ => times
  | _ => []

/-- The call with other times. -/
def withTimes (f : Nat → Nat) : WasmReq V → WasmReq V
  | .add id port time value => .add id port (f time) value
  | .batch debug id times values ports => .batch debug id (times.map f) values ports
  | r => r

/-- The outcomes of a sequence of calls of a page. -/
def wasmOutcomes [Num V] (env : Env V) (F : Factory V) : List (WasmReq V) → List (Except Err (Reply V))
  | [] => []
  | r :: rs => outcome (F.serveWasm env r) :: wasmOutcomes env (F.serveWasm env r).state rs

/-- The messages as a page has given them, with the times that arrive. -/
def arriving (ms : List (Nat × V)) : List (Msg V) := ms.map fun x => ⟨UInt64.ofNat (x.1 % 2 ^ 32), x.2⟩

end Rtbot.Spec
