import Verif.Model.Factory

/-! # The bindings for the browser

Model of libs/api/wasm/emscripten-bindings.cpp. `validate` and `validateOperator` do not use the registry and are in Verif.Model.Schema; `test` is not exported.

Simplifications. emscripten is not in /repo. A time is a JavaScript number; here it is a natural number (below 2^53 the numbers are exact), and converting it to an unsigned type of 32 bits
is ToUint32 of ECMAScript, the remainder modulo 2^32 (builds with assertions of emscripten raise a TypeError instead). `unsigned long` has 32 bits in wasm32. The texts that the calls
return are left as the values they are made from. -/

namespace Rtbot
variable {V : Type} [Num V]

/-- A number that is passed for a `uint32_t` or an `unsigned long`. -/
def toUint32 (n : Nat) : UInt32 := UInt32.ofNat n

/-- The translation into 64 bits (emscripten-bindings.cpp:40 and 47). -/
def widen (times32 : List UInt32) : List UInt64 := times32.map UInt32.toUInt64

/-- `processBatch32` and `processBatch32Debug` (emscripten-bindings.cpp:37-49). -/
def Factory.batch32 (debug : Bool) (fuel : Nat) (F : Factory V) (id : Str) (times32 : List UInt32) (values : List V) (ports : List Str) : Res (Factory V) (ProgMsg V) :=
  F.batch debug fuel id (widen times32) values ports

/-- `addToMessageBuffer` with an `unsigned long` of 32 bits (bindings.cpp:116-118, bindings.h:28-29). -/
def Factory.add32 (F : Factory V) (id port : Str) (time : UInt32) (value : V) : Res (Factory V) Bool := F.add id port ⟨time.toUInt64, value⟩

/-- The calls that a page can make (emscripten-bindings.cpp:56-72). -/
inductive WasmReq (V : Type)
  | create (junk : Junk V) (id : Str) (json : Str)
  | delete (id : Str)
  | add (id port : Str) (time : Nat) (value : V)
  | processBuffer (debug : Bool) (id : Str)
  | entryId (id : Str)
  | entryPorts (id : Str)
  | outputFilter (id : Str)
  | batch (debug : Bool) (id : Str) (times : List Nat) (values : List V) (ports : List Str)

/-- Serve a call of a page (emscripten-bindings.cpp:56-72). -/
def Factory.serveWasm (env : Env V) (F : Factory V) : WasmReq V → Res (Factory V) (Reply V)
  | .create junk id json => (F.createChecked env.valid env.parse junk id json).as Reply.ofCreate
  | .delete id => (F.delete id).as .flag
  | .add id port time value => (F.add32 id port (toUint32 time) value).as .flag
  | .processBuffer debug id => (F.processBuffer debug env.fuel id).as .report
  | .entryId id => (F.entryId id).as .text
  | .entryPorts id => (F.entryPorts id).as .ports
  | .outputFilter id => (F.outputFilter id).as .filter
  | .batch debug id times values ports => (F.batch32 debug env.fuel id (times.map toUint32) values ports).as .report

end Rtbot
