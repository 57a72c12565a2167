import Verif.Model.Base

/-! # The registry of the Rust wrapper

Model of apps/rtbot-rs/src/pipelines_registry.rs. The functions of the bridge to C++ (apps/rtbot-rs/cxx/cxx_bindings.cpp) call functions that libs/api no longer has
(`createPipeline`, `deletePipeline`, `receiveMessageInPipeline`), so they are parameters, as is the source of the random ids. A call that returns `Err` is an exception; locking the mutex
again by the thread that holds it, which the documentation of `std::sync::Mutex` says will not return, is `Err.diverge`. There is one thread. -/

namespace Rtbot

/-- `RtBotMessage` (cxx_bindings.rs:4-7). -/
structure RsMsg (V : Type) where
  time : UInt64
  values : List V

/-- The functions of the bridge, on the state of the library. -/
structure Bridge (β V : Type) where
  create : Str → Str → β → Str × β
  delete : Str → β → Str × β
  receive : Str → RsMsg V → β → List (RsMsg V) × β

/-- `PipelinesRegistry` (pipelines_registry.rs:16-18): for each input key and output key the id of the pipeline; whether the mutex is locked; the library. -/
structure Rs (β : Type) where
  pipelines : Map (Map Str)
  locked : Bool
  lib : β

/-- The answer of `delete`, `create` and `delete_by_input_key`. -/
inductive RsOk
  | id (s : Str)
  | deleted
  | count (n : Nat)
  deriving DecidableEq

variable {β V : Type}

/-- `self.pipelines.lock()` and the release at the end of the method. -/
def Rs.withLock {α : Type} (s : Rs β) (f : Rs β → Res (Rs β) α) : Res (Rs β) α :=
  if s.locked then .err .diverge s
  else match f { s with locked := true } with
    | .ok a t => .ok a { t with locked := false }
    | .err .diverge t => .err .diverge t
    | .err e t => .err e { t with locked := false }

/-- `create` (pipelines_registry.rs:43-79); `fresh` is the random id. -/
def Rs.create (b : Bridge β V) (fresh program input output : Str) (s : Rs β) : Res (Rs β) RsOk :=
  s.withLock fun s =>
    match (s.pipelines.find? input).bind fun outs => outs.find? output with
    | some _ => .err (.exc .runtime) s
    | none =>
      let r := b.create fresh program s.lib
      if r.1 ≠ [] then .err (.exc .runtime) { s with lib := r.2 }
      else
        let ps := match s.pipelines.find? input with
          | none => s.pipelines.put input []
          | some _ => s.pipelines
        match ps.find? input with
        | none => .err (.exc .runtime) { s with lib := r.2 }
        | some outs => .ok (.id fresh) { s with pipelines := ps.put input (outs.put output fresh), lib := r.2 }

/-- `delete` (pipelines_registry.rs:90-110). -/
def Rs.delete (b : Bridge β V) (input output : Str) (s : Rs β) : Res (Rs β) RsOk :=
  s.withLock fun s =>
    match s.pipelines.find? input with
    | none => .err (.exc .runtime) s
    | some outs => match outs.find? output with
      | none => .err (.exc .runtime) s
      | some id =>
        let r := b.delete id s.lib
        let s := { s with pipelines := s.pipelines.put input (outs.erase output), lib := r.2 }
        if r.1 ≠ [] then .err (.exc .runtime) s else .ok .deleted s

/-- The loop of `delete_by_input_key` (pipelines_registry.rs:126-129). -/
def Rs.deleteAll (b : Bridge β V) (input : Str) : List Str → Nat → Rs β → Res (Rs β) RsOk
  | [], n, s => .ok (.count n) s
  | o :: os, n, s => match s.delete b input o with
    | .err e s => .err e s
    | .ok _ s => Rs.deleteAll b input os (n + 1) s

/-- `delete_by_input_key` (pipelines_registry.rs:122-136). The mutex is locked while `delete` is called. -/
def Rs.deleteByInput (b : Bridge β V) (input : Str) (s : Rs β) : Res (Rs β) RsOk :=
  s.withLock fun s =>
    match s.pipelines.find? input with
    | none => .ok (.count 0) s
    | some outs => Rs.deleteAll b input outs.keys 0 s

/-- The loop of `receive` (pipelines_registry.rs:160-170). -/
def Rs.sendAll (b : Bridge β V) (m : RsMsg V) : List (Str × Str) → Map (List (RsMsg V)) → β → Map (List (RsMsg V)) × β
  | [], r, lib => (r, lib)
  | (o, id) :: outs, r, lib => Rs.sendAll b m outs (r.put o (b.receive id m lib).1) (b.receive id m lib).2

/-- `receive` (pipelines_registry.rs:151-173). -/
def Rs.receive (b : Bridge β V) (input : Str) (m : RsMsg V) (s : Rs β) : Res (Rs β) (Map (List (RsMsg V))) :=
  s.withLock fun s =>
    match s.pipelines.find? input with
    | none => .ok [] s
    | some outs => let r := Rs.sendAll b m outs [] s.lib; .ok r.1 { s with lib := r.2 }

end Rtbot
