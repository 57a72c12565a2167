import Verif.Model.Rust
import Verif.Model.Schema

/-! # The Redis module

Model of apps/redis-module/src: the commands `rtbot.run` and `rtbot.xrun`, the handler of events and the check of programs, with the part of Redis that they use:
documents (RedisJSON) and time series (RedisTimeSeries).

Simplified: the calls of Redis do what its documentation says; a time series is a list of samples sorted by time; values are read back as they were written, and `wire` says
which values Redis takes (`None` for a text that it refuses, as "NaN"); times are less than 2^63. Redis calls the handler after each `ts.add`, but not while the handler
runs. The registry is the one of the Rust wrapper with its bridge (`Model/Rust`). -/

namespace Rtbot

/-- What a key of the database holds; `last` is the duplicate policy: whether a second sample of the same time replaces the first or is an error. -/
inductive Entry (V : Type)
  | json (text : Str)
  | series (last : Bool) (samples : List (UInt64 × V))

/-- The server: its database, what has been published on channels, and the static `PIPELINES_REGISTRY` (pipelines_registry.rs:14). -/
structure Redis (β V : Type) where
  db : Map (Entry V)
  published : List (Str × UInt64 × V)
  registry : Option (Rs β)

/-- How a command ends: with an answer, with an error that is returned, with a panic, which ends the server, or never. -/
inductive Fate (σ α : Type)
  | ok (a : α) (s : σ)
  | err (s : σ)
  | panic (s : σ)
  | hang (s : σ)

variable {β V : Type}

/-- The server afterwards. -/
def Fate.state {σ α : Type} : Fate σ α → σ
  | .ok _ s | .err s | .panic s | .hang s => s

/-! ## Calls of Redis -/

/-- A sample enters a series: `none` when there is a sample of this time and the policy forbids a second one. -/
def insertSample (last : Bool) (t : UInt64) (v : V) : List (UInt64 × V) → Option (List (UInt64 × V))
  | [] => some [(t, v)]
  | (t', v') :: l =>
    if t < t' then some ((t, v) :: (t', v') :: l)
    else if t = t' then (if last then some ((t, v) :: l) else none)
    else (insertSample last t v l).map ((t', v') :: ·)

/-- `ts.add key time value`: `none` is an error. A new series has the policy BLOCK. -/
def tsAdd (wire : V → Option V) (key : Str) (t : UInt64) (v : V) (r : Redis β V) : Option (Redis β V) :=
  match wire v with
  | none => none
  | some v =>
    match r.db.find? key with
    | some (.json _) => none
    | none => some { r with db := r.db.put key (.series false [(t, v)]) }
    | some (.series last l) => (insertSample last t v l).map fun l => { r with db := r.db.put key (.series last l) }

/-- `json.get key`. -/
def jsonGet (key : Str) (r : Redis β V) : Option Str :=
  match r.db.find? key with
  | some (.json s) => some s
  | _ => none

/-- `ts.range key - +`. -/
def tsRange (key : Str) (r : Redis β V) : Option (List (UInt64 × V)) :=
  match r.db.find? key with
  | some (.series _ l) => some l
  | _ => none

/-- `ts.create key DUPLICATE_POLICY LAST`. -/
def tsCreate (key : Str) (r : Redis β V) : Option (Redis β V) :=
  match r.db.find? key with
  | some _ => none
  | none => some { r with db := r.db.put key (.series true []) }

/-- `del key`. -/
def del (key : Str) (r : Redis β V) : Redis β V := { r with db := r.db.erase key }

/-! ## The handler of events -/

/-- The loop of `on_generic_event` (rtbot_xrun.rs:41-81): the first value of the first message of each result is added to the series and published; errors are logged. -/
def publishAll (wire : V → Option V) : List (Str × List (RsMsg V)) → Redis β V → Fate (Redis β V) Unit
  | [], r => .ok () r
  | (_, []) :: rest, r => publishAll wire rest r
  | (o, m :: _) :: rest, r =>
    match m.values with
    | [] => .panic r
    | v :: _ =>
      let r := match tsAdd wire o m.time v r with
        | some r => r
        | none => r
      publishAll wire rest { r with published := r.published ++ [(o ++ b!":ps", m.time, v)] }

/-- `on_generic_event` for the event "ts.add" (rtbot_xrun.rs:5-84). The sample that is sent on is the last one of the series. -/
def onAdd (b : Bridge β V) (wire : V → Option V) (key : Str) (r : Redis β V) : Fate (Redis β V) Unit :=
  match tsRange key r with
  | none => .panic r
  | some l =>
    match l.getLast? with
    | none => .panic r
    | some (t, v) =>
      match r.registry with
      | none => .panic r
      | some g =>
        match g.receive b key ⟨t, [v]⟩ with
        | .err .diverge g => .hang { r with registry := some g }
        | .err _ g => .panic { r with registry := some g }
        | .ok res g => publishAll wire res { r with registry := some g }

/-- A `ts.add` by a client or by `rtbot.run`, with the event it raises. Errors of the handler do not reach the caller. -/
def addSample (b : Bridge β V) (wire : V → Option V) (key : Str) (t : UInt64) (v : V) (r : Redis β V) : Fate (Redis β V) Unit :=
  match tsAdd wire key t v r with
  | none => .err r
  | some r => match onAdd b wire key r with
    | .err r => .ok () r
    | x => x

/-! ## The check of programs -/

/-- The schema of programs (program_validator.rs:12-129). -/
def redisSchema : Schema :=
  .object [(b!"title", .string), (b!"description", .string), (b!"version", .string), (b!"author", .string), (b!"license", .string), (b!"entryNode", .string),
      (b!"optim", .object [(b!"algorithm", .string)] [] true),
      (b!"operators", .array (.object [(b!"id", .string), (b!"type", .string),
        (b!"parameters", .array (.object [(b!"name", .string), (b!"type", .enum [b!"integer", b!"float"]), (b!"value", .number),
          (b!"optim", .object [(b!"range", .object [(b!"min", .number), (b!"max", .number)] [] false)] [] false)]
          [b!"name", b!"type", b!"value"] false) 0 none)] [b!"id", b!"type"] true) 0 none),
      (b!"connections", .array (.object [(b!"from", .string), (b!"to", .string)] [b!"from", b!"to"] false) 0 none)]
    [b!"title", b!"entryNode", b!"operators", b!"connections"] true

/-! ## Commands -/

/-- What the commands depend on: the bridge of the registry, `wire`, and how texts are parsed. -/
structure RedisEnv (β V : Type) where
  bridge : Bridge β V
  wire : V → Option V
  parse : Parser V

/-- The results for one sample (rtbot_run.rs:86-105). -/
def storeAll (env : RedisEnv β V) : List (Str × List (RsMsg V)) → Redis β V → Fate (Redis β V) Unit
  | [], r => .ok () r
  | (_, []) :: rest, r => storeAll env rest r
  | (o, m :: _) :: rest, r =>
    match m.values with
    | [] => .panic r
    | v :: _ => match addSample env.bridge env.wire o m.time v r with
      | .ok _ r => storeAll env rest r
      | .err r => .err r
      | .panic r => .panic r
      | .hang r => .hang r

/-- The loop over the samples (rtbot_run.rs:66-106). -/
def runSamples (env : RedisEnv β V) (input : Str) : List (UInt64 × V) → Redis β V → Fate (Redis β V) Unit
  | [], r => .ok () r
  | (t, v) :: l, r =>
    match r.registry with
    | none => .panic r
    | some g =>
      match g.receive env.bridge input ⟨t, [v]⟩ with
      | .err .diverge g => .hang { r with registry := some g }
      | .err _ g => .err { r with registry := some g }
      | .ok res g => match storeAll env res { r with registry := some g } with
        | .ok _ r => runSamples env input l r
        | .err r => .err r
        | .panic r => .panic r
        | .hang r => .hang r

/-- The answer of `rtbot.run`. -/
inductive RunOk
  | ok
  | id (s : Str)
  deriving DecidableEq

/-- The registry: it is made when a command needs it for the first time (rtbot_run.rs:9-11). -/
def Redis.registryIn (lib : β) (r : Redis β V) : Rs β :=
  match r.registry with
  | none => ⟨[], false, lib⟩
  | some g => g

/-- `rtbot.run` after the arguments are read (rtbot_run.rs:24-114); `fresh` is the random id and `lib` the state of the library when the registry is new. -/
def rtbotRun (env : RedisEnv β V) (lib : β) (fresh program input output : Str) (persist : Bool) (r : Redis β V) : Fate (Redis β V) RunOk :=
  let g := r.registryIn lib
  let r := { r with registry := some g }
  match jsonGet program r with
  | none => .err r
  | some text =>
    match env.parse text with
    | .error _ => .err r
    | .ok j =>
      if redisSchema.accepts j then
        match g.create env.bridge fresh text input output with
        | .err .diverge g => .hang { r with registry := some g }
        | .err _ g => .err { r with registry := some g }
        | .ok _ g =>
          let r := { r with registry := some g }
          match tsRange input r with
          | none => .err r
          | some samples =>
            match tsCreate output (del output r) with
            | none => .err (del output r)
            | some r =>
              match runSamples env input samples r with
              | .err r => .err r
              | .panic r => .panic r
              | .hang r => .hang r
              | .ok _ r =>
                if persist then .ok (.id fresh) r
                else match r.registry with
                  | none => .panic r
                  | some g => match g.delete env.bridge input output with
                    | .err .diverge g => .hang { r with registry := some g }
                    | .err _ g => .err { r with registry := some g }
                    | .ok _ g => .ok .ok { r with registry := some g }
      else .err r

/-- `parse::<bool>` of the argument that may be missing (rtbot_run.rs:17-22). -/
def persistArg : List Str → Option Bool
  | [] => some false
  | s :: _ => if s = b!"true" then some true else if s = b!"false" then some false else none

/-- `rtbot.run` (rtbot_run.rs:8-115): the arguments after the name of the command. The registry is made before they are read. -/
def runCommand (env : RedisEnv β V) (lib : β) (fresh : Str) (args : List Str) (r : Redis β V) : Fate (Redis β V) RunOk :=
  match args with
  | program :: input :: output :: rest => match persistArg rest with
    | some persist => rtbotRun env lib fresh program input output persist r
    | none => .err { r with registry := some (r.registryIn lib) }
  | _ => .err { r with registry := some (r.registryIn lib) }

/-- `rtbot.xrun` (rtbot_xrun.rs:86-99). -/
def xrunCommand (env : RedisEnv β V) (lib : β) (fresh : Str) (args : List Str) (r : Redis β V) : Fate (Redis β V) RunOk :=
  match args with
  | program :: input :: output :: _ => runCommand env lib fresh [program, input, output, b!"true"] r
  | _ => .err r

end Rtbot
