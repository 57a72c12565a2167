import Verif.Model.Redis

/-! # The websocket server

Model of apps/rtbot-server/src: main.rs, push_redis_service.rs, pull_redis_service.rs, ws_client.rs, ws_handlers.rs and the mapping of config.rs.

The server has several tasks: one reads the input websocket and sends the samples to Redis, one gets what is published on the output channel, one hands it to the
clients, and each client has one that writes to its websocket. `Move` has one constructor for each step of a task or of the world outside, and a theorem about all lists
of moves is about all interleavings.

Simplified: a panic ends the task only (tokio catches it); what Redis publishes reaches the task that has subscribed at once; the ids of clients are given by the moves;
channels are unbounded lists; nobody else uses the keys of the server in Redis. JSONPath (`find`), the reading of numbers (`float`) and their texts (`text`) are
parameters. -/

namespace Rtbot
variable {β V : Type}

/-- What the server depends on: Redis, `JsonPathFinder::from_str(payload, mapping).unwrap().find().as_array().unwrap()` (`none`: a panic), `parse::<f64>` and the text of
a value. -/
structure ServerEnv (β V : Type) where
  redis : RedisEnv β V
  find : Str → Str → Option (List (Json V))
  float : Str → Option V
  text : V → Str

/-- `InputJsonPath` (config.rs:27-32). -/
structure Remap where
  timestamp : Option Str
  values : List Str
  deriving DecidableEq

/-- What serde makes of the section: a missing member is that of `Default` (config.rs:25, 34-41). The outer `none` is a missing member, the inner one a null. -/
def remapOf (timestamp : Option (Option Str)) (values : Option (List Str)) : Remap :=
  ⟨match timestamp with
    | none => some b!"$.timestamp"
    | some t => t,
   match values with
    | none => [b!"$.value"]
    | some l => l⟩

/-- `as_u64` of serde_json. -/
def asU64 : Json V → Option UInt64
  | .uint n => some n
  | .int i => if 0 ≤ i ∧ i < 18446744073709551616 then some (UInt64.ofNat i.toNat) else none
  | _ => none

/-- The timestamp of a message (main.rs:144-160); `none` is a panic. -/
def readTime (env : ServerEnv β V) (remap : Remap) (now : UInt64) (payload : Str) : Option UInt64 :=
  match remap.timestamp with
  | none => some now
  | some mapping => match env.find mapping payload with
    | some (j :: _) => asU64 j
    | _ => none

/-- One value of a message (main.rs:167-185); the outer `none` is a panic. -/
def readValue (env : ServerEnv β V) (payload mapping : Str) : Option (Option V) :=
  match env.find mapping payload with
  | some (.str s :: _) => some (env.float s)
  | some (_ :: _) => some none
  | _ => none

/-- What is sent to Redis for a message (main.rs:144-191): the first value; `none` is a panic. -/
def readInput (env : ServerEnv β V) (remap : Remap) (now : UInt64) (payload : Str) : Option (UInt64 × V) :=
  match readTime env remap now payload with
  | none => none
  | some t => match remap.values.mapM (readValue env payload) with
    | some (some v :: _) => some (t, v)
    | _ => none

/-- `format!("{},{}", timestamp, value)` (rtbot_xrun.rs:70). -/
def wireText (env : ServerEnv β V) (t : UInt64) (v : V) : Str := toStr t.toNat ++ [44] ++ env.text v

/-- `split(",")` (pull_redis_service.rs:34-37). -/
def splitComma : Str → List Str
  | [] => [[]]
  | c :: s => match splitComma s with
    | [] => [[]]
    | w :: ws => if c = 44 then [] :: w :: ws else (c :: w) :: ws

/-- The digits of a number. -/
def digitsVal : Str → Nat → Option Nat
  | [], n => some n
  | c :: s, n => if 48 ≤ c ∧ c ≤ 57 then digitsVal s (10 * n + (c.toNat - 48)) else none

/-- A plus sign in front is allowed. -/
def dropPlus : Str → Str
  | [] => []
  | c :: s => if c = 43 then s else c :: s

/-- `parse::<u64>`. -/
def parseU64 (s : Str) : Option UInt64 :=
  match dropPlus s with
  | [] => none
  | d :: r => match digitsVal (d :: r) 0 with
    | some n => if n < 18446744073709551616 then some (UInt64.ofNat n) else none
    | none => none

/-- `ClientMessage::Data` (ws_client.rs:10-13). -/
structure ClientMsg where
  timestamp : UInt64
  values : List Str
  deriving DecidableEq

/-- A client: whether its task runs, what waits in its channel, and what was written to its websocket (ws_client.rs:15-18). -/
structure WsClient where
  open_ : Bool
  queue : List ClientMsg
  sent : List ClientMsg
  deriving DecidableEq

/-- The server. `up`: Redis runs; `reading`: the task for the input runs; `since`: how much had been published when the subscription began; `queue`: the channel
between the tasks; `sending`: the task that serves the clients runs. -/
structure Server (β V : Type) where
  redis : Redis β V
  up : Bool
  key : Str
  channel : Str
  remap : Remap
  reading : Bool
  since : Option Nat
  queue : List (List Str)
  sending : Bool
  clients : Map WsClient

/-- The payloads that were published on a channel. -/
def onChannel (env : ServerEnv β V) (channel : Str) (l : List (Str × UInt64 × V)) : List Str :=
  (l.filter fun p => p.1 = channel).map fun p => wireText env p.2.1 p.2.2

/-- `PushRedisService::start` (push_redis_service.rs:22-63); `id` is random. The answer is the input key and the channel. JSON.SET refuses what is not JSON and a key that
holds a series. -/
def pushStart (env : ServerEnv β V) (lib : β) (fresh id program : Str) (r : Redis β V) : Fate (Redis β V) (Str × Str) :=
  let input := b!"p:i:" ++ id
  match tsCreate input r with
  | none => .err r
  | some r => match env.redis.parse program, r.db.find? (b!"p:" ++ id) with
    | .error _, _ => .err r
    | .ok _, some (.series _ _) => .err r
    | .ok _, _ =>
      let r := { r with db := r.db.put (b!"p:" ++ id) (.json program) }
      match xrunCommand env.redis lib fresh [b!"p:" ++ id, input, b!"p:o:" ++ id] r with
      | .ok _ r => .ok (input, b!"p:o:" ++ id ++ b!":ps") r
      | .err r => .err r
      | .panic r => .panic r
      | .hang r => .hang r

/-- The server when the tasks have been started (main.rs:46-104). -/
def Server.started (remap : Remap) (keys : Str × Str) (r : Redis β V) : Server β V := ⟨r, true, keys.1, keys.2, remap, true, none, [], true, []⟩

/-- One step. -/
inductive Move
  /-- a text arrives at the input websocket -/
  | input (now : UInt64) (payload : Str)
  /-- the subscription takes effect -/
  | subscribe
  /-- the next message is handed to the clients -/
  | deliver
  /-- a client connects -/
  | join (id : Str)
  /-- a client's task writes its next message -/
  | write (id : Str)
  /-- a client's websocket fails: its task panics -/
  | fail (id : Str)
  deriving DecidableEq

/-- Redis has done something: what it published goes to the task that has subscribed (pull_redis_service.rs:31-40). -/
def Server.heard (env : ServerEnv β V) (r : Redis β V) (s : Server β V) : Server β V :=
  match s.since with
  | none => { s with redis := r }
  | some _ => { s with redis := r, queue := s.queue ++ (onChannel env s.channel (r.published.drop s.redis.published.length)).map splitComma }

/-- The message for the clients (main.rs:58-67); `none` is a panic. -/
def clientMsg : List Str → Option ClientMsg
  | [] => none
  | t :: vs => (parseU64 t).map fun t => ⟨t, vs⟩

/-- `client_handle.send` fails when the client's task has ended; such clients are removed (main.rs:64-76). -/
def sendAll (m : ClientMsg) : Map WsClient → Map WsClient
  | [] => []
  | (id, c) :: rest => if c.open_ then (id, { c with queue := c.queue ++ [m] }) :: sendAll m rest else sendAll m rest

/-- A step of a client's task (ws_client.rs:31-45, 67-71). -/
def WsClient.write (c : WsClient) : WsClient :=
  match c.open_, c.queue with
  | true, m :: q => { c with queue := q, sent := c.sent ++ [m] }
  | _, _ => c

/-- Change a client. -/
def onClient (id : Str) (f : WsClient → WsClient) (cs : Map WsClient) : Map WsClient :=
  match cs.find? id with
  | none => cs
  | some c => cs.put id (f c)

/-- One step of the server. -/
def Server.step (env : ServerEnv β V) (m : Move) (s : Server β V) : Server β V :=
  match m with
  | .input now payload =>
    if s.reading then
      match readInput env s.remap now payload with
      | none => { s with reading := false }
      | some (t, v) =>
        if s.up then
          match addSample env.redis.bridge env.redis.wire s.key t v s.redis with
          | .ok _ r => s.heard env r
          | .err r => s.heard env r
          | .panic r => { s.heard env r with up := false }
          | .hang r => { s.heard env r with up := false, reading := false }
        else s
    else s
  | .subscribe =>
    if s.up then
      match s.since with
      | none => { s with since := some s.redis.published.length }
      | some _ => s
    else s
  | .deliver =>
    if s.sending then
      match s.queue with
      | [] => s
      | x :: q =>
        if s.clients = [] then { s with queue := q }
        else match clientMsg x with
          | none => { s with queue := q, sending := false }
          | some m => { s with queue := q, clients := sendAll m s.clients }
    else s
  | .join id => { s with clients := s.clients.put id ⟨true, [], []⟩ }
  | .write id => { s with clients := onClient id WsClient.write s.clients }
  | .fail id => { s with clients := onClient id (fun c => { c with open_ := false, queue := [] }) s.clients }

/-- Steps in order. -/
def Server.steps (env : ServerEnv β V) (l : List Move) (s : Server β V) : Server β V := l.foldl (fun s m => s.step env m) s

end Rtbot
