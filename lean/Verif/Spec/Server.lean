import Verif.Model.Server
import Verif.Spec.Redis

/-! # Specification vocabulary: the websocket server -/

namespace Rtbot.Spec
variable {β V : Type}

/-- Decimal digits, leading zeros allowed, and their number. -/
inductive Decimal : Str → Nat → Prop
  | one (k : Nat) (h : k < 10) : Decimal [UInt8.ofNat (48 + k)] k
  | more {s : Str} {n : Nat} (k : Nat) (h : k < 10) : Decimal s n → Decimal (s ++ [UInt8.ofNat (48 + k)]) (10 * n + k)

/-- What Redis has published on the output channel since the server is subscribed to it, as clients should get it. -/
def announced (env : ServerEnv β V) (s : Server β V) : List ClientMsg :=
  match s.since with
  | none => []
  | some n => ((s.redis.published.drop n).filter fun p => p.1 = s.channel).map fun p => ⟨p.2.1, [env.text p.2.2]⟩

/-- How many of these have been handed to the clients. -/
def passedOn (env : ServerEnv β V) (s : Server β V) : Nat := (announced env s).length - s.queue.length

/-- What has been handed to the clients between two states. -/
def passedBetween (env : ServerEnv β V) (s s' : Server β V) : List ClientMsg :=
  ((announced env s').drop (passedOn env s)).take (passedOn env s' - passedOn env s)

/-- A message of the input as its documentation has it: the timestamp is a number where the mapping says, and so are the values. -/
structure InputOf (env : ServerEnv β V) (remap : Remap) (payload : Str) (t : UInt64) (vs : List V) : Prop where
  time : ∃ mapping, remap.timestamp = some mapping ∧ ∃ rest, env.find mapping payload = some (.uint t :: rest)
  values : List.Forall₂ (fun mapping v => ∃ s rest, env.find mapping payload = some (.str s :: rest) ∧ env.float s = some v) remap.values vs

/-- The samples that the messages of the input stand for; `none` for a message that cannot be read. -/
def sampled (env : ServerEnv β V) (remap : Remap) : List Move → List (Option (UInt64 × V))
  | [] => []
  | .input now payload :: l => readInput env remap now payload :: sampled env remap l
  | _ :: l => sampled env remap l

end Rtbot.Spec
