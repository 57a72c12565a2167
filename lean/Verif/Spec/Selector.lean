import Verif.Model.Create

/-! # Spec: the example program examples/data/program-test-4.json -/

namespace Rtbot.Spec
variable {V : Type} [Num V]

/-- examples/data/program-test-4.json. -/
def selectorJson (V : Type) : Json V := .obj [(b!"apiVersion", .str b!"v1"), (b!"author", .str b!"Eduardo"), (b!"connections", .arr [
    .obj [(b!"from", .str b!"in"), (b!"fromPort", .str b!"o1"), (b!"to", .str b!"dm"), (b!"toPort", .str b!"i1")],
    .obj [(b!"from", .str b!"in"), (b!"fromPort", .str b!"o1"), (b!"to", .str b!"count"), (b!"toPort", .str b!"i1")],
    .obj [(b!"from", .str b!"count"), (b!"fromPort", .str b!"o1"), (b!"to", .str b!"lt"), (b!"toPort", .str b!"i1")],
    .obj [(b!"from", .str b!"count"), (b!"fromPort", .str b!"o1"), (b!"to", .str b!"gt"), (b!"toPort", .str b!"i1")],
    .obj [(b!"from", .str b!"count"), (b!"fromPort", .str b!"o1"), (b!"to", .str b!"et"), (b!"toPort", .str b!"i1")],
    .obj [(b!"from", .str b!"lt"), (b!"fromPort", .str b!"o1"), (b!"to", .str b!"clt20o"), (b!"toPort", .str b!"i1")],
    .obj [(b!"from", .str b!"lt"), (b!"fromPort", .str b!"o1"), (b!"to", .str b!"clt20z"), (b!"toPort", .str b!"i1")],
    .obj [(b!"from", .str b!"clt20o"), (b!"fromPort", .str b!"o1"), (b!"to", .str b!"dm"), (b!"toPort", .str b!"c1")],
    .obj [(b!"from", .str b!"clt20z"), (b!"fromPort", .str b!"o1"), (b!"to", .str b!"dm"), (b!"toPort", .str b!"c2")],
    .obj [(b!"from", .str b!"gt"), (b!"fromPort", .str b!"o1"), (b!"to", .str b!"cgt20o"), (b!"toPort", .str b!"i1")],
    .obj [(b!"from", .str b!"gt"), (b!"fromPort", .str b!"o1"), (b!"to", .str b!"cgt20z"), (b!"toPort", .str b!"i1")],
    .obj [(b!"from", .str b!"cgt20o"), (b!"fromPort", .str b!"o1"), (b!"to", .str b!"dm"), (b!"toPort", .str b!"c2")],
    .obj [(b!"from", .str b!"cgt20z"), (b!"fromPort", .str b!"o1"), (b!"to", .str b!"dm"), (b!"toPort", .str b!"c1")],
    .obj [(b!"from", .str b!"et"), (b!"fromPort", .str b!"o1"), (b!"to", .str b!"cet20z"), (b!"toPort", .str b!"i1")],
    .obj [(b!"from", .str b!"et"), (b!"fromPort", .str b!"o1"), (b!"to", .str b!"cet20o"), (b!"toPort", .str b!"i1")],
    .obj [(b!"from", .str b!"cet20z"), (b!"fromPort", .str b!"o1"), (b!"to", .str b!"dm"), (b!"toPort", .str b!"c1")],
    .obj [(b!"from", .str b!"cet20o"), (b!"fromPort", .str b!"o1"), (b!"to", .str b!"dm"), (b!"toPort", .str b!"c2")]]),
  (b!"date", .str b!"now"), (b!"description", .str b!"This program is for testing the demultiplexer opperator"), (b!"entryOperator", .str b!"in"), (b!"license", .str b!"MIT"),
  (b!"operators", .arr [
    .obj [(b!"id", .str b!"in"), (b!"type", .str b!"Input")],
    .obj [(b!"id", .str b!"count"), (b!"type", .str b!"Count")],
    .obj [(b!"id", .str b!"dm"), (b!"numPorts", .uint 2), (b!"type", .str b!"Demultiplexer")],
    .obj [(b!"id", .str b!"lt"), (b!"type", .str b!"LessThan"), (b!"value", .uint 20)],
    .obj [(b!"id", .str b!"gt"), (b!"type", .str b!"GreaterThan"), (b!"value", .uint 20)],
    .obj [(b!"id", .str b!"et"), (b!"type", .str b!"EqualTo"), (b!"value", .uint 20)],
    .obj [(b!"id", .str b!"clt20z"), (b!"type", .str b!"Constant"), (b!"value", .uint 0)],
    .obj [(b!"id", .str b!"clt20o"), (b!"type", .str b!"Constant"), (b!"value", .uint 1)],
    .obj [(b!"id", .str b!"cet20z"), (b!"type", .str b!"Constant"), (b!"value", .uint 0)],
    .obj [(b!"id", .str b!"cet20o"), (b!"type", .str b!"Constant"), (b!"value", .uint 1)],
    .obj [(b!"id", .str b!"cgt20z"), (b!"type", .str b!"Constant"), (b!"value", .uint 0)],
    .obj [(b!"id", .str b!"cgt20o"), (b!"type", .str b!"Constant"), (b!"value", .uint 1)],
    .obj [(b!"id", .str b!"out"), (b!"numPorts", .uint 2), (b!"type", .str b!"Output")]]),
  (b!"title", .str b!"Join eager Input test")]

/-- The numbers up to `B` are told apart by the comparisons. -/
def Tells (V : Type) [Num V] (B : Nat) : Prop := ∀ a b : Nat, a ≤ B → b ≤ B →
  Num.lt (Num.ofNat a : V) (Num.ofNat b) = decide (a < b) ∧ Num.eq (Num.ofNat a : V) (Num.ofNat b) = decide (a = b)

end Rtbot.Spec
