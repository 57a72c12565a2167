import Verif.Spec.Trail
import Verif.Spec.Examples
import Verif.Spec.Numeric
import Verif.Model.Create

/-! # The example program "Bollinger Bands" -/

namespace Rtbot.Spec

/-- examples/data/program-test-6.json. -/
def bandsJson (V : Type) : Json V := .obj [(b!"apiVersion", .str b!"v1"), (b!"author", .str b!"Eduardo"), (b!"connections", .arr [
    .obj [(b!"from", .str b!"510"), (b!"fromPort", .str b!"o1"), (b!"to", .str b!"37"), (b!"toPort", .str b!"i3")],
    .obj [(b!"from", .str b!"495"), (b!"fromPort", .str b!"o1"), (b!"to", .str b!"37"), (b!"toPort", .str b!"i1")],
    .obj [(b!"from", .str b!"861"), (b!"fromPort", .str b!"o1"), (b!"to", .str b!"37"), (b!"toPort", .str b!"i2")],
    .obj [(b!"from", .str b!"996"), (b!"fromPort", .str b!"o1"), (b!"to", .str b!"495"), (b!"toPort", .str b!"i2")],
    .obj [(b!"from", .str b!"510"), (b!"fromPort", .str b!"o1"), (b!"to", .str b!"495"), (b!"toPort", .str b!"i1")],
    .obj [(b!"from", .str b!"996"), (b!"fromPort", .str b!"o1"), (b!"to", .str b!"861"), (b!"toPort", .str b!"i2")],
    .obj [(b!"from", .str b!"510"), (b!"fromPort", .str b!"o1"), (b!"to", .str b!"861"), (b!"toPort", .str b!"i1")],
    .obj [(b!"from", .str b!"865"), (b!"fromPort", .str b!"o1"), (b!"to", .str b!"996"), (b!"toPort", .str b!"i1")],
    .obj [(b!"from", .str b!"262"), (b!"fromPort", .str b!"o1"), (b!"to", .str b!"865"), (b!"toPort", .str b!"i1")],
    .obj [(b!"from", .str b!"262"), (b!"fromPort", .str b!"o1"), (b!"to", .str b!"510"), (b!"toPort", .str b!"i1")],
    .obj [(b!"from", .str b!"754"), (b!"fromPort", .str b!"o1"), (b!"to", .str b!"262"), (b!"toPort", .str b!"i1")]]),
  (b!"date", .str b!"now"), (b!"description", .str b!"This program is generated by the compiler, it represents the bollinger bands operator"),
  (b!"entryOperator", .str b!"754"), (b!"operators", .arr [
    .obj [(b!"id", .str b!"37"), (b!"numPorts", .uint 3), (b!"type", .str b!"Output")],
    .obj [(b!"id", .str b!"495"), (b!"type", .str b!"Minus")],
    .obj [(b!"id", .str b!"861"), (b!"type", .str b!"Plus")],
    .obj [(b!"id", .str b!"996"), (b!"type", .str b!"Scale"), (b!"value", .uint 2)],
    .obj [(b!"id", .str b!"865"), (b!"n", .uint 14), (b!"type", .str b!"StandardDeviation")],
    .obj [(b!"id", .str b!"510"), (b!"n", .uint 14), (b!"type", .str b!"MovingAverage")],
    .obj [(b!"dt", .uint 1), (b!"id", .str b!"262"), (b!"type", .str b!"HermiteResampler")],
    .obj [(b!"id", .str b!"754"), (b!"numPorts", .uint 1), (b!"type", .str b!"Input")]]),
  (b!"output", .obj [(b!"37", .arr [.str b!"o2", .str b!"o1", .str b!"o3"])]), (b!"title", .str b!"Bollinger Bands")]

/-- The middle band: the mean of the last 14 values. -/
noncomputable def middleBand (ms : List (Msg ℝ)) : List (Msg ℝ) := trail 14 mean ms
/-- The lower band: twice the standard deviation below. -/
noncomputable def lowerBand (ms : List (Msg ℝ)) : List (Msg ℝ) := trail 14 (fun w => mean w - 2 * sampleStdDev w) ms
/-- The upper band: twice the standard deviation above. -/
noncomputable def upperBand (ms : List (Msg ℝ)) : List (Msg ℝ) := trail 14 (fun w => mean w + 2 * sampleStdDev w) ms

end Rtbot.Spec
