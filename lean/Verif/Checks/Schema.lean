import Verif.Model.Schema
import Verif.Spec.Schema
import Verif.Spec.Exact

/-! # libs/api/test/test_json_schema_validation.cpp and libs/wrappers/python/rtbot_test.py: validation -/

namespace Rtbot.Checks
open Rtbot.Spec

/-! ## test_json_schema_validation.cpp, program-test-1.json -/

def described1 : Json ℚ := .obj [(b!"apiVersion", .str b!"v1"), (b!"author", .str b!"Someone <someone@gmail.com>"), (b!"connections", .arr [
    .obj [(b!"from", .str b!"in1"), (b!"fromPort", .str b!"o1"), (b!"to", .str b!"ma1"), (b!"toPort", .str b!"i1")],
    .obj [(b!"from", .str b!"ma1"), (b!"fromPort", .str b!"o1"), (b!"to", .str b!"minus"), (b!"toPort", .str b!"i1")],
    .obj [(b!"from", .str b!"minus"), (b!"fromPort", .str b!"o1"), (b!"to", .str b!"peak"), (b!"toPort", .str b!"i1")],
    .obj [(b!"from", .str b!"peak"), (b!"fromPort", .str b!"o1"), (b!"to", .str b!"join"), (b!"toPort", .str b!"i1")],
    .obj [(b!"from", .str b!"join"), (b!"fromPort", .str b!"o2"), (b!"to", .str b!"out1"), (b!"toPort", .str b!"i1")],
    .obj [(b!"from", .str b!"in1"), (b!"fromPort", .str b!"o1"), (b!"to", .str b!"ma2"), (b!"toPort", .str b!"i1")],
    .obj [(b!"from", .str b!"ma2"), (b!"fromPort", .str b!"o1"), (b!"to", .str b!"minus"), (b!"toPort", .str b!"i2")],
    .obj [(b!"from", .str b!"in1"), (b!"fromPort", .str b!"o1"), (b!"to", .str b!"join"), (b!"toPort", .str b!"i2")]]), (b!"date", .str b!"1985-04-12"), (b!"description", .str b!"This is a program to detect peaks in PPG..."), (b!"entryOperator", .str b!"in1"), (b!"license", .str b!"MIT"), (b!"operators", .arr [
    .obj [(b!"id", .str b!"in1"), (b!"type", .str b!"Input")],
    .obj [(b!"id", .str b!"ma1"), (b!"n", .uint 6), (b!"type", .str b!"MovingAverage")],
    .obj [(b!"id", .str b!"ma2"), (b!"n", .uint 250), (b!"type", .str b!"MovingAverage")],
    .obj [(b!"id", .str b!"minus"), (b!"type", .str b!"Minus")],
    .obj [(b!"id", .str b!"peak"), (b!"n", .uint 13), (b!"type", .str b!"PeakDetector")],
    .obj [(b!"id", .str b!"join"), (b!"numPorts", .uint 2), (b!"type", .str b!"Join")],
    .obj [(b!"id", .str b!"out1"), (b!"numPorts", .uint 1), (b!"type", .str b!"Output")]]), (b!"output", .obj [(b!"out1", .arr [.str b!"o1"])]), (b!"title", .str b!"Peak detector")]

/-- "validates a valid program" -/
example : validates (parsed described1) [] = true := by decide +kernel

/-- "validates a valid operator" -/
example : validatesOp (parsed (.obj [(b!"id", .str b!"id"), (b!"type", .str b!"Input")] : Json ℚ)) b!"Input" [] = true := by decide +kernel

/-- "fails with an invalid operator" -/
example : validatesOp (parsed (.obj [(b!"type", .str b!"Input")] : Json ℚ)) b!"Input" [] = false := by decide +kernel

/-! ## rtbot_test.py -/

def pythonProgram : Json ℚ := .obj [(b!"apiVersion", .str b!"v1"), (b!"author", .str b!"Someone <someone@gmail.com>"), (b!"connections", .arr [
    .obj [(b!"from", .str b!"in1"), (b!"fromPort", .str b!"o1"), (b!"to", .str b!"ma1"), (b!"toPort", .str b!"i1")]]), (b!"date", .str b!"2000-01-01"), (b!"description", .str b!"This is a program to detect peaks in PPG..."), (b!"entryOperator", .str b!"in1"), (b!"license", .str b!"MIT"), (b!"operators", .arr [
    .obj [(b!"id", .str b!"in1"), (b!"type", .str b!"Input")],
    .obj [(b!"id", .str b!"ma1"), (b!"n", .uint 6), (b!"type", .str b!"MovingAverage")]]), (b!"title", .str b!"Peak detector")]

/-- test_validate_valid_program -/
example : validates (parsed pythonProgram) [] = true := by decide +kernel

/-- test_invalidate_valid_program -/
example : validates (parsed (.obj [] : Json ℚ)) [] = false := by decide +kernel

/-! ## The other example programs

Their "date" is "now", which is not a date; otherwise they are accepted. -/

def described2 (date : Str) : Json ℚ := .obj [(b!"apiVersion", .str b!"v1"), (b!"author", .str b!"Eduardo"), (b!"connections", .arr [
    .obj [(b!"from", .str b!"in1"), (b!"fromPort", .str b!"o1"), (b!"to", .str b!"peak"), (b!"toPort", .str b!"i1")],
    .obj [(b!"from", .str b!"peak"), (b!"fromPort", .str b!"o1"), (b!"to", .str b!"join"), (b!"toPort", .str b!"i1")],
    .obj [(b!"from", .str b!"in1"), (b!"fromPort", .str b!"o1"), (b!"to", .str b!"join"), (b!"toPort", .str b!"i2")]]), (b!"date", .str date), (b!"description", .str b!"This is a program to detect peaks"), (b!"entryOperator", .str b!"in1"), (b!"license", .str b!"MIT"), (b!"operators", .arr [
    .obj [(b!"id", .str b!"in1"), (b!"type", .str b!"Input")],
    .obj [(b!"id", .str b!"peak"), (b!"n", .uint 3), (b!"type", .str b!"PeakDetector")],
    .obj [(b!"id", .str b!"join"), (b!"numPorts", .uint 2), (b!"type", .str b!"Join")]]), (b!"title", .str b!"Peak detector")]

example : validates (parsed (described2 b!"now")) [] = false ∧ validates (parsed (described2 b!"2024-01-01")) [] = true := by decide +kernel

def described3 (date : Str) : Json ℚ := .obj [(b!"apiVersion", .str b!"v1"), (b!"author", .str b!"Eduardo"), (b!"connections", .arr [
    .obj [(b!"from", .str b!"in1"), (b!"fromPort", .str b!"o1"), (b!"to", .str b!"id1"), (b!"toPort", .str b!"i1")],
    .obj [(b!"from", .str b!"id1"), (b!"fromPort", .str b!"o1"), (b!"to", .str b!"join"), (b!"toPort", .str b!"i1")],
    .obj [(b!"from", .str b!"id1"), (b!"fromPort", .str b!"o1"), (b!"to", .str b!"join"), (b!"toPort", .str b!"i2")],
    .obj [(b!"from", .str b!"join"), (b!"fromPort", .str b!"o1"), (b!"to", .str b!"sc1"), (b!"toPort", .str b!"i1")],
    .obj [(b!"from", .str b!"join"), (b!"fromPort", .str b!"o2"), (b!"to", .str b!"sc2"), (b!"toPort", .str b!"i1")],
    .obj [(b!"from", .str b!"sc1"), (b!"fromPort", .str b!"o1"), (b!"to", .str b!"out1"), (b!"toPort", .str b!"i1")],
    .obj [(b!"from", .str b!"sc2"), (b!"fromPort", .str b!"o1"), (b!"to", .str b!"out1"), (b!"toPort", .str b!"i2")]]), (b!"date", .str date), (b!"description", .str b!"This is a program to test the join operator"), (b!"entryOperator", .str b!"in1"), (b!"license", .str b!"MIT"), (b!"operators", .arr [
    .obj [(b!"id", .str b!"in1"), (b!"type", .str b!"Input")],
    .obj [(b!"id", .str b!"id1"), (b!"type", .str b!"Identity")],
    .obj [(b!"id", .str b!"join"), (b!"numPorts", .uint 2), (b!"type", .str b!"Join")],
    .obj [(b!"id", .str b!"sc1"), (b!"type", .str b!"Scale"), (b!"value", .uint 2)],
    .obj [(b!"id", .str b!"sc2"), (b!"type", .str b!"Scale"), (b!"value", .uint 3)],
    .obj [(b!"id", .str b!"out1"), (b!"numPorts", .uint 2), (b!"type", .str b!"Output")]]), (b!"title", .str b!"Join Operator Test")]

example : validates (parsed (described3 b!"now")) [] = false ∧ validates (parsed (described3 b!"2024-01-01")) [] = true := by decide +kernel

def described4 (date : Str) : Json ℚ := .obj [(b!"apiVersion", .str b!"v1"), (b!"author", .str b!"Eduardo"), (b!"connections", .arr [
    .obj [(b!"from", .str b!"in"), (b!"fromPort", .str b!"o1"), (b!"to", .str b!"dm"), (b!"toPort", .str b!"i1")],
    .obj [(b!"from", .str b!"in"), (b!"fromPort", .str b!"o1"), (b!"to", .str b!"count"), (b!"toPort", .str b!"i1")],
    .obj [(b!"from", .str b!"count"), (b!"fromPort", .str b!"o1"), (b!"to", .str b!"lt"), (b!"toPort", .str b!"i1")],
    .obj [(b!"from", .str b!"count"), (b!"fromPort", .str b!"o1"), (b!"to", .str b!"gt"), (b!"toPort", .str b!"i1")],
    .obj [(b!"from", .str b!"count"), (b!"fromPort", .str b!"o1"), (b!"to", .str b!"et"), (b!"toPort", .str b!"i1")],
    .obj [(b!"from", .str b!"lt"), (b!"fromPort", .str b!"o1"), (b!"to", .str b!"clt20o"), (b!"toPort", .str b!"i1")],
    .obj [(b!"from", .str b!"lt"), (b!"fromPort", .str b!"o1"), (b!"to", .str b!"clt20z"), (b!"toPort", .str b!"i1")],
    .obj [(b!"from", .str b!"clt20o"), (b!"fromPort", .str b!"o1"), (b!"to", .str b!"dm"), (b!"toPort", .str b!"c1")],
    .obj [(b!"from", .str b!"clt20z"), (b!"fromPort", .str b!"o1"), (b!"to", .str b!"dm"), (b!"toPort", .str b!"c2")],
    .obj [(b!"from", .str b!"gt"), (b!"fromPort", .str b!"o1"), (b!"to", .str b!"cgt20o"), (b!"toPort", .str b!"i1")],
    .obj [(b!"from", .str b!"gt"), (b!"fromPort", .str b!"o1"), (b!"to", .str b!"cgt20z"), (b!"toPort", .str b!"i1")],
    .obj [(b!"from", .str b!"cgt20o"), (b!"fromPort", .str b!"o1"), (b!"to", .str b!"dm"), (b!"toPort", .str b!"c2")],
    .obj [(b!"from", .str b!"cgt20z"), (b!"fromPort", .str b!"o1"), (b!"to", .str b!"dm"), (b!"toPort", .str b!"c1")],
    .obj [(b!"from", .str b!"et"), (b!"fromPort", .str b!"o1"), (b!"to", .str b!"cet20z"), (b!"toPort", .str b!"i1")],
    .obj [(b!"from", .str b!"et"), (b!"fromPort", .str b!"o1"), (b!"to", .str b!"cet20o"), (b!"toPort", .str b!"i1")],
    .obj [(b!"from", .str b!"cet20z"), (b!"fromPort", .str b!"o1"), (b!"to", .str b!"dm"), (b!"toPort", .str b!"c1")],
    .obj [(b!"from", .str b!"cet20o"), (b!"fromPort", .str b!"o1"), (b!"to", .str b!"dm"), (b!"toPort", .str b!"c2")]]), (b!"date", .str date), (b!"description", .str b!"This program is for testing the demultiplexer opperator"), (b!"entryOperator", .str b!"in"), (b!"license", .str b!"MIT"), (b!"operators", .arr [
    .obj [(b!"id", .str b!"in"), (b!"type", .str b!"Input")],
    .obj [(b!"id", .str b!"count"), (b!"type", .str b!"Count")],
    .obj [(b!"id", .str b!"dm"), (b!"numPorts", .uint 2), (b!"type", .str b!"Demultiplexer")],
    .obj [(b!"id", .str b!"lt"), (b!"type", .str b!"LessThan"), (b!"value", .uint 20)],
    .obj [(b!"id", .str b!"gt"), (b!"type", .str b!"GreaterThan"), (b!"value", .uint 20)],
    .obj [(b!"id", .str b!"et"), (b!"type", .str b!"EqualTo"), (b!"value", .uint 20)],
    .obj [(b!"id", .str b!"clt20z"), (b!"type", .str b!"Constant"), (b!"value", .uint 0)],
    .obj [(b!"id", .str b!"clt20o"), (b!"type", .str b!"Constant"), (b!"value", .uint 1)],
    .obj [(b!"id", .str b!"cet20z"), (b!"type", .str b!"Constant"), (b!"value", .uint 0)],
    .obj [(b!"id", .str b!"cet20o"), (b!"type", .str b!"Constant"), (b!"value", .uint 1)],
    .obj [(b!"id", .str b!"cgt20z"), (b!"type", .str b!"Constant"), (b!"value", .uint 0)],
    .obj [(b!"id", .str b!"cgt20o"), (b!"type", .str b!"Constant"), (b!"value", .uint 1)],
    .obj [(b!"id", .str b!"out"), (b!"numPorts", .uint 2), (b!"type", .str b!"Output")]]), (b!"title", .str b!"Join eager Input test")]

example : validates (parsed (described4 b!"now")) [] = false ∧ validates (parsed (described4 b!"2024-01-01")) [] = true := by decide +kernel

def described5 (date : Str) : Json ℚ := .obj [(b!"apiVersion", .str b!"v1"), (b!"author", .str b!"Eduardo"), (b!"connections", .arr [
    .obj [(b!"from", .str b!"911"), (b!"fromPort", .str b!"o1"), (b!"to", .str b!"467"), (b!"toPort", .str b!"i1")],
    .obj [(b!"from", .str b!"216"), (b!"fromPort", .str b!"o1"), (b!"to", .str b!"911"), (b!"toPort", .str b!"i1")],
    .obj [(b!"from", .str b!"232"), (b!"fromPort", .str b!"o1"), (b!"to", .str b!"216"), (b!"toPort", .str b!"i1")],
    .obj [(b!"from", .str b!"420"), (b!"fromPort", .str b!"o1"), (b!"to", .str b!"232"), (b!"toPort", .str b!"i1")],
    .obj [(b!"from", .str b!"287"), (b!"fromPort", .str b!"o1"), (b!"to", .str b!"420"), (b!"toPort", .str b!"i1")],
    .obj [(b!"from", .str b!"130"), (b!"fromPort", .str b!"o1"), (b!"to", .str b!"287"), (b!"toPort", .str b!"i2")],
    .obj [(b!"from", .str b!"876"), (b!"fromPort", .str b!"o1"), (b!"to", .str b!"287"), (b!"toPort", .str b!"i2")],
    .obj [(b!"from", .str b!"746"), (b!"fromPort", .str b!"o1"), (b!"to", .str b!"287"), (b!"toPort", .str b!"i1")],
    .obj [(b!"from", .str b!"946"), (b!"fromPort", .str b!"o1"), (b!"to", .str b!"287"), (b!"toPort", .str b!"i1")],
    .obj [(b!"from", .str b!"130"), (b!"fromPort", .str b!"o1"), (b!"to", .str b!"837"), (b!"toPort", .str b!"i1")],
    .obj [(b!"from", .str b!"177"), (b!"fromPort", .str b!"o1"), (b!"to", .str b!"130"), (b!"toPort", .str b!"i2")],
    .obj [(b!"from", .str b!"855"), (b!"fromPort", .str b!"o1"), (b!"to", .str b!"130"), (b!"toPort", .str b!"i2")],
    .obj [(b!"from", .str b!"572"), (b!"fromPort", .str b!"o1"), (b!"to", .str b!"130"), (b!"toPort", .str b!"i2")],
    .obj [(b!"from", .str b!"837"), (b!"fromPort", .str b!"o1"), (b!"to", .str b!"130"), (b!"toPort", .str b!"i1")],
    .obj [(b!"from", .str b!"746"), (b!"fromPort", .str b!"o1"), (b!"to", .str b!"717"), (b!"toPort", .str b!"i1")],
    .obj [(b!"from", .str b!"177"), (b!"fromPort", .str b!"o1"), (b!"to", .str b!"746"), (b!"toPort", .str b!"i2")],
    .obj [(b!"from", .str b!"136"), (b!"fromPort", .str b!"o1"), (b!"to", .str b!"746"), (b!"toPort", .str b!"i2")],
    .obj [(b!"from", .str b!"794"), (b!"fromPort", .str b!"o1"), (b!"to", .str b!"746"), (b!"toPort", .str b!"i2")],
    .obj [(b!"from", .str b!"717"), (b!"fromPort", .str b!"o1"), (b!"to", .str b!"746"), (b!"toPort", .str b!"i1")],
    .obj [(b!"from", .str b!"876"), (b!"fromPort", .str b!"o1"), (b!"to", .str b!"837"), (b!"toPort", .str b!"i1")],
    .obj [(b!"from", .str b!"946"), (b!"fromPort", .str b!"o1"), (b!"to", .str b!"717"), (b!"toPort", .str b!"i1")],
    .obj [(b!"from", .str b!"342"), (b!"fromPort", .str b!"o1"), (b!"to", .str b!"855"), (b!"toPort", .str b!"i1")],
    .obj [(b!"from", .str b!"764"), (b!"fromPort", .str b!"o1"), (b!"to", .str b!"177"), (b!"toPort", .str b!"i1")],
    .obj [(b!"from", .str b!"342"), (b!"fromPort", .str b!"o1"), (b!"to", .str b!"136"), (b!"toPort", .str b!"i1")],
    .obj [(b!"from", .str b!"794"), (b!"fromPort", .str b!"o1"), (b!"to", .str b!"572"), (b!"toPort", .str b!"i1")],
    .obj [(b!"from", .str b!"887"), (b!"fromPort", .str b!"o1"), (b!"to", .str b!"342"), (b!"toPort", .str b!"i1")],
    .obj [(b!"from", .str b!"887"), (b!"fromPort", .str b!"o1"), (b!"to", .str b!"764"), (b!"toPort", .str b!"i1")],
    .obj [(b!"from", .str b!"887"), (b!"fromPort", .str b!"o1"), (b!"to", .str b!"794"), (b!"toPort", .str b!"i1")],
    .obj [(b!"from", .str b!"144"), (b!"fromPort", .str b!"o2"), (b!"to", .str b!"887"), (b!"toPort", .str b!"i1")],
    .obj [(b!"from", .str b!"996"), (b!"fromPort", .str b!"o1"), (b!"to", .str b!"876"), (b!"toPort", .str b!"c1")],
    .obj [(b!"from", .str b!"861"), (b!"fromPort", .str b!"o1"), (b!"to", .str b!"876"), (b!"toPort", .str b!"i1")],
    .obj [(b!"from", .str b!"649"), (b!"fromPort", .str b!"o1"), (b!"to", .str b!"876"), (b!"toPort", .str b!"i1")],
    .obj [(b!"from", .str b!"996"), (b!"fromPort", .str b!"o1"), (b!"to", .str b!"946"), (b!"toPort", .str b!"c1")],
    .obj [(b!"from", .str b!"861"), (b!"fromPort", .str b!"o1"), (b!"to", .str b!"946"), (b!"toPort", .str b!"i1")],
    .obj [(b!"from", .str b!"654"), (b!"fromPort", .str b!"o1"), (b!"to", .str b!"946"), (b!"toPort", .str b!"i1")],
    .obj [(b!"from", .str b!"138"), (b!"fromPort", .str b!"o1"), (b!"to", .str b!"649"), (b!"toPort", .str b!"i1")],
    .obj [(b!"from", .str b!"58"), (b!"fromPort", .str b!"o1"), (b!"to", .str b!"654"), (b!"toPort", .str b!"i1")],
    .obj [(b!"from", .str b!"28"), (b!"fromPort", .str b!"o1"), (b!"to", .str b!"138"), (b!"toPort", .str b!"i1")],
    .obj [(b!"from", .str b!"416"), (b!"fromPort", .str b!"o1"), (b!"to", .str b!"138"), (b!"toPort", .str b!"i1")],
    .obj [(b!"from", .str b!"180"), (b!"fromPort", .str b!"o1"), (b!"to", .str b!"416"), (b!"toPort", .str b!"i1")],
    .obj [(b!"from", .str b!"28"), (b!"fromPort", .str b!"o1"), (b!"to", .str b!"58"), (b!"toPort", .str b!"i1")],
    .obj [(b!"from", .str b!"806"), (b!"fromPort", .str b!"o1"), (b!"to", .str b!"58"), (b!"toPort", .str b!"i1")],
    .obj [(b!"from", .str b!"34"), (b!"fromPort", .str b!"o1"), (b!"to", .str b!"180"), (b!"toPort", .str b!"i1")],
    .obj [(b!"from", .str b!"34"), (b!"fromPort", .str b!"o1"), (b!"to", .str b!"28"), (b!"toPort", .str b!"i1")],
    .obj [(b!"from", .str b!"34"), (b!"fromPort", .str b!"o1"), (b!"to", .str b!"806"), (b!"toPort", .str b!"i1")],
    .obj [(b!"from", .str b!"144"), (b!"fromPort", .str b!"o1"), (b!"to", .str b!"34"), (b!"toPort", .str b!"i1")],
    .obj [(b!"from", .str b!"98"), (b!"fromPort", .str b!"o1"), (b!"to", .str b!"144"), (b!"toPort", .str b!"c2")],
    .obj [(b!"from", .str b!"434"), (b!"fromPort", .str b!"o1"), (b!"to", .str b!"144"), (b!"toPort", .str b!"c2")],
    .obj [(b!"from", .str b!"37"), (b!"fromPort", .str b!"o1"), (b!"to", .str b!"144"), (b!"toPort", .str b!"c1")],
    .obj [(b!"from", .str b!"283"), (b!"fromPort", .str b!"o1"), (b!"to", .str b!"144"), (b!"toPort", .str b!"c1")],
    .obj [(b!"from", .str b!"754"), (b!"fromPort", .str b!"o1"), (b!"to", .str b!"144"), (b!"toPort", .str b!"i1")],
    .obj [(b!"from", .str b!"996"), (b!"fromPort", .str b!"o1"), (b!"to", .str b!"98"), (b!"toPort", .str b!"i1")],
    .obj [(b!"from", .str b!"495"), (b!"fromPort", .str b!"o1"), (b!"to", .str b!"98"), (b!"toPort", .str b!"i1")],
    .obj [(b!"from", .str b!"510"), (b!"fromPort", .str b!"o1"), (b!"to", .str b!"434"), (b!"toPort", .str b!"i1")],
    .obj [(b!"from", .str b!"996"), (b!"fromPort", .str b!"o1"), (b!"to", .str b!"283"), (b!"toPort", .str b!"i1")],
    .obj [(b!"from", .str b!"510"), (b!"fromPort", .str b!"o1"), (b!"to", .str b!"283"), (b!"toPort", .str b!"i1")],
    .obj [(b!"from", .str b!"865"), (b!"fromPort", .str b!"o1"), (b!"to", .str b!"37"), (b!"toPort", .str b!"i1")],
    .obj [(b!"from", .str b!"865"), (b!"fromPort", .str b!"o1"), (b!"to", .str b!"495"), (b!"toPort", .str b!"i1")],
    .obj [(b!"from", .str b!"262"), (b!"fromPort", .str b!"o1"), (b!"to", .str b!"861"), (b!"toPort", .str b!"i1")],
    .obj [(b!"from", .str b!"262"), (b!"fromPort", .str b!"o1"), (b!"to", .str b!"996"), (b!"toPort", .str b!"i1")],
    .obj [(b!"from", .str b!"262"), (b!"fromPort", .str b!"o1"), (b!"to", .str b!"865"), (b!"toPort", .str b!"i1")],
    .obj [(b!"from", .str b!"262"), (b!"fromPort", .str b!"o1"), (b!"to", .str b!"510"), (b!"toPort", .str b!"i1")],
    .obj [(b!"from", .str b!"754"), (b!"fromPort", .str b!"o1"), (b!"to", .str b!"262"), (b!"toPort", .str b!"i1")]]), (b!"date", .str date), (b!"description", .str b!"This program is generated by the compiler, it represents the rsi operator"), (b!"entryOperator", .str b!"754"), (b!"operators", .arr [
    .obj [(b!"id", .str b!"467"), (b!"numPorts", .uint 1), (b!"type", .str b!"Output")],
    .obj [(b!"id", .str b!"911"), (b!"type", .str b!"Add"), (b!"value", .uint 100)],
    .obj [(b!"id", .str b!"216"), (b!"type", .str b!"Scale"), (b!"value", .int (-100))],
    .obj [(b!"id", .str b!"232"), (b!"type", .str b!"Power"), (b!"value", .int (-1))],
    .obj [(b!"id", .str b!"420"), (b!"type", .str b!"Add"), (b!"value", .uint 1)],
    .obj [(b!"id", .str b!"287"), (b!"type", .str b!"Division")],
    .obj [(b!"coeff", .arr [.float 0.92857142857, .float 0.07142857142]), (b!"id", .str b!"130"), (b!"type", .str b!"Linear")],
    .obj [(b!"coeff", .arr [.float 0.92857142857, .float 0.07142857142]), (b!"id", .str b!"746"), (b!"type", .str b!"Linear")],
    .obj [(b!"dt", .uint 1), (b!"id", .str b!"837"), (b!"times", .uint 1), (b!"type", .str b!"TimeShift")],
    .obj [(b!"dt", .uint 1), (b!"id", .str b!"717"), (b!"times", .uint 1), (b!"type", .str b!"TimeShift")],
    .obj [(b!"id", .str b!"855"), (b!"type", .str b!"Scale"), (b!"value", .int (-1))],
    .obj [(b!"id", .str b!"177"), (b!"type", .str b!"Constant"), (b!"value", .uint 0)],
    .obj [(b!"id", .str b!"136"), (b!"type", .str b!"Constant"), (b!"value", .uint 0)],
    .obj [(b!"id", .str b!"572"), (b!"type", .str b!"Constant"), (b!"value", .uint 0)],
    .obj [(b!"id", .str b!"342"), (b!"type", .str b!"LessThan"), (b!"value", .uint 0)],
    .obj [(b!"id", .str b!"764"), (b!"type", .str b!"EqualTo"), (b!"value", .uint 0)],
    .obj [(b!"id", .str b!"794"), (b!"type", .str b!"GreaterThan"), (b!"value", .uint 0)],
    .obj [(b!"id", .str b!"887"), (b!"type", .str b!"Difference")],
    .obj [(b!"id", .str b!"876"), (b!"type", .str b!"Variable"), (b!"value", .uint 0)],
    .obj [(b!"id", .str b!"946"), (b!"type", .str b!"Variable"), (b!"value", .uint 0)],
    .obj [(b!"id", .str b!"649"), (b!"type", .str b!"Scale"), (b!"value", .float 0.07142857142)],
    .obj [(b!"id", .str b!"654"), (b!"type", .str b!"Scale"), (b!"value", .float 0.07142857142)],
    .obj [(b!"id", .str b!"138"), (b!"type", .str b!"CumulativeSum")],
    .obj [(b!"id", .str b!"416"), (b!"type", .str b!"Scale"), (b!"value", .int (-1))],
    .obj [(b!"id", .str b!"58"), (b!"type", .str b!"CumulativeSum")],
    .obj [(b!"id", .str b!"180"), (b!"type", .str b!"LessThan"), (b!"value", .uint 0)],
    .obj [(b!"id", .str b!"28"), (b!"type", .str b!"EqualTo"), (b!"value", .uint 0)],
    .obj [(b!"id", .str b!"806"), (b!"type", .str b!"GreaterThan"), (b!"value", .uint 0)],
    .obj [(b!"id", .str b!"34"), (b!"type", .str b!"Difference")],
    .obj [(b!"id", .str b!"144"), (b!"numPorts", .uint 2), (b!"type", .str b!"Demultiplexer")],
    .obj [(b!"id", .str b!"98"), (b!"type", .str b!"Constant"), (b!"value", .uint 1)],
    .obj [(b!"id", .str b!"434"), (b!"type", .str b!"Constant"), (b!"value", .uint 0)],
    .obj [(b!"id", .str b!"283"), (b!"type", .str b!"Constant"), (b!"value", .uint 1)],
    .obj [(b!"id", .str b!"37"), (b!"type", .str b!"Constant"), (b!"value", .uint 0)],
    .obj [(b!"id", .str b!"495"), (b!"type", .str b!"Constant"), (b!"value", .uint 1)],
    .obj [(b!"id", .str b!"861"), (b!"type", .str b!"EqualTo"), (b!"value", .uint 16)],
    .obj [(b!"id", .str b!"996"), (b!"type", .str b!"EqualTo"), (b!"value", .uint 15)],
    .obj [(b!"id", .str b!"865"), (b!"type", .str b!"GreaterThan"), (b!"value", .uint 15)],
    .obj [(b!"id", .str b!"510"), (b!"type", .str b!"LessThan"), (b!"value", .uint 15)],
    .obj [(b!"id", .str b!"262"), (b!"type", .str b!"Count")],
    .obj [(b!"id", .str b!"754"), (b!"numPorts", .uint 1), (b!"type", .str b!"Input")]]), (b!"output", .obj [(b!"467", .arr [.str b!"o1"])]), (b!"title", .str b!"RSI")]

example : validates (parsed (described5 b!"now")) [] = false ∧ validates (parsed (described5 b!"2024-01-01")) [] = true := by decide +kernel

def described6 (date : Str) : Json ℚ := .obj [(b!"apiVersion", .str b!"v1"), (b!"author", .str b!"Eduardo"), (b!"connections", .arr [
    .obj [(b!"from", .str b!"510"), (b!"fromPort", .str b!"o1"), (b!"to", .str b!"37"), (b!"toPort", .str b!"i3")],
    .obj [(b!"from", .str b!"495"), (b!"fromPort", .str b!"o1"), (b!"to", .str b!"37"), (b!"toPort", .str b!"i1")],
    .obj [(b!"from", .str b!"861"), (b!"fromPort", .str b!"o1"), (b!"to", .str b!"37"), (b!"toPort", .str b!"i2")],
    .obj [(b!"from", .str b!"996"), (b!"fromPort", .str b!"o1"), (b!"to", .str b!"495"), (b!"toPort", .str b!"i2")],
    .obj [(b!"from", .str b!"510"), (b!"fromPort", .str b!"o1"), (b!"to", .str b!"495"), (b!"toPort", .str b!"i1")],
    .obj [(b!"from", .str b!"996"), (b!"fromPort", .str b!"o1"), (b!"to", .str b!"861"), (b!"toPort", .str b!"i2")],
    .obj [(b!"from", .str b!"510"), (b!"fromPort", .str b!"o1"), (b!"to", .str b!"861"), (b!"toPort", .str b!"i1")],
    .obj [(b!"from", .str b!"865"), (b!"fromPort", .str b!"o1"), (b!"to", .str b!"996"), (b!"toPort", .str b!"i1")],
    .obj [(b!"from", .str b!"262"), (b!"fromPort", .str b!"o1"), (b!"to", .str b!"865"), (b!"toPort", .str b!"i1")],
    .obj [(b!"from", .str b!"262"), (b!"fromPort", .str b!"o1"), (b!"to", .str b!"510"), (b!"toPort", .str b!"i1")],
    .obj [(b!"from", .str b!"754"), (b!"fromPort", .str b!"o1"), (b!"to", .str b!"262"), (b!"toPort", .str b!"i1")]]), (b!"date", .str date), (b!"description", .str b!"This program is generated by the compiler, it represents the bollinger bands operator"), (b!"entryOperator", .str b!"754"), (b!"operators", .arr [
    .obj [(b!"id", .str b!"37"), (b!"numPorts", .uint 3), (b!"type", .str b!"Output")],
    .obj [(b!"id", .str b!"495"), (b!"type", .str b!"Minus")],
    .obj [(b!"id", .str b!"861"), (b!"type", .str b!"Plus")],
    .obj [(b!"id", .str b!"996"), (b!"type", .str b!"Scale"), (b!"value", .uint 2)],
    .obj [(b!"id", .str b!"865"), (b!"n", .uint 14), (b!"type", .str b!"StandardDeviation")],
    .obj [(b!"id", .str b!"510"), (b!"n", .uint 14), (b!"type", .str b!"MovingAverage")],
    .obj [(b!"dt", .uint 1), (b!"id", .str b!"262"), (b!"type", .str b!"HermiteResampler")],
    .obj [(b!"id", .str b!"754"), (b!"numPorts", .uint 1), (b!"type", .str b!"Input")]]), (b!"output", .obj [(b!"37", .arr [.str b!"o2", .str b!"o1", .str b!"o3"])]), (b!"title", .str b!"Bollinger Bands")]

example : validates (parsed (described6 b!"now")) [] = false ∧ validates (parsed (described6 b!"2024-01-01")) [] = true := by decide +kernel

end Rtbot.Checks
