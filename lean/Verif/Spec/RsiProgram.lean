import Verif.Model.Create

/-! # Spec: the example program examples/data/program-test-5.json -/

namespace Rtbot.Spec
variable {V : Type} [Num V]

/-- examples/data/program-test-5.json, where `a` is written 0.92857142857 and `b` 0.07142857142. -/
def rsiJson (a b : V) : Json V := .obj [(b!"apiVersion", .str b!"v1"), (b!"author", .str b!"Eduardo"), (b!"connections", .arr [
    .obj [(b!"from", .str b!"911"), (b!"fromPort", .str b!"o1"), (b!"to", .str b!"467"), (b!"toPort", .str b!"i1")],
    .obj [(b!"from", .str b!"216"), (b!"fromPort", .str b!"o1"), (b!"to", .str b!"911"), (b!"toPort", .str b!"i1")],
    .obj [(b!"from", .str b!"232"), (b!"fromPort", .str b!"o1"), (b!"to", .str b!"216"), (b!"toPort", .str b!"i1")],
    .obj [(b!"from", .str b!"420"), (b!"fromPort", .str b!"o1"), (b!"to", .str b!"232"), (b!"toPort", .str b!"i1")],
    .obj [(b!"from", .str b!"287"), (b!"fromPort", .str b!"o1"), (b!"to", .str b!"420"), (b!"toPort", .str b!"i1")],
    .obj [(b!"from", .str b!"130"), (b!"fromPort", .str b!"o1"), (b!"to", .str b!"287"), (b!"toPort", .str b!"i2")],
    .obj [(b!"from", .str b!"876"), (b!"fromPort", .str b!"o1"), (b!"to", .str b!"287"), (b!"toPort", .str b!"i2")],
    .obj [(b!"from", .str b!"746"), (b!"fromPort", .str b!"o1"), (b!"to", .str b!"287"), (b!"toPort", .str b!"i1")],
    .obj [(b!"from", .str b!"946"), (b!"fromPort", .str b!"o1"), (b!"to", .str b!"287"), (b!"toPort", .str b!"i1")],
    .obj [(b!"from", .str b!"130"), (b!"fromPort", .str b!"o1"), (b!"to", .str b!"837"), (b!"toPort", .str b!"i1")],
    .obj [(b!"from", .str b!"177"), (b!"fromPort", .str b!"o1"), (b!"to", .str b!"130"), (b!"toPort", .str b!"i2")],
    .obj [(b!"from", .str b!"855"), (b!"fromPort", .str b!"o1"), (b!"to", .str b!"130"), (b!"toPort", .str b!"i2")],
    .obj [(b!"from", .str b!"572"), (b!"fromPort", .str b!"o1"), (b!"to", .str b!"130"), (b!"toPort", .str b!"i2")],
    .obj [(b!"from", .str b!"837"), (b!"fromPort", .str b!"o1"), (b!"to", .str b!"130"), (b!"toPort", .str b!"i1")],
    .obj [(b!"from", .str b!"746"), (b!"fromPort", .str b!"o1"), (b!"to", .str b!"717"), (b!"toPort", .str b!"i1")],
    .obj [(b!"from", .str b!"177"), (b!"fromPort", .str b!"o1"), (b!"to", .str b!"746"), (b!"toPort", .str b!"i2")],
    .obj [(b!"from", .str b!"136"), (b!"fromPort", .str b!"o1"), (b!"to", .str b!"746"), (b!"toPort", .str b!"i2")],
    .obj [(b!"from", .str b!"794"), (b!"fromPort", .str b!"o1"), (b!"to", .str b!"746"), (b!"toPort", .str b!"i2")],
    .obj [(b!"from", .str b!"717"), (b!"fromPort", .str b!"o1"), (b!"to", .str b!"746"), (b!"toPort", .str b!"i1")],
    .obj [(b!"from", .str b!"876"), (b!"fromPort", .str b!"o1"), (b!"to", .str b!"837"), (b!"toPort", .str b!"i1")],
    .obj [(b!"from", .str b!"946"), (b!"fromPort", .str b!"o1"), (b!"to", .str b!"717"), (b!"toPort", .str b!"i1")],
    .obj [(b!"from", .str b!"342"), (b!"fromPort", .str b!"o1"), (b!"to", .str b!"855"), (b!"toPort", .str b!"i1")],
    .obj [(b!"from", .str b!"764"), (b!"fromPort", .str b!"o1"), (b!"to", .str b!"177"), (b!"toPort", .str b!"i1")],
    .obj [(b!"from", .str b!"342"), (b!"fromPort", .str b!"o1"), (b!"to", .str b!"136"), (b!"toPort", .str b!"i1")],
    .obj [(b!"from", .str b!"794"), (b!"fromPort", .str b!"o1"), (b!"to", .str b!"572"), (b!"toPort", .str b!"i1")],
    .obj [(b!"from", .str b!"887"), (b!"fromPort", .str b!"o1"), (b!"to", .str b!"342"), (b!"toPort", .str b!"i1")],
    .obj [(b!"from", .str b!"887"), (b!"fromPort", .str b!"o1"), (b!"to", .str b!"764"), (b!"toPort", .str b!"i1")],
    .obj [(b!"from", .str b!"887"), (b!"fromPort", .str b!"o1"), (b!"to", .str b!"794"), (b!"toPort", .str b!"i1")],
    .obj [(b!"from", .str b!"144"), (b!"fromPort", .str b!"o2"), (b!"to", .str b!"887"), (b!"toPort", .str b!"i1")],
    .obj [(b!"from", .str b!"996"), (b!"fromPort", .str b!"o1"), (b!"to", .str b!"876"), (b!"toPort", .str b!"c1")],
    .obj [(b!"from", .str b!"861"), (b!"fromPort", .str b!"o1"), (b!"to", .str b!"876"), (b!"toPort", .str b!"i1")],
    .obj [(b!"from", .str b!"649"), (b!"fromPort", .str b!"o1"), (b!"to", .str b!"876"), (b!"toPort", .str b!"i1")],
    .obj [(b!"from", .str b!"996"), (b!"fromPort", .str b!"o1"), (b!"to", .str b!"946"), (b!"toPort", .str b!"c1")],
    .obj [(b!"from", .str b!"861"), (b!"fromPort", .str b!"o1"), (b!"to", .str b!"946"), (b!"toPort", .str b!"i1")],
    .obj [(b!"from", .str b!"654"), (b!"fromPort", .str b!"o1"), (b!"to", .str b!"946"), (b!"toPort", .str b!"i1")],
    .obj [(b!"from", .str b!"138"), (b!"fromPort", .str b!"o1"), (b!"to", .str b!"649"), (b!"toPort", .str b!"i1")],
    .obj [(b!"from", .str b!"58"), (b!"fromPort", .str b!"o1"), (b!"to", .str b!"654"), (b!"toPort", .str b!"i1")],
    .obj [(b!"from", .str b!"28"), (b!"fromPort", .str b!"o1"), (b!"to", .str b!"138"), (b!"toPort", .str b!"i1")],
    .obj [(b!"from", .str b!"416"), (b!"fromPort", .str b!"o1"), (b!"to", .str b!"138"), (b!"toPort", .str b!"i1")],
    .obj [(b!"from", .str b!"180"), (b!"fromPort", .str b!"o1"), (b!"to", .str b!"416"), (b!"toPort", .str b!"i1")],
    .obj [(b!"from", .str b!"28"), (b!"fromPort", .str b!"o1"), (b!"to", .str b!"58"), (b!"toPort", .str b!"i1")],
    .obj [(b!"from", .str b!"806"), (b!"fromPort", .str b!"o1"), (b!"to", .str b!"58"), (b!"toPort", .str b!"i1")],
    .obj [(b!"from", .str b!"34"), (b!"fromPort", .str b!"o1"), (b!"to", .str b!"180"), (b!"toPort", .str b!"i1")],
    .obj [(b!"from", .str b!"34"), (b!"fromPort", .str b!"o1"), (b!"to", .str b!"28"), (b!"toPort", .str b!"i1")],
    .obj [(b!"from", .str b!"34"), (b!"fromPort", .str b!"o1"), (b!"to", .str b!"806"), (b!"toPort", .str b!"i1")],
    .obj [(b!"from", .str b!"144"), (b!"fromPort", .str b!"o1"), (b!"to", .str b!"34"), (b!"toPort", .str b!"i1")],
    .obj [(b!"from", .str b!"98"), (b!"fromPort", .str b!"o1"), (b!"to", .str b!"144"), (b!"toPort", .str b!"c2")],
    .obj [(b!"from", .str b!"434"), (b!"fromPort", .str b!"o1"), (b!"to", .str b!"144"), (b!"toPort", .str b!"c2")],
    .obj [(b!"from", .str b!"37"), (b!"fromPort", .str b!"o1"), (b!"to", .str b!"144"), (b!"toPort", .str b!"c1")],
    .obj [(b!"from", .str b!"283"), (b!"fromPort", .str b!"o1"), (b!"to", .str b!"144"), (b!"toPort", .str b!"c1")],
    .obj [(b!"from", .str b!"754"), (b!"fromPort", .str b!"o1"), (b!"to", .str b!"144"), (b!"toPort", .str b!"i1")],
    .obj [(b!"from", .str b!"996"), (b!"fromPort", .str b!"o1"), (b!"to", .str b!"98"), (b!"toPort", .str b!"i1")],
    .obj [(b!"from", .str b!"495"), (b!"fromPort", .str b!"o1"), (b!"to", .str b!"98"), (b!"toPort", .str b!"i1")],
    .obj [(b!"from", .str b!"510"), (b!"fromPort", .str b!"o1"), (b!"to", .str b!"434"), (b!"toPort", .str b!"i1")],
    .obj [(b!"from", .str b!"996"), (b!"fromPort", .str b!"o1"), (b!"to", .str b!"283"), (b!"toPort", .str b!"i1")],
    .obj [(b!"from", .str b!"510"), (b!"fromPort", .str b!"o1"), (b!"to", .str b!"283"), (b!"toPort", .str b!"i1")],
    .obj [(b!"from", .str b!"865"), (b!"fromPort", .str b!"o1"), (b!"to", .str b!"37"), (b!"toPort", .str b!"i1")],
    .obj [(b!"from", .str b!"865"), (b!"fromPort", .str b!"o1"), (b!"to", .str b!"495"), (b!"toPort", .str b!"i1")],
    .obj [(b!"from", .str b!"262"), (b!"fromPort", .str b!"o1"), (b!"to", .str b!"861"), (b!"toPort", .str b!"i1")],
    .obj [(b!"from", .str b!"262"), (b!"fromPort", .str b!"o1"), (b!"to", .str b!"996"), (b!"toPort", .str b!"i1")],
    .obj [(b!"from", .str b!"262"), (b!"fromPort", .str b!"o1"), (b!"to", .str b!"865"), (b!"toPort", .str b!"i1")],
    .obj [(b!"from", .str b!"262"), (b!"fromPort", .str b!"o1"), (b!"to", .str b!"510"), (b!"toPort", .str b!"i1")],
    .obj [(b!"from", .str b!"754"), (b!"fromPort", .str b!"o1"), (b!"to", .str b!"262"), (b!"toPort", .str b!"i1")]]), (b!"date", .str b!"now"), (b!"description", .str b!"This program is generated by the compiler, it represents the rsi operator"), (b!"entryOperator", .str b!"754"), (b!"operators", .arr [
    .obj [(b!"id", .str b!"467"), (b!"numPorts", .uint 1), (b!"type", .str b!"Output")],
    .obj [(b!"id", .str b!"911"), (b!"type", .str b!"Add"), (b!"value", .uint 100)],
    .obj [(b!"id", .str b!"216"), (b!"type", .str b!"Scale"), (b!"value", .int (-100))],
    .obj [(b!"id", .str b!"232"), (b!"type", .str b!"Power"), (b!"value", .int (-1))],
    .obj [(b!"id", .str b!"420"), (b!"type", .str b!"Add"), (b!"value", .uint 1)],
    .obj [(b!"id", .str b!"287"), (b!"type", .str b!"Division")],
    .obj [(b!"coeff", .arr [.float a, .float b]), (b!"id", .str b!"130"), (b!"type", .str b!"Linear")],
    .obj [(b!"coeff", .arr [.float a, .float b]), (b!"id", .str b!"746"), (b!"type", .str b!"Linear")],
    .obj [(b!"dt", .uint 1), (b!"id", .str b!"837"), (b!"times", .uint 1), (b!"type", .str b!"TimeShift")],
    .obj [(b!"dt", .uint 1), (b!"id", .str b!"717"), (b!"times", .uint 1), (b!"type", .str b!"TimeShift")],
    .obj [(b!"id", .str b!"855"), (b!"type", .str b!"Scale"), (b!"value", .int (-1))],
    .obj [(b!"id", .str b!"177"), (b!"type", .str b!"Constant"), (b!"value", .uint 0)],
    .obj [(b!"id", .str b!"136"), (b!"type", .str b!"Constant"), (b!"value", .uint 0)],
    .obj [(b!"id", .str b!"572"), (b!"type", .str b!"Constant"), (b!"value", .uint 0)],
    .obj [(b!"id", .str b!"342"), (b!"type", .str b!"LessThan"), (b!"value", .uint 0)],
    .obj [(b!"id", .str b!"764"), (b!"type", .str b!"EqualTo"), (b!"value", .uint 0)],
    .obj [(b!"id", .str b!"794"), (b!"type", .str b!"GreaterThan"), (b!"value", .uint 0)],
    .obj [(b!"id", .str b!"887"), (b!"type", .str b!"Difference")],
    .obj [(b!"id", .str b!"876"), (b!"type", .str b!"Variable"), (b!"value", .uint 0)],
    .obj [(b!"id", .str b!"946"), (b!"type", .str b!"Variable"), (b!"value", .uint 0)],
    .obj [(b!"id", .str b!"649"), (b!"type", .str b!"Scale"), (b!"value", .float b)],
    .obj [(b!"id", .str b!"654"), (b!"type", .str b!"Scale"), (b!"value", .float b)],
    .obj [(b!"id", .str b!"138"), (b!"type", .str b!"CumulativeSum")],
    .obj [(b!"id", .str b!"416"), (b!"type", .str b!"Scale"), (b!"value", .int (-1))],
    .obj [(b!"id", .str b!"58"), (b!"type", .str b!"CumulativeSum")],
    .obj [(b!"id", .str b!"180"), (b!"type", .str b!"LessThan"), (b!"value", .uint 0)],
    .obj [(b!"id", .str b!"28"), (b!"type", .str b!"EqualTo"), (b!"value", .uint 0)],
    .obj [(b!"id", .str b!"806"), (b!"type", .str b!"GreaterThan"), (b!"value", .uint 0)],
    .obj [(b!"id", .str b!"34"), (b!"type", .str b!"Difference")],
    .obj [(b!"id", .str b!"144"), (b!"numPorts", .uint 2), (b!"type", .str b!"Demultiplexer")],
    .obj [(b!"id", .str b!"98"), (b!"type", .str b!"Constant"), (b!"value", .uint 1)],
    .obj [(b!"id", .str b!"434"), (b!"type", .str b!"Constant"), (b!"value", .uint 0)],
    .obj [(b!"id", .str b!"283"), (b!"type", .str b!"Constant"), (b!"value", .uint 1)],
    .obj [(b!"id", .str b!"37"), (b!"type", .str b!"Constant"), (b!"value", .uint 0)],
    .obj [(b!"id", .str b!"495"), (b!"type", .str b!"Constant"), (b!"value", .uint 1)],
    .obj [(b!"id", .str b!"861"), (b!"type", .str b!"EqualTo"), (b!"value", .uint 16)],
    .obj [(b!"id", .str b!"996"), (b!"type", .str b!"EqualTo"), (b!"value", .uint 15)],
    .obj [(b!"id", .str b!"865"), (b!"type", .str b!"GreaterThan"), (b!"value", .uint 15)],
    .obj [(b!"id", .str b!"510"), (b!"type", .str b!"LessThan"), (b!"value", .uint 15)],
    .obj [(b!"id", .str b!"262"), (b!"type", .str b!"Count")],
    .obj [(b!"id", .str b!"754"), (b!"numPorts", .uint 1), (b!"type", .str b!"Input")]]), (b!"output", .obj [(b!"467", .arr [.str b!"o1"])]), (b!"title", .str b!"RSI")]

end Rtbot.Spec
