{
 "claims": [
  {
   "property": "C01",
   "status": "proved",
   "theorems": [
    "Rtbot.C01_input",
    "Rtbot.C01_records"
   ],
   "note": "Input with n ports, any calls. Each port is a gate of its own: exactly the records (strictly newer than all forwarded before) pass."
  },
  {
   "property": "C02",
   "status": "proved",
   "theorems": [
    "Rtbot.C02_sliding_window"
   ],
   "note": "Every bounded port buffer holds the last n messages addressed to it, for every operator using the base class methods, any calls."
  },
  {
   "property": "C03",
   "status": "proved",
   "theorems": [
    "Rtbot.C03_movingAverage"
   ],
   "note": "Exact arithmetic (any ordered field interpretation of double)."
  },
  {
   "property": "C04",
   "status": "proved",
   "theorems": [
    "Rtbot.C04_standardDeviation"
   ],
   "note": "Real arithmetic; window size below 2^64."
  },
  {
   "property": "C05",
   "status": "proved",
   "theorems": [
    "Rtbot.C05_fir",
    "Rtbot.C05_fir_exact"
   ],
   "note": "Any arithmetic, plus the exact-arithmetic form."
  },
  {
   "property": "C06",
   "status": "proved",
   "theorems": [
    "Rtbot.C06_peakDetector"
   ],
   "note": "Centre of the full window, when no message of it is strictly larger."
  },
  {
   "property": "C07",
   "status": "partial",
   "theorems": [
    "Rtbot.C07_double",
    "Rtbot.C07_violated_double",
    "Rtbot.C07_difference",
    "Rtbot.C07_difference_exact"
   ],
   "note": "Proved when timestamps survive conversion to double and back: always in exact arithmetic, up to 2^53 with IEEE doubles (C07_double). Beyond 2^53 the timestamp is changed (C07_violated_double)."
  },
  {
   "property": "C08",
   "status": "proved",
   "theorems": [
    "Rtbot.C08_cumulativeSum",
    "Rtbot.C08_cumulativeSum_exact",
    "Rtbot.C08_count"
   ],
   "note": "Running sum in any arithmetic (order of additions) and exact; Count below 2^64 messages."
  },
  {
   "property": "C09",
   "status": "proved",
   "theorems": [
    "Rtbot.C09_add",
    "Rtbot.C09_scale",
    "Rtbot.C09_power",
    "Rtbot.C09_constant",
    "Rtbot.C09_identity"
   ],
   "note": "Any arithmetic."
  },
  {
   "property": "C10",
   "status": "proved",
   "theorems": [
    "Rtbot.C10_trichotomy_double",
    "Rtbot.C10_nan_double",
    "Rtbot.C10_filters",
    "Rtbot.C10_trichotomy"
   ],
   "note": "Any arithmetic; the trichotomy in exact arithmetic."
  },
  {
   "property": "C11",
   "status": "partial",
   "theorems": [
    "Rtbot.C11_timeShift_partial",
    "Rtbot.C11_violated_zero",
    "Rtbot.C11_violated_negative"
   ],
   "note": "Violated when dt*times is 0 modulo 2^64 (time becomes 0) and for negative shifts below zero; proved for non-zero products, modulo 2^64."
  },
  {
   "property": "C12",
   "status": "partial",
   "theorems": [
    "Rtbot.C12_autoRegressive_partial",
    "Rtbot.C12_palindrome_partial",
    "Rtbot.C12_violated"
   ],
   "note": "The recurrence with the coefficients **reversed**; palindromes. Violated: coefficients (2, 0), inputs 1, 1."
  },
  {
   "property": "C13",
   "status": "proved",
   "theorems": [
    "Rtbot.C13_constantResampler"
   ],
   "note": "Exactly one message per grid point, carrying the latest value; strictly increasing times without overflow. The uninitialised members do not matter."
  },
  {
   "property": "C14",
   "status": "proved",
   "theorems": [
    "Rtbot.C14_cosineResampler",
    "Rtbot.C14_bounds"
   ],
   "note": "Exactly one message per grid point, cosine interpolation (any arithmetic); bounds over \u211d."
  },
  {
   "property": "C15",
   "status": "partial",
   "theorems": [
    "Rtbot.C15_hermiteResampler_partial",
    "Rtbot.C15_violated_grid",
    "Rtbot.C15_violated_ub"
   ],
   "note": "As C14, up to the last but one message, when the first gap is at least dt and the first four times are below 2^30. Violated: off-grid emission when the first gap is below dt; a `double` out of the range of `uint64_t` is converted (undefined behaviour) for millisecond timestamps."
  },
  {
   "property": "C16",
   "status": "proved",
   "theorems": [
    "Rtbot.C16_linear",
    "Rtbot.C16_interpolates",
    "Rtbot.C16_hermite"
   ],
   "note": "Exact arithmetic; linear and hermite mode; the cubic is characterised by its end values and derivatives."
  },
  {
   "property": "C17",
   "status": "proved",
   "theorems": [
    "Rtbot.C17_rsi",
    "Rtbot.C17_range"
   ],
   "note": "Exact arithmetic, n \u2265 1. n = 0 is degenerate."
  },
  {
   "property": "C18",
   "status": "partial",
   "theorems": [
    "Rtbot.C18_variable_partial",
    "Rtbot.C18_violated_query_lost"
   ],
   "note": "All interleavings of increasing data and increasing queries. Violated: a waiting query is lost when another one arrives."
  },
  {
   "property": "C19",
   "status": "proved",
   "theorems": [
    "Rtbot.C19_join"
   ],
   "note": "Any calls, any timestamps."
  },
  {
   "property": "C20",
   "status": "proved",
   "theorems": [
    "Rtbot.C20_join"
   ],
   "note": "Increasing timestamps per port, any interleaving: emitted ++ still buffered = all common times."
  },
  {
   "property": "C21",
   "status": "partial",
   "theorems": [
    "Rtbot.C21_violated",
    "Rtbot.C21_join_partial"
   ],
   "note": "After enough executions nothing complete is left. Violated: one execution emits at most one match."
  },
  {
   "property": "C22",
   "status": "partial",
   "theorems": [
    "Rtbot.C22_violated",
    "Rtbot.C22_join_partial"
   ],
   "note": "For two interleavings one output is a prefix of the other. Violated: two arrival orders, different outputs."
  },
  {
   "property": "C23",
   "status": "proved",
   "theorems": [
    "Rtbot.C23_binary"
   ],
   "note": "All eight binary operators, any arithmetic."
  },
  {
   "property": "C24",
   "status": "partial",
   "theorems": [
    "Rtbot.C24_linear_partial",
    "Rtbot.C24_linear_le_nine",
    "Rtbot.C24_violated"
   ],
   "note": "Coefficients in the lexicographic order of ports; at most nine ports: coefficient k for port ik. Violated: ten ports: i10 comes before i2."
  },
  {
   "property": "C25",
   "status": "proved",
   "theorems": [
    "Rtbot.C25_routing",
    "Rtbot.C25_complete",
    "Rtbot.C25_no_misrouting",
    "Rtbot.C25_rejects"
   ],
   "note": "Routing for all interleavings of complete streams, completeness, no misrouting and rejection for all streams."
  },
  {
   "property": "C26",
   "status": "proved",
   "theorems": [
    "Rtbot.C26_debug",
    "Rtbot.C26_receive"
   ],
   "note": "`receive` and `receiveDebug`, any program, failing calls included."
  },
  {
   "property": "C27",
   "status": "partial",
   "theorems": [
    "Rtbot.C27_filter_partial",
    "Rtbot.C27_no_filter",
    "Rtbot.C27_violated",
    "Rtbot.C27_general",
    "Rtbot.C27_run_partial"
   ],
   "note": "Filters that name no port twice; what happens in general; `C27_run_partial` (Props/ReceiveRun) for sequences of calls. Violated: a port listed twice is reported twice."
  },
  {
   "property": "C28",
   "status": "proved",
   "theorems": [
    "Rtbot.C28_terminates",
    "Rtbot.C28_again",
    "Rtbot.C28_steps"
   ],
   "note": "Finitely many operators, no cycle. `C28_steps`: of the operators themselves only ConstantResampler and an AutoRegressive without coefficients can loop."
  },
  {
   "property": "C29",
   "status": "proved",
   "theorems": [
    "Rtbot.C29_report"
   ],
   "note": "Any successful call."
  },
  {
   "property": "C30",
   "status": "proved",
   "theorems": [
    "Rtbot.C30_delivered",
    "Rtbot.C30_orderly"
   ],
   "note": "Any successful call: deliveries over a connection = emissions, directly after each emission."
  },
  {
   "property": "C31",
   "status": "proved",
   "theorems": [
    "Rtbot.C31_untouched"
   ],
   "note": "Any call, whatever its outcome."
  },
  {
   "property": "C32",
   "status": "proved",
   "theorems": [
    "Rtbot.C32_calls",
    "Rtbot.C32_emits",
    "Rtbot.C32_composition",
    "Rtbot.C32_reports"
   ],
   "note": "Paths of sole connections in any acyclic program; calls, states and reports."
  },
  {
   "property": "C33",
   "status": "partial",
   "theorems": [
    "Rtbot.C33_order_violated",
    "Rtbot.C33_tree_partial",
    "Rtbot.C33_graph_partial"
   ],
   "note": "What is emitted at the end of paths of sole connections does not depend on the order of connecting (`C33_tree_partial`); nor do the streams of graphs as in C90, joins and binary operators included (`C33_graph_partial`). Violated: an operator fed directly and through a third."
  },
  {
   "property": "C34",
   "status": "partial",
   "theorems": [
    "Rtbot.C34_connect",
    "Rtbot.C34_connections",
    "Rtbot.C34_run",
    "Rtbot.C34_created_conns",
    "Rtbot.C34_created_partial",
    "Rtbot.C34_colon_violated"
   ],
   "note": "Any history, any operators connected by `connect`, and created programs, also with Pipelines whose connections name ports without a second ':'. Violated: inner operators of a Pipeline whose id contains ':'."
  },
  {
   "property": "C35",
   "status": "proved",
   "theorems": [
    "Rtbot.C35_lossless",
    "Rtbot.C35_rest"
   ],
   "note": "All operators, also with further bytes following."
  },
  {
   "property": "C36",
   "status": "proved",
   "theorems": [
    "Rtbot.C36_continues"
   ],
   "note": "Programs without RelativeStrengthIndex and Pipeline: all further calls have the same outcomes."
  },
  {
   "property": "C37",
   "status": "partial",
   "theorems": [
    "Rtbot.C37_violated_rsi",
    "Rtbot.C37_violated_pipeline"
   ],
   "note": "What is captured is C36. Violated: averages of RelativeStrengthIndex, inner operators of Pipelines."
  },
  {
   "property": "C38",
   "status": "proved",
   "theorems": [
    "Rtbot.C38_stable"
   ],
   "note": "As C36."
  },
  {
   "property": "C39",
   "status": "partial",
   "theorems": [
    "Rtbot.C39_outcomes",
    "Rtbot.C39_returns",
    "Rtbot.C39_violated_flag",
    "Rtbot.C39_violated_port",
    "Rtbot.C39_violated_interval",
    "Rtbot.C39_violated_truncated",
    "Rtbot.C39_violated_accepted",
    "Rtbot.C39_rejected_partial"
   ],
   "note": "Unreadable descriptions and unknown operators are reported. All bytes: creation ends, the ways it can fail, and what stays of the operators when it succeeds. Violated: almost all truncations read behind the end; the others are accepted; a flag can be any byte; foreign ports and an interval of zero are accepted."
  },
  {
   "property": "C40",
   "status": "proved",
   "theorems": [
    "Rtbot.C40_isolated",
    "Rtbot.C40_undisturbed"
   ],
   "note": "Any sequence of API calls."
  },
  {
   "property": "C41",
   "status": "partial",
   "theorems": [
    "Rtbot.C41_untouched",
    "Rtbot.C41_reported_partial",
    "Rtbot.C41_violated_json",
    "Rtbot.C41_rejected"
   ],
   "note": "The registry is untouched in all cases; creation from bytes reports; what a rejected creation tells (`C41_rejected`). Violated: creation from a description answers as on success."
  },
  {
   "property": "C42",
   "status": "partial",
   "theorems": [
    "Rtbot.C42_violated",
    "Rtbot.C42_forgotten_partial"
   ],
   "note": "When nothing is buffered. Violated: `deleteProgram` leaves the message buffer, which is given to the next program with the id."
  },
  {
   "property": "C43",
   "status": "proved",
   "theorems": [
    "Rtbot.C43_buffer",
    "Rtbot.C43_processed",
    "Rtbot.C43_again_after_failure"
   ],
   "note": "Any sequence of API calls. After an exception the messages are kept and given to the program again (`C43_again_after_failure`)."
  },
  {
   "property": "C44",
   "status": "partial",
   "theorems": [
    "Rtbot.C44_by_port",
    "Rtbot.C44_sequential_partial",
    "Rtbot.C44_violated"
   ],
   "note": "Equivalent to the messages one by one sorted by port; equal to the batch when the ports are in order. Violated: batches with several ports are fed in the order of port names."
  },
  {
   "property": "C45",
   "status": "proved",
   "theorems": [
    "Rtbot.C45_unknown"
   ],
   "note": "All API calls."
  },
  {
   "property": "C46",
   "status": "partial",
   "theorems": [
    "Rtbot.C46_entry_partial",
    "Rtbot.C46_unusable",
    "Rtbot.C46_missing",
    "Rtbot.C46_violated_control",
    "Rtbot.C46_returns",
    "Rtbot.C46_objects"
   ],
   "note": "Creation ends. Either a usable entry, or a program without operators that answers every call with an error. Violated: an entry with control inputs is accepted (the exception is constructed but not thrown)."
  },
  {
   "property": "C47",
   "status": "partial",
   "theorems": [
    "Rtbot.C47_violated_duplicate",
    "Rtbot.C47_first_partial"
   ],
   "note": "The first of several descriptions with an id wins. Violated: duplicates are accepted."
  },
  {
   "property": "C48",
   "status": "partial",
   "theorems": [
    "Rtbot.C48_roundtrip_partial",
    "Rtbot.C48_stable",
    "Rtbot.C48_violated_rsi",
    "Rtbot.C48_violated_difference",
    "Rtbot.C48_violated_function",
    "Rtbot.C48_violated_timeShift",
    "Rtbot.C48_function",
    "Rtbot.C48_program",
    "Rtbot.C48_program_ids",
    "Rtbot.C48_stays"
   ],
   "note": "All operators but those of the violations and Pipelines; `getProgram` writes every operator of the program exactly once, in the order of ids, and writes the same after any calls (`C48_stays`). Violated: RelativeStrengthIndex (n + 1), Difference (`useOldestTime` lost), Function (unreadable), TimeShift (dt \u2265 2^31)."
  },
  {
   "property": "C49",
   "status": "partial",
   "theorems": [
    "Rtbot.C49_exact_partial",
    "Rtbot.C49_accepted",
    "Rtbot.C49_violated_variable",
    "Rtbot.C49_violated_timeShift",
    "Rtbot.C49_violated_negative",
    "Rtbot.C49_violated_function",
    "Rtbot.C49_any"
   ],
   "note": "Parameters in range; both directions; all JSON values that are accepted, and what is made of them, also out of range. Violated: Variable's value and TimeShift's dt are read as `int`; negative sizes become huge; no Function can be created from a description."
  },
  {
   "property": "C50",
   "status": "proved",
   "theorems": [
    "Rtbot.C50_pipeline",
    "Rtbot.C50_program",
    "Rtbot.C50_distinct"
   ],
   "note": "Pipelines nested to any depth."
  },
  {
   "property": "C51",
   "status": "partial",
   "theorems": [
    "Rtbot.C51_fed_partial",
    "Rtbot.C51_enclosed",
    "Rtbot.C51_program_partial",
    "Rtbot.C51_direct",
    "Rtbot.C51_colon_violated"
   ],
   "note": "Holds when the names of inner ports contain no further colon and the pipeline's outputs do not lead back to it; for successful calls. Messages for different outputs are emitted output by output, so their interleaving across outputs is not that of the inner operators. Violated for inner ids with a colon (C51_colon_violated)."
  },
  {
   "property": "C52",
   "status": "partial",
   "theorems": [
    "Rtbot.C52_double",
    "Rtbot.C52_violated_double",
    "Rtbot.C52_order_partial",
    "Rtbot.C52_order",
    "Rtbot.C52_violated_difference",
    "Rtbot.C52_violated_timeShift",
    "Rtbot.C52_violated_hermite",
    "Rtbot.C52_violated_overflow",
    "Rtbot.C52_violated_autoRegressive"
   ],
   "note": "All operators, any calls: if the messages for each port are strictly increasing, so are those on each output. Conditions (`OrderCond`) only for Difference, TimeShift, resamplers, AutoRegressive. Violated: one witness for each of these conditions."
  },
  {
   "property": "C53",
   "status": "partial",
   "theorems": [
    "Rtbot.C53_violated_double",
    "Rtbot.C53_times",
    "Rtbot.C53_constant",
    "Rtbot.C53_difference",
    "Rtbot.C53_cosine_partial",
    "Rtbot.C53_hermite_partial",
    "Rtbot.C53_causality_partial",
    "Rtbot.C53_violated_difference",
    "Rtbot.C53_violated_cosine",
    "Rtbot.C53_timeShift"
   ],
   "note": "All operators but TimeShift; interpolating resamplers when fed in order, Difference when the conversion of times does not round up. Violated: Difference with `useOldestTime = false` takes the *value* as time; CosineResampler fed backwards; Difference with IEEE doubles and times beyond 2^53 (Props/Double)."
  },
  {
   "property": "C54",
   "status": "partial",
   "theorems": [
    "Rtbot.C54_hermiteResampler_partial",
    "Rtbot.C54_on_time_partial",
    "Rtbot.C54_violated"
   ],
   "note": "Exact arithmetic, restrictions of C15, average gap at most the first time. Violated: the artificial message before the first one wraps around."
  },
  {
   "property": "C55",
   "status": "partial",
   "theorems": [
    "Rtbot.C55_linear",
    "Rtbot.C55_hermite_partial",
    "Rtbot.C55_violated"
   ],
   "note": "Linear mode; hermite mode with points 1 apart. Violated: hermite tangents are not scaled by the length of the segment."
  },
  {
   "property": "C56",
   "status": "proved",
   "theorems": [
    "Rtbot.C56_wired",
    "Rtbot.C56_unique"
   ],
   "note": "Every accepted description, nested pipelines included."
  },
  {
   "property": "C57",
   "status": "partial",
   "theorems": [
    "Rtbot.C57_fir",
    "Rtbot.C57_peakDetector",
    "Rtbot.C57_movingAverage_exact",
    "Rtbot.C57_violated_movingAverage",
    "Rtbot.C57_violated_standardDeviation"
   ],
   "note": "Holds for FiniteImpulseResponse and PeakDetector in any arithmetic and for MovingAverage in exact arithmetic; violated by the running sum of MovingAverage and StandardDeviation with IEEE doubles."
  },
  {
   "property": "C58",
   "status": "proved",
   "theorems": [
    "Rtbot.C58_count",
    "Rtbot.C58_cumulativeSum",
    "Rtbot.C58_movingAverage"
   ],
   "note": "Count, CumulativeSum, MovingAverage with IEEE doubles; correctly rounded mean whatever the history."
  },
  {
   "property": "C59",
   "status": "partial",
   "theorems": [
    "Rtbot.C59_range_partial",
    "Rtbot.C59_range",
    "Rtbot.C59_violated"
   ],
   "note": "NaN or in [0,100] for all doubles; in [0,100] for finite values up to 2^1000 and n up to 2^20; violated by overflow to NaN for values near the largest double."
  },
  {
   "property": "C60",
   "status": "proved",
   "theorems": [
    "Rtbot.C60_operator",
    "Rtbot.C60_program",
    "Rtbot.C60_agree",
    "Rtbot.C60_types"
   ],
   "note": "The model of the schema against an independent description of what the documentation asks for, for all JSON values; both checks agree."
  },
  {
   "property": "C61",
   "status": "partial",
   "theorems": [
    "Rtbot.C61_created_partial",
    "Rtbot.C61_violated_join",
    "Rtbot.C61_violated_linear",
    "Rtbot.C61_violated_function",
    "Rtbot.C61_violated_negative",
    "Rtbot.C61_violated_ports",
    "Rtbot.C61_violated_overflow",
    "Rtbot.C61_violated_fraction"
   ],
   "note": "All 35 documented types, when integers are natural numbers in range (`Sane`). Violated: a Join without the optional \"numPorts\" and a Linear without \"coeff\" are accepted and undefined behaviour; no accepted Function can be created; a window of -1; numPorts of 2^31 (overflow) and 2^32 (no ports); StandardDeviation with n = 2.5."
  },
  {
   "property": "C62",
   "status": "partial",
   "theorems": [
    "Rtbot.C62_accepted_partial",
    "Rtbot.C62_violated_rsi",
    "Rtbot.C62_violated_program",
    "Rtbot.C62_violated_lessThan",
    "Rtbot.C62_violated_timeShift",
    "Rtbot.C62_violated_interval"
   ],
   "note": "All descriptions the factory takes over exactly, but for the listed cases (`Documented`). Violated: RelativeStrengthIndex and Pipeline have no schema; LessThan with a fraction; TimeShift by 0; an interval of 2^63 counts as negative."
  },
  {
   "property": "C63",
   "status": "partial",
   "theorems": [
    "Rtbot.C63_defined_partial",
    "Rtbot.C63_created_partial",
    "Rtbot.C63_answer_partial",
    "Rtbot.C63_violated_join",
    "Rtbot.C63_violated_entry"
   ],
   "note": "The API's createProgram with the actual check. Under `Sane` creation succeeds or throws runtime_error or out_of_range; sufficient condition for success. Violated: a Join without \"numPorts\" makes createProgram undefined; entry and connections are not checked."
  },
  {
   "property": "C64",
   "status": "partial",
   "theorems": [
    "Rtbot.C64_filter_partial",
    "Rtbot.C64_absent",
    "Rtbot.C64_violated_dropped"
   ],
   "note": "Filters whose keys the schema checks. Violated: the pattern `[A-Z0-9a-t_-]` leaves keys such as \"out\" unchecked, and one malformed entry drops the whole filter without notice."
  },
  {
   "property": "C65",
   "status": "partial",
   "theorems": [
    "Rtbot.C65_run_partial",
    "Rtbot.C65_created_partial",
    "Rtbot.C65_sessions_partial",
    "Rtbot.C65_violated_cosine",
    "Rtbot.C65_violated_retry",
    "Rtbot.C65_violated_difference",
    "Rtbot.C65_violated_time",
    "Rtbot.C65_composites"
   ],
   "note": "Any history of calls, failed ones included: programs from constructors with any connections, programs from descriptions with pipelines at any depth, and sessions of the API. `Mild` excludes the violating operators. Violated: CosineResampler with dt = 0 (accepted by the schema) overflows its loop counter; an AutoRegressive in a pipeline executed again after an exception pops an empty deque; Difference with `useOldestTime = false` and a negative value; Difference over doubles at time 2^64 - 1."
  },
  {
   "property": "C66",
   "status": "partial",
   "theorems": [
    "Rtbot.C66_returns_partial",
    "Rtbot.C66_violated_demux",
    "Rtbot.C66_violated_variable",
    "Rtbot.C66_violated_rsi"
   ],
   "note": "From a bound on the fuel every call of a created acyclic program, with pipelines, after any history of calls, is `.ok`. `Sturdy`, `Mild` and `PlainPipes` exclude the violating operators. Violated: Demultiplexer throws for a control value other than 0 and 1 and for a control message later than the waiting data message; Variable throws for a query earlier than the first kept message; RelativeStrengthIndex with n = 0 throws at its second message."
  },
  {
   "property": "C67",
   "status": "proved",
   "theorems": [
    "Rtbot.C67_told",
    "Rtbot.C67_described"
   ],
   "note": "Any session without the deletion of the program: entry operator, its ports, filter, acceptance of messages."
  },
  {
   "property": "C68",
   "status": "proved",
   "theorems": [
    "Rtbot.C68_named",
    "Rtbot.C68_filtered"
   ],
   "note": "Created programs with pipelines of any depth, any history of calls; `receive` and `receiveDebug`."
  },
  {
   "property": "C69",
   "status": "partial",
   "theorems": [
    "Rtbot.C69_object",
    "Rtbot.C69_made",
    "Rtbot.C69_raises",
    "Rtbot.C69_created_partial",
    "Rtbot.C69_linear",
    "Rtbot.C69_violated_function",
    "Rtbot.C69_violated_negative"
   ],
   "note": "Constructors of all operator classes, any keyword arguments: success, contents, failure, creation by the factory (without integers that do not fit and Functions). Violated: a Function can be made but not created; a negative window becomes a huge one"
  },
  {
   "property": "C70",
   "status": "partial",
   "theorems": [
    "Rtbot.C70_operator",
    "Rtbot.C70_connection",
    "Rtbot.C70_new",
    "Rtbot.C70_edited",
    "Rtbot.C70_valid",
    "Rtbot.C70_violated_date",
    "Rtbot.C70_violated_entry"
   ],
   "note": "Any sequence of `addOperator` and `addConnection` from a new Program. Violated: a program without a date is never valid (its entry operator is not written either); an entry operator that was not added counts as valid but cannot be created"
  },
  {
   "property": "C71",
   "status": "partial",
   "theorems": [
    "Rtbot.C71_roundtrip",
    "Rtbot.C71_read",
    "Rtbot.C71_accepted_partial",
    "Rtbot.C71_violated_date",
    "Rtbot.C71_violated_output"
   ],
   "note": "Any program value: round trip, contents, acceptance. Violated: documented programs without a date or with an output filter cannot be read"
  },
  {
   "property": "C72",
   "status": "partial",
   "theorems": [
    "Rtbot.C72_columns",
    "Rtbot.C72_failed_partial",
    "Rtbot.C72_invalid",
    "Rtbot.C72_refused",
    "Rtbot.C72_violated_left",
    "Rtbot.C72_violated_again",
    "Rtbot.C72_violated_infinite"
   ],
   "note": "Any program, table and registry: columns, registry afterwards, invalid programs, failing calls. Violated: after a failing run the program stays registered and the next run of it continues from its state without notice; a run with an infinite result fails"
  },
  {
   "property": "C73",
   "status": "partial",
   "theorems": [
    "Rtbot.C73_connection",
    "Rtbot.C73_joined",
    "Rtbot.C73_operators",
    "Rtbot.C73_entry",
    "Rtbot.C73_connections_partial",
    "Rtbot.C73_valid",
    "Rtbot.C73_violated_kept",
    "Rtbot.C73_violated_other",
    "Rtbot.C73_violated_entry",
    "Rtbot.C73_violated_twice"
   ],
   "note": "Any sequence of `addOperator`, `deleteOperator`, `addConnection` and `deleteConnection`. Violated: `deleteConnection` keeps the connection that is named and deletes those that differ from it everywhere; a deleted operator can remain the entry operator; ids can repeat"
  },
  {
   "property": "C74",
   "status": "partial",
   "theorems": [
    "Rtbot.C74_extended",
    "Rtbot.C74_collapsed",
    "Rtbot.C74_failed_partial",
    "Rtbot.C74_invalid",
    "Rtbot.C74_missing",
    "Rtbot.C74_start",
    "Rtbot.C74_send",
    "Rtbot.C74_stop",
    "Rtbot.C74_violated_again"
   ],
   "note": "Any program, table and registry: both formats, the methods of Program, invalid programs, failing calls. Violated: after a failing run the program stays registered and the next run continues from its state"
  },
  {
   "property": "C75",
   "status": "partial",
   "theorems": [
    "Rtbot.C75_create",
    "Rtbot.C75_delete",
    "Rtbot.C75_receive",
    "Rtbot.C75_session",
    "Rtbot.C75_deleteAll_partial",
    "Rtbot.C75_violated_deadlock"
   ],
   "note": "Any sequence of `create`, `delete` and `receive`, any behaviour of the library. Violated: `delete_by_input_key` locks the mutex twice and never returns when there is a pipeline"
  },
  {
   "property": "C76",
   "status": "proved",
   "theorems": [
    "Rtbot.C76_plan",
    "Rtbot.C76_call",
    "Rtbot.C76_unique",
    "Rtbot.C76_operator",
    "Rtbot.C76_described"
   ],
   "note": "Any sequence of calls from a new Composite, in any memory."
  },
  {
   "property": "C77",
   "status": "proved",
   "theorems": [
    "Rtbot.C77_reports",
    "Rtbot.C77_converse",
    "Rtbot.C77_states",
    "Rtbot.C77_built",
    "Rtbot.C77_connect",
    "Rtbot.C77_output"
   ],
   "note": "Any operators with Composites that have an Input, any messages; any further connections. Runs that diverge excepted."
  },
  {
   "property": "C78",
   "status": "partial",
   "theorems": [
    "Rtbot.C78_blind",
    "Rtbot.C78_violated"
   ],
   "note": "The bytes of a Composite are the same whatever messages it was given (`C78_blind`). Violated: `collect` is not overridden, so nothing of the inner operators is saved: a restored CumulativeSum forgets its sum"
  },
  {
   "property": "C79",
   "status": "partial",
   "theorems": [
    "Rtbot.C79_run",
    "Rtbot.C79_refused",
    "Rtbot.C79_arguments",
    "Rtbot.C79_violated_first",
    "Rtbot.C79_violated_left",
    "Rtbot.C79_violated_replay"
   ],
   "note": "Any library, program, series and database, when no pipelines begin at the input or at the output; the first value of each result is stored. Refused programs change nothing. Violated: only the first message of each result is stored; a run whose input is missing leaves its pipeline, so that the same run is refused later; kept pipelines of the same input get the whole series again"
  },
  {
   "property": "C80",
   "status": "partial",
   "theorems": [
    "Rtbot.C80_added_partial",
    "Rtbot.C80_violated_panic",
    "Rtbot.C80_violated_old"
   ],
   "note": "Samples newer than all others of the series, once a registry exists; any pipelines. Violated: before the first `rtbot.run` any `ts.add` makes the handler panic; for an older sample the newest is sent again; only the first message of each result is stored"
  },
  {
   "property": "C81",
   "status": "partial",
   "theorems": [
    "Rtbot.C81_accepts",
    "Rtbot.C81_both_partial",
    "Rtbot.C81_violated_entry",
    "Rtbot.C81_violated_ports"
   ],
   "note": "Exactly which programs the module accepts; those of the library with a title and an entry node, without ports. Violated: the module wants \"entryNode\" and \"title\", the library \"entryOperator\"; the module refuses all connections with ports"
  },
  {
   "property": "C82",
   "status": "proved",
   "theorems": [
    "Rtbot.C82_order_cond",
    "Rtbot.C82_order"
   ],
   "note": "Any program of simple operators without cycles, at most one connection into each port; any sequence of calls and any outcome of each. Operators with times of their own under the conditions of C52."
  },
  {
   "property": "C83",
   "status": "proved",
   "theorems": [
    "Rtbot.C83_kept",
    "Rtbot.C83_times",
    "Rtbot.C83_causality"
   ],
   "note": "Any program and any sequence of calls; the operators that are neither Composite nor Pipeline only have to pass the property on one by one."
  },
  {
   "property": "C84",
   "status": "partial",
   "theorems": [
    "Rtbot.C84_state",
    "Rtbot.C84_again",
    "Rtbot.C84_table_partial",
    "Rtbot.C84_first",
    "Rtbot.C84_end_violated",
    "Rtbot.C84_ports_violated",
    "Rtbot.C84_inherited_violated",
    "Rtbot.C84_null_violated",
    "Rtbot.Debugger.C84_colon_violated",
    "Rtbot.Debugger.C84_names_violated"
   ],
   "note": "The position and the selection after any actions; the table at any position with ten more reports, when ids are plain, operators in a report are there with all their ports and values are numbers; a new program leaves nothing of the earlier one (`C84_again`). Violated: any step to one of the last nine positions throws (so every step with fewer than eleven reports); an operator that emits on some of its ports makes it throw; ids with a colon show other operators' messages; ids such as \"valueOf\" make it throw; NaN is shown as 0"
  },
  {
   "property": "C85",
   "status": "partial",
   "theorems": [
    "Rtbot.C85_command_partial",
    "Rtbot.C85_inputs_violated"
   ],
   "note": "Any data, for programs with one entry port. Violated: programs with more entry ports fail at the first row"
  },
  {
   "property": "C86",
   "status": "partial",
   "theorems": [
    "Rtbot.C86_number",
    "Rtbot.C86_clients",
    "Rtbot.C86_tasks",
    "Rtbot.C86_through",
    "Rtbot.C86_start",
    "Rtbot.C86_violated_early"
   ],
   "note": "Any interleaving: what each client is sent is the part of what was published since it joined; once subscribed, what is published is what the program replies; the start gives such a state; which texts are read as numbers (`C86_number`). Violated: what the program replies before the subscription takes effect reaches no client"
  },
  {
   "property": "C87",
   "status": "partial",
   "theorems": [
    "Rtbot.C87_input_partial",
    "Rtbot.C87_violated_number",
    "Rtbot.C87_violated_missing",
    "Rtbot.C87_violated_time",
    "Rtbot.C87_violated_default"
   ],
   "note": "Messages with a number as timestamp and texts of numbers as values; the first value is sent. Violated: a value that is a JSON number, a timestamp that is negative or has a fraction, or a missing member, ends the reading for good; without a mapping for the timestamp \"$.timestamp\" is used, only null means the time of arrival"
  },
  {
   "property": "C88",
   "status": "proved",
   "theorems": [
    "Rtbot.C88_lockstep",
    "Rtbot.C88_flows",
    "Rtbot.C88_reports",
    "Rtbot.C88_listed"
   ],
   "note": "Any such part of any program of simple operators: the calls on its operators are in step (`C88_lockstep`), its streams (`C88_flows`) and what is reported of them (`C88_reports`, `C88_listed`) are the function of the clock. Operators with times of their own outside the part under the conditions of C52."
  },
  {
   "property": "C89",
   "status": "proved",
   "theorems": [
    "Rtbot.C89_bands",
    "Rtbot.C89_middle",
    "Rtbot.C89_resampled",
    "Rtbot.C89_bands_returns",
    "Rtbot.C89_bands_total",
    "Rtbot.C89_join",
    "Rtbot.C89_join_receive",
    "Rtbot.C89_bands_receive"
   ],
   "note": "`C89_bands` (real numbers), `C89_middle` (any exact field), `C89_resampled` (times below 2^30, by C15) for program-test-6; `C89_bands_receive` and `C89_join_receive` (Props/ReceiveRun) for `receive`; `C89_join` (Props/JoinTest, any arithmetic) for program-test-3. `C89_bands_returns` (Props/BandsReturn, by C97, since C66 does not cover HermiteResampler): every call with times below 2^30 is answered; `C89_bands_total` puts this together with the bands."
  },
  {
   "property": "C90",
   "status": "proved",
   "theorems": [
    "Rtbot.C90_join",
    "Rtbot.C90_served",
    "Rtbot.C90_streams",
    "Rtbot.C90_listed",
    "Rtbot.C90_left_waiting"
   ],
   "note": "`C90_served` for the calls on every operator, `C90_join` for a Join that is called so, `C90_streams` for all streams of the program, `C90_listed` for the reports; `C90_left_waiting` runs the program in which a match is left waiting when neither stream has all the times of the other (the phenomenon of C21 in a whole program). Operators with times of their own under the conditions of C52; connections to data ports only."
  },
  {
   "property": "C91",
   "status": "proved",
   "theorems": [
    "Rtbot.C91_peaks",
    "Rtbot.C91_ppg",
    "Rtbot.C91_ppg_receive",
    "Rtbot.C91_peaks_receive"
   ],
   "note": "`C91_peaks` (program-test-2, any arithmetic), `C91_ppg` (program-test-1, any exact field); both with the return of every call; `C91_peaks_receive` and `C91_ppg_receive` (Props/ReceiveRun) for `receive`, with nothing else reported by the filtered one."
  },
  {
   "property": "C92",
   "status": "partial",
   "theorems": [
    "Rtbot.C92_reduced",
    "Rtbot.C92_calls_partial",
    "Rtbot.C92_period",
    "Rtbot.C92_silent",
    "Rtbot.C92_violated"
   ],
   "note": "`C92_reduced` for every call, `C92_calls_partial` for sequences with times below 2^32, `C92_period` for the order within one period, `C92_silent` for what follows a time that is 2^32 - 1 modulo 2^32. Violated: `C92_violated`: three messages with times in milliseconds; the times in the reports are other ones and the third message is lost. The conversion is ToUint32 of ECMAScript, an assumption since emscripten is not in /repo."
  },
  {
   "property": "C93",
   "status": "proved",
   "theorems": [
    "Rtbot.C93_receive",
    "Rtbot.C93_selects",
    "Rtbot.C93_exact",
    "Rtbot.C93_double"
   ],
   "note": "`C93_selects` for any number type whose comparisons tell the numbers up to a bound apart, by following each message through the program step by step; `C93_exact` over ordered fields and `C93_double` over IEEE doubles; `C93_receive` for `receive`."
  },
  {
   "property": "C94",
   "status": "partial",
   "theorems": [
    "Rtbot.C94_receive",
    "Rtbot.C94_reports",
    "Rtbot.C94_exact",
    "Rtbot.C94_double",
    "Rtbot.C94_range",
    "Rtbot.C94_textbook_partial",
    "Rtbot.C94_gap_violated",
    "Rtbot.C94_rising_violated",
    "Rtbot.C94_late_violated"
   ],
   "note": "`C94_reports`: what the output reports, for any number type and whatever the times, by following each message through all 41 operators; `C94_exact` over ordered fields, `C94_double` over IEEE doubles; `C94_textbook_partial` and `C94_range` over the reals; `C94_receive`: through the filter of the file comes the index and nothing else. That the program is made as assumed is checked by the kernel (`heaps`; the tactic `krfl` only builds the proof term `Eq.refl`). Violated: `C94_gap_violated`: a message that does not come exactly one unit of time after the one before (the TimeShifts of 1 in the loops no longer meet the changes) ends the reports for ever. `C94_rising_violated`: while values never fall nothing is reported, though the index is 100 then (Division drops a division by 0). `C94_late_violated`: the index of the 15th message comes only with the 16th."
  },
  {
   "property": "C95",
   "status": "partial",
   "theorems": [
    "Rtbot.C95_agree_partial",
    "Rtbot.C95_close_partial",
    "Rtbot.C95_file_partial",
    "Rtbot.C95_rising_violated"
   ],
   "note": "`C95_agree_partial` (exact coefficients 13/14 and 1/14, real numbers, consecutive times), `C95_close_partial` (other coefficients: distance at most 100 (n - 15) (1 - a/(13/14))), `C95_file_partial` (the coefficients written in the file). Missing: rounding of doubles. Violated: `C95_rising_violated`: for constant values the operator emits 100 and the program reports nothing."
  },
  {
   "property": "C96",
   "status": "proved",
   "theorems": [
    "Rtbot.C96_copy",
    "Rtbot.C96_created",
    "Rtbot.C96_reordered",
    "Rtbot.C96_same_id",
    "Rtbot.C96_from_inside"
   ],
   "note": "`C96_copy` (programs with any operators, Pipelines and Composites included; every outcome, failures too), `C96_created` (flat descriptions; the second may list more operators in any order and further connections that come from these; the uninitialised memory holds the same value for all operators), `C96_reordered` (another order only). `C96_same_id` and `C96_from_inside` show that the conditions are needed."
  },
  {
   "property": "C97",
   "status": "proved",
   "theorems": [
    "Rtbot.C97_entry",
    "Rtbot.C97_stream",
    "Rtbot.C97_skip"
   ],
   "note": "`C97_entry` (what the entry emits, batch by batch), `C97_stream` (for an operator with one output port of which it is known what it answers to all messages in turn), `C97_skip` (an entry Identity left out). The entry is neither a Pipeline nor a Composite. Used in Props/BandsReturn to show that the Bollinger bands program answers."
  },
  {
   "property": "C98",
   "status": "proved",
   "theorems": [
    "Rtbot.C98_replace",
    "Rtbot.C98_created",
    "Rtbot.C98_timeShift",
    "Rtbot.C98_average",
    "Rtbot.C98_scale",
    "Rtbot.C98_identity",
    "Rtbot.C98_difference",
    "Rtbot.C98_linear",
    "Rtbot.C98_older_differs",
    "Rtbot.C98_double_differs"
   ],
   "note": "`C98_replace` (heaps with the same or interchangeable operators at every address), `C98_created` (flat descriptions, Pipelines not covered), the pairs `C98_average`, `C98_scale`, `C98_identity`, `C98_difference`, `C98_linear` (exact arithmetic), `C98_timeShift` (any arithmetic). `C98_older_differs`: the Difference with the time of the older message is no such filter. `C98_double_differs`: with doubles the MovingAverage of 2^53, 1, 0 over two messages ends with 0, the filter with 1/2, 1/2 ends with 0.5, so the pairs are stated for exact arithmetic."
  },
  {
   "property": "C99",
   "status": "partial",
   "theorems": [
    "Rtbot.C99_partial",
    "Rtbot.C99_created_partial",
    "Rtbot.C99_made",
    "Rtbot.C99_bands",
    "Rtbot.C99_violated"
   ],
   "note": "`C99_partial` (a program and its operators in the new unit, any state), `C99_created_partial` (created programs whose parameters are no values of the stream, run as they are), `C99_made` (what the constructors make in the new unit), `C99_bands` (the Bollinger bands over the reals). The StandardDeviation is covered where the square root is homogeneous, as over the reals. Uses the general `Mapped.Law` of `Lemmas/Mapped`: runs on related messages with related operators give related reports. Missing: Difference with useOldestTime false. Violated: Difference with useOldestTime false reports a value as a time, so that a change of unit changes the times of its reports (`C99_violated`)."
  },
  {
   "property": "C100",
   "status": "partial",
   "theorems": [
    "Rtbot.C100_partial",
    "Rtbot.C100_created_partial",
    "Rtbot.C100_unit",
    "Rtbot.C100_origin",
    "Rtbot.C100_violated",
    "Rtbot.C100_difference_violated"
   ],
   "note": "`C100_partial` (two programs in corresponding states), `C100_created_partial` (two runs of a created program), `C100_unit` and `C100_origin` (a finer unit and an earlier origin are such correspondences). No law of arithmetic is used, so the statement holds for doubles. A second instance of `Mapped.Law`. Missing: TimeShift, the resamplers, Difference with useOldestTime false. Violated: TimeShift adds a constant, or reports zero (`C100_violated`); Difference with useOldestTime false reports a value as a time (`C100_difference_violated`)."
  },
  {
   "property": "C101",
   "status": "partial",
   "theorems": [
    "Rtbot.C101_text_partial",
    "Rtbot.C101_readable",
    "Rtbot.C101_drawn",
    "Rtbot.C101_violated_alone",
    "Rtbot.C101_violated_ports",
    "Rtbot.C101_violated_names"
   ],
   "note": "`C101_text_partial` (the text is the diagram of the arrows), `C101_drawn` (never fails for programs made by the two methods), `C101_readable` (the arrows can be read off, if ids have no bracket, output ports no colon and input ports no bar). Violated: Operators without connections are not drawn (`C101_violated_alone`); a valid connection that leaves out its ports makes the function fail (`C101_violated_ports`); names with a colon make diagrams ambiguous (`C101_violated_names`)."
  },
  {
   "property": "C102",
   "status": "partial",
   "theorems": [
    "Rtbot.C102_partial",
    "Rtbot.C102_created_partial",
    "Rtbot.C102_equal",
    "Rtbot.C102_violated"
   ],
   "note": "`C102_partial` (two programs that differ in values only), `C102_created_partial` (two runs of a created program), `C102_equal` (equal times are such a correspondence). No law of arithmetic is used, so the statement holds for doubles. A third instance of `Mapped.Law`. Violated: A comparison, a division by zero and a peak (`C102_violated`); likewise Demultiplexer, the comparisons of streams and Difference with useOldestTime false."
  },
  {
   "property": "C103",
   "status": "proved",
   "theorems": [
    "Rtbot.C103_created"
   ],
   "note": "`C103_created`, over ordered fields. `Nearby.created_rel` is the general statement, for any relation of values that the operators keep; it is a fourth instance of `Mapped.Law`. That the stored sum of a MovingAverage is the sum of its buffer is part of the invariant. Examples show that Minus, Multiplication, Division and negative factors are not monotone. Other operators that are not listed are not covered, without an example. Exact arithmetic only; nothing is claimed for doubles."
  },
  {
   "property": "C104",
   "status": "proved",
   "theorems": [
    "Rtbot.C104_created"
   ],
   "note": "`C104_created`, over ordered fields, from the same general statement. Examples beside the theorem show that CumulativeSum, AutoRegressive, Plus and And enlarge differences, which is why they are not among the operators. Other operators that are not listed are not covered, without an example. Exact arithmetic only."
  }
 ]
}