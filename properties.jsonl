{"id": "C01", "title": "Input gate forwards exactly the strictly increasing records of each port", "statement": "For an Input operator with any number of ports, whatever messages arrive in whatever order on its ports, the messages it emits on port oK are exactly those received on iK whose timestamp is strictly greater than that of every message previously forwarded on that port; hence emitted timestamps on each port are strictly increasing, values are unmodified, and the ports do not influence each other.", "quantifier": "every number of ports, every finite interleaving of messages over the ports, every timestamp and value", "why_tests_cant": "the claim is about all arrival histories and interleavings; a test fixes one history", "anchors": ["libs/core/include/rtbot/Input.h: Input::processData", "libs/core/include/rtbot/Operator.h: Operator::receiveData, executeData"]}
{"id": "C02", "title": "Bounded input buffers are sliding windows", "statement": "After any history of messages on a data port created with size n>0, the port buffer (as seen by the operator when it computes) holds exactly the last min(k,n) of the k messages received, in arrival order, and the 'went above maximum size' error is never raised.", "quantifier": "every window size n>0 and every message history", "why_tests_cant": "unbounded histories and sizes", "anchors": ["libs/core/include/rtbot/Operator.h: Operator::receiveData, Operator::Input"]}
{"id": "C03", "title": "MovingAverage emits the exact mean of the last n values", "statement": "Feeding any k messages to MovingAverage(n), n>0: the first n-1 produce nothing; each later message produces exactly one message on o1 with that message's time and, in exact arithmetic, the arithmetic mean of the last n values (the incrementally maintained sum never drifts from the window sum).", "quantifier": "every n>0, every message sequence, values in any ordered field (exact arithmetic)", "why_tests_cant": "incremental sum vs recomputed window sum has to agree after every history", "anchors": ["libs/std/include/rtbot/std/MovingAverage.h: processData", "libs/core/include/rtbot/Operator.h: receiveData"]}
{"id": "C04", "title": "StandardDeviation emits the sample standard deviation of the last n values", "statement": "For n>=2 each message after the first n-1 produces exactly one o1 message with its own time and value sqrt(sum((x-mean)^2)/(n-1)) over the last n values (real arithmetic); earlier messages produce nothing.", "quantifier": "every n>=2, every message sequence, real arithmetic", "why_tests_cant": "all histories and sizes", "anchors": ["libs/std/include/rtbot/std/StandardDeviation.h: processData"]}
{"id": "C05", "title": "FiniteImpulseResponse is the causal convolution", "statement": "With N>0 coefficients c0..c(N-1), the k-th message (k>=N) produces exactly one o1 message with its time and value sum_i c_i * x_(k-i) (newest sample multiplies c0); the first N-1 produce nothing.", "quantifier": "every coefficient list, every message sequence", "why_tests_cant": "all lengths and histories", "anchors": ["libs/std/include/rtbot/std/FiniteImpulseResponse.h: processData"]}
{"id": "C06", "title": "PeakDetector emits exactly the window-centre local maxima", "statement": "PeakDetector(n) emits, for each full window of n consecutive messages, the unmodified message at position n/2 of the window iff no message of the window has a strictly larger value, and nothing otherwise.", "quantifier": "every n>0, every message sequence", "why_tests_cant": "all histories; ties and even sizes", "anchors": ["libs/std/include/rtbot/std/PeakDetector.h: processData"]}
{"id": "C07", "title": "Difference emits consecutive differences", "statement": "Difference (as built from a program) emits for every message after the first one message with the newer message's time and value newer minus older; the first message produces nothing.", "quantifier": "every message sequence", "why_tests_cant": "all histories", "anchors": ["libs/std/include/rtbot/std/Difference.h: processData"]}
{"id": "C08", "title": "CumulativeSum and Count are running totals", "statement": "The k-th message fed to CumulativeSum produces one message with its time and the sum of the first k values; the k-th message fed to Count produces one message with its time and value k.", "quantifier": "every message sequence", "why_tests_cant": "all histories", "anchors": ["libs/std/include/rtbot/std/CumulativeSum.h: processData", "libs/std/include/rtbot/std/Count.h: processData"]}
{"id": "C09", "title": "Pointwise operators are one-in one-out and keep timestamps", "statement": "Add, Scale, Power, Constant and Identity emit exactly one message on o1 per received message, in order, with the same time and value x+c, x*c, pow(x,c), c, x respectively, independent of history.", "quantifier": "every operator parameter, every message sequence", "why_tests_cant": "all histories", "anchors": ["libs/std/include/rtbot/std/Add.h", "libs/std/include/rtbot/std/Scale.h", "libs/std/include/rtbot/std/Power.h", "libs/std/include/rtbot/std/Constant.h", "libs/std/include/rtbot/std/Identity.h", "libs/core/include/rtbot/Operator.h: executeData"]}
{"id": "C10", "title": "Value filters forward exactly the matching subsequence", "statement": "LessThan(c), GreaterThan(c), EqualTo(c) emit exactly the subsequence of received messages whose value is <c, >c, ==c, unmodified and in order; for totally ordered values every message is forwarded by exactly one of the three.", "quantifier": "every threshold and message sequence", "why_tests_cant": "all histories", "anchors": ["libs/core/include/rtbot/FilterByValue.h: processData", "libs/std/include/rtbot/std/LessThan.h", "libs/std/include/rtbot/std/GreaterThan.h", "libs/std/include/rtbot/std/EqualTo.h"]}
{"id": "C11", "title": "TimeShift adds dt*times to every timestamp", "statement": "TimeShift(dt,times) emits every message with its value unchanged and its time shifted by dt*times.", "quantifier": "every dt, times and message", "why_tests_cant": "boundary values of 64-bit wrap-around and zero shifts", "anchors": ["libs/std/include/rtbot/std/TimeShift.h: processData"]}
{"id": "C12", "title": "AutoRegressive follows its recurrence", "statement": "AutoRegressive(c1..cN) emits for each input x_n one message with its time and value y_n = x_n + c1*y_(n-1) + ... + cN*y_(n-N), outputs before the start counting as 0 (coefficient c1 applies to the most recent output, as documented).", "quantifier": "every coefficient list, every message sequence", "why_tests_cant": "feedback over the full output history; order of coefficients only visible with asymmetric coefficients", "anchors": ["libs/std/include/rtbot/std/AutoRegressive.h", "libs/std/include/rtbot/std/AutoRegressive.md"]}
{"id": "C13", "title": "ConstantResampler emits every grid point exactly once with the last known value", "statement": "With first message at t0 and interval dt>0, for strictly increasing timestamps without 64-bit overflow, after any history ending at time t the messages emitted so far are exactly one per grid point t0+k*dt, k>=1, t0+k*dt<=t, in increasing order, each carrying the value of the latest message at or before that grid point.", "quantifier": "every dt>0, every strictly increasing message sequence", "why_tests_cant": "all gaps/alignments between data and grid", "anchors": ["libs/std/include/rtbot/std/ConstantResampler.h: processData"]}
{"id": "C14", "title": "CosineResampler emits every grid point exactly once, within the bracketing values", "statement": "With first message at t0 and dt>0, for strictly increasing timestamps, after any history ending at time t the emitted times are exactly t0+k*dt for k>=1, t0+k*dt<=t, in order, each value is the cosine interpolation of the two messages bracketing that time, hence lies between their values (real arithmetic) and equals the message's value when the grid point coincides with it.", "quantifier": "every dt>0, every strictly increasing message sequence (no 64-bit overflow)", "why_tests_cant": "all gaps/alignments; the carry-over bookkeeping has to stay exact for ever", "anchors": ["libs/std/include/rtbot/std/CosineResampler.h: processData"]}
{"id": "C15", "title": "HermiteResampler emits every grid point exactly once", "statement": "With first message at t0 and dt>0, for strictly increasing timestamps, after n>=4 messages the emitted times are exactly t0+k*dt, k>=1, up to the time of the last-but-one message, in order, each once.", "quantifier": "every dt>0, every strictly increasing message sequence (no 64-bit overflow)", "why_tests_cant": "all gaps/alignments", "anchors": ["libs/std/include/rtbot/std/HermiteResampler.h: processData, lookAt, get"]}
{"id": "C16", "title": "Function interpolates its points", "statement": "For at least two points with distinct abscissae, Function emits one message per input with its time; in linear mode the value is the piecewise linear interpolation through the points sorted by x (extrapolated by the first and last segment), and in both modes the value at a given point's x is that point's y.", "quantifier": "every point list with distinct x, every input value", "why_tests_cant": "all point lists and arguments", "anchors": ["libs/std/include/rtbot/std/Function.h: processData"]}
{"id": "C17", "title": "RelativeStrengthIndex follows Wilder's recurrence and stays in [0,100]", "statement": "RelativeStrengthIndex(n), n>=1 emits nothing for the first n messages, then one message per input with its time; values follow the Wilder smoothing of average gain and loss started from the plain averages over the first n differences, and always lie in [0,100].", "quantifier": "every n>=1 and every message sequence (exact arithmetic)", "why_tests_cant": "unbounded recurrence", "anchors": ["libs/finance/include/rtbot/finance/RelativeStrengthIndex.h: processData"]}
{"id": "C18", "title": "Variable answers each query with the value in force at the query time", "statement": "For strictly increasing data and strictly increasing queries, each answered query (t) on c1 yields one message (t, v) where v is the value of the latest data message with time <= t, or the default value when the first data message is later than t and no earlier query reached the data; queries newer than all data wait.", "quantifier": "every interleaving of data and queries", "why_tests_cant": "all interleavings", "anchors": ["libs/std/include/rtbot/std/Variable.h: query"]}
{"id": "C19", "title": "Join emits only synchronized tuples of received messages", "statement": "Each emission of Join(N) carries on oK, K=1..N, a message that was received on iK, and all of them have the same timestamp; emitted timestamps strictly increase when each input port's timestamps strictly increase; no message is emitted twice.", "quantifier": "every N>=2, every interleaving of arrivals and executions", "why_tests_cant": "all interleavings over N queues", "anchors": ["libs/core/include/rtbot/Join.h: executeData, processData"]}
{"id": "C20", "title": "Join never loses a match", "statement": "For strictly increasing timestamps per port, at any moment every timestamp received on all N ports has either been emitted or is still buffered on all ports and will be emitted by further executions: the emitted sequence followed by the matches still buffered equals the list of all common timestamps in increasing order.", "quantifier": "every N>=2, every interleaving of arrivals and executions", "why_tests_cant": "all interleavings; a lost match needs a specific backlog pattern", "anchors": ["libs/core/include/rtbot/Join.h: executeData"]}
{"id": "C21", "title": "Join emits a match as soon as it is complete", "statement": "After executeData returns, no timestamp is buffered on every port of the Join (every complete match has been emitted).", "quantifier": "every arrival history", "why_tests_cant": "needs a backlog pattern no test has", "anchors": ["libs/core/include/rtbot/Join.h: executeData"]}
{"id": "C22", "title": "Synchronised output does not depend on the arrival interleaving", "statement": "Two arrival interleavings of the same per-port streams (design principle 'Deterministic': the output of an operator shall not depend on when its inputs arrive) make Join emit the same sequence of tuples.", "quantifier": "all pairs of interleavings of the same N streams", "why_tests_cant": "exponentially many interleavings", "anchors": ["libs/core/include/rtbot/Join.h", "docs/site/docs/user-guide/design-principles.md"]}
{"id": "C23", "title": "Binary stream operators combine synchronised values", "statement": "Plus, Minus, Multiplication, Division, And, Or, GreaterThanStream, LessThanStream emit, for each matched pair (a on i1, b on i2), one message at the common time with a+b, a-b, a*b, a/b, logical and/or at threshold 0.5, a if a>b, a if a<b; Division emits nothing when b==0 and the comparisons nothing when they fail, and such pairs are consumed.", "quantifier": "every interleaving of two streams", "why_tests_cant": "all interleavings and value combinations", "anchors": ["libs/core/include/rtbot/BinaryJoin.h: processData", "libs/std/include/rtbot/std/Division.h", "libs/std/include/rtbot/std/And.h"]}
{"id": "C24", "title": "Linear applies coefficient k to port ik", "statement": "Linear(c1..cN) emits for each matched tuple (x1..xN) the value c1*x1+...+cN*xN at the common time.", "quantifier": "every N>=2, every coefficient list and streams", "why_tests_cant": "the port order is lexicographic so it only breaks for N>=10", "anchors": ["libs/std/include/rtbot/std/Linear.h: processData", "libs/std/include/rtbot/std/Linear.md"]}
{"id": "C25", "title": "Demultiplexer routes each message according to its control instructions", "statement": "For strictly increasing data and controls with one 0/1 instruction per data message on every control port, every data message is emitted, unmodified and in order, on exactly the ports ok whose control ck carried 1 at that time; a control value other than 0/1 or a missing instruction raises an error instead of misrouting.", "quantifier": "every number of ports, every interleaving", "why_tests_cant": "all interleavings over the ports", "anchors": ["libs/core/include/rtbot/Demultiplexer.h: join"]}
{"id": "C26", "title": "Batch boundaries are invisible", "statement": "Feeding a list of messages to a program port in one call gives the same per-port output sequences and leaves the program in the same state as feeding the same messages split into any number of consecutive calls.", "quantifier": "every program, every message list, every split", "why_tests_cant": "all splits and programs", "anchors": ["libs/api/include/rtbot/Program.h: Program::receive, receiveDebug", "libs/core/include/rtbot/Operator.h: mergeOutput"]}
{"id": "C27", "title": "receive is receiveDebug restricted to the output filter", "statement": "With a non-empty output filter, receive returns exactly the (operator, port) message lists of receiveDebug listed in the filter, each once; with an empty filter it returns everything; the effect on the program state is the same.", "quantifier": "every program, filter and input", "why_tests_cant": "all filters", "anchors": ["libs/api/include/rtbot/Program.h: receive"]}
{"id": "C28", "title": "Acyclic programs always terminate", "statement": "For a program whose connection graph is acyclic and whose operators' own steps terminate, every call to receive returns (normally or with an exception) - message propagation cannot recurse for ever.", "quantifier": "every acyclic program, state and input", "why_tests_cant": "termination is not testable", "anchors": ["libs/core/include/rtbot/Operator.h: emit, executeData"]}
{"id": "C29", "title": "The debug report is the complete chronological log of emissions", "statement": "The result of receiveDebug lists, for every operator and output port, exactly the messages emitted there during the call, in the order they were emitted.", "quantifier": "every program (including feedback loops), state and input", "why_tests_cant": "all topologies", "anchors": ["libs/core/include/rtbot/Operator.h: emit, mergeOutput", "libs/api/include/rtbot/Program.h: receiveDebug"]}
{"id": "C30", "title": "Every emitted message is delivered once to every connection, in order", "statement": "During any call, the sequence of messages delivered to a connected input is exactly the sequence of messages emitted on the connected output port, none lost, duplicated or reordered, and all children of a port receive the message before any of them executes.", "quantifier": "every program, state and input", "why_tests_cant": "all topologies", "anchors": ["libs/core/include/rtbot/Operator.h: emit"]}
{"id": "C31", "title": "Operators not downstream of the entry are never touched", "statement": "A call to receive changes only operators reachable from the entry operator by connections.", "quantifier": "every program, state and input", "why_tests_cant": "all topologies", "anchors": ["libs/core/include/rtbot/Operator.h: emit", "libs/api/include/rtbot/Program.h"]}
{"id": "C32", "title": "Programs compose: a tree of operators computes the composition of their stream functions", "statement": "In a program whose connections form a tree, the messages an operator emits during any input sequence are its own stream function applied to the messages emitted by its parent on the connected port.", "quantifier": "every tree-shaped program, every input sequence", "why_tests_cant": "all topologies and operators", "anchors": ["libs/core/include/rtbot/Operator.h: emit", "libs/api/include/rtbot/Program.h"]}
{"id": "C33", "title": "Behaviour does not depend on the order in which operators were connected", "statement": "Permuting the connections list of a program does not change the output streams (design principle 'Declarative').", "quantifier": "all permutations of connection lists of all programs", "why_tests_cant": "exponentially many permutations", "anchors": ["libs/core/include/rtbot/Operator.h: connect, emit", "docs/site/docs/user-guide/design-principles.md"]}
{"id": "C34", "title": "Successfully created programs never hit missing ports at run time", "statement": "If program creation succeeds, every connection leads from an existing output port to an existing input port, and no later receive on a valid entry port raises a 'non existing port' error.", "quantifier": "every program accepted at creation, every history", "why_tests_cant": "all programs and histories", "anchors": ["libs/core/include/rtbot/Operator.h: connect", "libs/api/src/Program.cpp: Program::init"]}
{"id": "C35", "title": "Operator state encoding is self-delimiting and lossless", "statement": "For every operator whose state is covered by the snapshot format, collect followed by restore into a freshly built operator with the same parameters reproduces the state and consumes exactly the bytes written, whatever bytes follow.", "quantifier": "every operator type, state and trailing bytes", "why_tests_cant": "all states", "anchors": ["libs/core/include/rtbot/Operator.h: collect, restore", "libs/core/include/rtbot/Input.h", "libs/std/include/rtbot/std/Variable.h", "libs/std/include/rtbot/std/HermiteResampler.h", "libs/std/include/rtbot/std/Function.h", "libs/std/include/rtbot/std/ConstantResampler.h", "libs/std/include/rtbot/std/Count.h"]}
{"id": "C36", "title": "A restored program continues exactly like the original", "statement": "For a program without RelativeStrengthIndex and Pipeline operators, creating a program from the serialized bytes of another gives a program that answers every future input sequence with the same output and errors.", "quantifier": "every such program, every reachable state, every future input", "why_tests_cant": "all states and futures", "anchors": ["libs/api/src/Program.cpp: serialize", "libs/api/include/rtbot/Program.h: Program(Bytes)"]}
{"id": "C37", "title": "Snapshots capture the whole state of every operator", "statement": "Serializing and restoring any program preserves its future behaviour, whatever operators it contains.", "quantifier": "every program", "why_tests_cant": "needs specific operator types and state", "anchors": ["libs/finance/include/rtbot/finance/RelativeStrengthIndex.h", "libs/api/include/rtbot/Pipeline.h", "libs/api/src/Program.cpp: serialize"]}
{"id": "C38", "title": "Serialization is stable", "statement": "Serializing does not change the program, and serializing a restored program yields the original bytes.", "quantifier": "every program without RelativeStrengthIndex/Pipeline, every state", "why_tests_cant": "all states", "anchors": ["libs/api/src/Program.cpp: serialize", "libs/api/include/rtbot/Program.h"]}
{"id": "C39", "title": "A damaged snapshot is rejected without undefined behaviour", "statement": "Creating a program from a byte string that is not a complete snapshot (for example a truncated one) raises an error and performs no out-of-bounds read.", "quantifier": "every byte string", "why_tests_cant": "all truncations", "anchors": ["libs/api/include/rtbot/Program.h: Program(Bytes const&)", "libs/core/include/rtbot/Operator.h: restore"]}
{"id": "C40", "title": "Programs are isolated from each other", "statement": "No call naming program A changes the answer of any later call naming program B (B different from A).", "quantifier": "every sequence of API calls", "why_tests_cant": "all call sequences", "anchors": ["libs/api/include/rtbot/FactoryOp.h: FactoryOp"]}
{"id": "C41", "title": "Creating a program under an existing id does not disturb it and is reported", "statement": "Creating a program under an id that is in use leaves the existing program and its state untouched and reports an error.", "quantifier": "every registry state", "why_tests_cant": "all states", "anchors": ["libs/api/src/FactoryOp.cpp: createProgram"]}
{"id": "C42", "title": "Deleting a program removes every trace of it", "statement": "After deleteProgram(id), a program created under the same id behaves like one created in a registry that never contained id.", "quantifier": "every registry history", "why_tests_cant": "needs buffered messages at deletion", "anchors": ["libs/api/include/rtbot/FactoryOp.h: deleteProgram, addToMessageBuffer, processMessageBuffer"]}
{"id": "C43", "title": "Buffered messages are processed exactly once", "statement": "processMessageBuffer gives the program exactly the messages added since the last successful processing, in order per port, and empties the buffer on success; if processing raises an exception the buffered messages are not lost.", "quantifier": "every call history", "why_tests_cant": "all histories", "anchors": ["libs/api/include/rtbot/FactoryOp.h: addToMessageBuffer, processMessageBuffer"]}
{"id": "C44", "title": "processBatch is equivalent to feeding the messages one by one", "statement": "processBatch on a list of (time, value, port) triples produces the outputs of feeding the triples to the program one at a time in list order.", "quantifier": "every batch over every set of ports", "why_tests_cant": "all batches", "anchors": ["libs/api/src/bindings.cpp: processBatch, addBatchToMessageBuffers", "libs/api/include/rtbot/Program.h: receiveDebug"]}
{"id": "C45", "title": "Calls on unknown programs fail cleanly", "statement": "Every API call naming a program that does not exist raises an error (processMessageMap returns an empty result) and changes nothing.", "quantifier": "every registry state and call", "why_tests_cant": "all states", "anchors": ["libs/api/include/rtbot/FactoryOp.h"]}
{"id": "C46", "title": "Program creation validates the entry operator", "statement": "Program creation succeeds only if the entry operator exists and has no control inputs; otherwise creation reports an error.", "quantifier": "every program description", "why_tests_cant": "all descriptions", "anchors": ["libs/api/src/Program.cpp: init"]}
{"id": "C47", "title": "Operator ids are unique within a program", "statement": "A program description in which two operators have the same id is rejected.", "quantifier": "every program description", "why_tests_cant": "all descriptions", "anchors": ["libs/api/src/Program.cpp: init"]}
{"id": "C48", "title": "Operator descriptions survive a write/read round trip", "statement": "Writing an operator to JSON and reading it back gives an operator of the same type, id, ports and parameters.", "quantifier": "every registered operator type and parameters", "why_tests_cant": "all parameter values", "anchors": ["libs/api/src/FactoryOp.cpp: to_json, from_json, readOp, writeOp"]}
{"id": "C49", "title": "Operator parameters in a program description are taken over exactly", "statement": "The numeric parameters given in the JSON description (window sizes, coefficients, values, intervals) are the ones the operator computes with.", "quantifier": "every registered operator type and parameters", "why_tests_cant": "all parameter values", "anchors": ["libs/api/src/FactoryOp.cpp: from_json"]}
{"id": "C50", "title": "A Pipeline exposes exactly its unconnected inner ports", "statement": "A Pipeline operator's inputs i1..iK / outputs o1..oM correspond one to one, in sorted order of 'id:port', to the inner data inputs / outputs not used by an inner connection.", "quantifier": "every pipeline description", "why_tests_cant": "all descriptions", "anchors": ["libs/api/src/Pipeline.cpp: Pipeline"]}
{"id": "C51", "title": "Wrapping operators in a Pipeline does not change what they compute", "statement": "A program in which a group of operators is wrapped in a Pipeline produces on the pipeline's outputs the messages the inner operators emit on the exposed ports when fed the same messages directly.", "quantifier": "every pipeline and message history", "why_tests_cant": "all pipelines and histories", "anchors": ["libs/api/include/rtbot/Pipeline.h: receiveData, executeData"]}
{"id": "C52", "title": "Operators preserve strictly increasing time", "statement": "Every operator that receives strictly increasing timestamps on each of its ports emits strictly increasing timestamps on each output port.", "quantifier": "every operator type, parameters and history", "why_tests_cant": "all histories", "anchors": ["libs/std/include/rtbot/std/", "libs/core/include/rtbot/"]}
{"id": "C53", "title": "Causality: outputs never carry a timestamp newer than the newest input", "statement": "Except for TimeShift, no operator emits a message whose time exceeds the newest time it has received.", "quantifier": "every operator type, parameters and history", "why_tests_cant": "all histories", "anchors": ["libs/std/include/rtbot/std/", "libs/core/include/rtbot/", "docs/site/docs/user-guide/design-principles.md"]}
{"id": "C54", "title": "HermiteResampler interpolates with the four neighbouring messages", "statement": "Every message emitted by HermiteResampler has the value at its time of the Catmull-Rom cubic of the two received messages around it, the one before them and the one after them; before the first message, the message one average gap earlier on the least-squares line of the first four messages stands in. At the times of received messages the emitted value is the received one.", "quantifier": "every dt and message history", "why_tests_cant": "all histories, gaps and values", "anchors": ["libs/std/include/rtbot/std/HermiteResampler.h: lookAt, get, getLineLeastSquares, hermiteInterpolate"]}
{"id": "C55", "title": "Function reproduces straight lines", "statement": "If all points given to a Function lie on a straight line, its answer to every value lies on that line, in linear and in hermite mode.", "quantifier": "every set of points on a line and every value", "why_tests_cant": "all points and values", "anchors": ["libs/std/include/rtbot/std/Function.h: processData, linearInterpolate, hermiteInterpolate, getTangent"]}
{"id": "C56", "title": "The connections of a created program are exactly those of its description", "statement": "When a description is accepted, the program contains exactly one operator for each described id, every described connection names an existing output and input of two of them (after default port names are filled in), and each operator's list of connections is exactly the described connections that leave it, in the order of the description, both for the program and inside pipelines.", "quantifier": "every accepted description, nested pipelines included", "why_tests_cant": "all descriptions", "anchors": ["libs/api/include/rtbot/Program.h: init", "libs/api/include/rtbot/Pipeline.h: Pipeline", "libs/core/include/rtbot/Operator.h: connect"]}
{"id": "C57", "title": "Windowed statistics depend on the window only", "statement": "With IEEE doubles, the answer of MovingAverage(n), StandardDeviation(n), PeakDetector(n) and FiniteImpulseResponse to a message is a function of the last n messages: it is the same whatever was received before.", "quantifier": "every operator parameter and every pair of histories ending with the same n messages, values any doubles", "why_tests_cant": "errors of an incrementally maintained sum appear only after particular histories and persist for ever", "anchors": ["libs/core/include/rtbot/Operator.h: receiveData (running sum)", "libs/std/include/rtbot/std/MovingAverage.h: processData", "libs/std/include/rtbot/std/StandardDeviation.h: processData", "libs/std/include/rtbot/std/PeakDetector.h: processData", "libs/std/include/rtbot/std/FiniteImpulseResponse.h: processData"]}
{"id": "C58", "title": "Integer data are processed exactly with doubles", "statement": "With IEEE doubles: Count emits the exact number of messages up to 2^53; CumulativeSum emits the exact sum of integer values as long as the running sums do not exceed 2^53; MovingAverage(n) emits the double nearest to the exact mean of the last n integer values of at most 2^53/n, whatever the history.", "quantifier": "every message sequence with integer values in the stated range, every n", "why_tests_cant": "all histories", "anchors": ["libs/std/include/rtbot/std/Count.h: processData", "libs/std/include/rtbot/std/CumulativeSum.h: processData", "libs/std/include/rtbot/std/MovingAverage.h: processData", "libs/core/include/rtbot/Operator.h: receiveData"]}
{"id": "C59", "title": "The relative strength index computed with doubles is a number between 0 and 100", "statement": "With IEEE doubles and finite input values, every value RelativeStrengthIndex(n), n>=1, emits is a number between 0 and 100 despite rounding.", "quantifier": "every n>=1, every sequence of finite doubles", "why_tests_cant": "rounding errors accumulate over unbounded histories; overflow needs extreme values", "anchors": ["libs/finance/include/rtbot/finance/RelativeStrengthIndex.h: processData"]}
{"id": "C60", "title": "Validation accepts exactly the documented descriptions", "statement": "validateOperator(type, text) answers valid iff the text parses and has that type, a textual id and the parameters the documentation (the front matter of the operator's markdown file, from which the schema is generated) asks for; validate(text) answers valid iff the program has a textual entry operator, documented operators and connections, and optional members of the documented form. Both agree on every operator of a program.", "quantifier": "every text, every parser, every JSON value, every type name", "why_tests_cant": "all JSON values; oneOf over 35 schemas could accept a value twice and thereby reject it", "anchors": ["libs/api/src/bindings.cpp: validate, validateOperator", "tools/generator/templates/jsonschema.hbs", "tools/generator/src/index.ts", "libs/std/include/rtbot/std/*.md", "libs/core/include/rtbot/*.md"]}
{"id": "C61", "title": "Every operator description that passes validation can be created as described", "statement": "If validateOperator accepts a description then the factory creates the operator it describes, without undefined behaviour.", "quantifier": "every accepted description", "why_tests_cant": "all combinations of present, absent and extreme parameters", "anchors": ["libs/api/src/bindings.cpp: validateOperator", "libs/api/src/FactoryOp.cpp: from_json of all operators", "libs/std/include/rtbot/std/*.md", "libs/core/include/rtbot/*.md"]}
{"id": "C62", "title": "Every operator the factory can create has a description that passes validation", "statement": "If the factory creates an operator exactly as a description says, then validateOperator accepts the description.", "quantifier": "every description the factory takes over exactly", "why_tests_cant": "all JSON values and types", "anchors": ["libs/api/src/FactoryOp.cpp: op_registry, from_json", "libs/api/src/bindings.cpp: validateOperator", "libs/std/include/rtbot/std/*.md"]}
{"id": "C63", "title": "Creating a validated program is well defined", "statement": "createProgram of the API answers a text that is not accepted with the error and changes nothing; for an accepted text creation either succeeds or ends with a runtime_error or out_of_range exception, without undefined behaviour and without changing the registry; if the entry operator is one of the operators and every connection leads from an output port to an input port (named or unique) creation succeeds.", "quantifier": "every accepted program description, every registry", "why_tests_cant": "all programs", "anchors": ["libs/api/src/bindings.cpp: createProgram", "libs/api/src/FactoryOp.cpp: createProgram", "libs/api/src/Program.cpp: init"]}
{"id": "C64", "title": "The output filter of a validated program is taken over exactly", "statement": "The filter of a program created from an accepted description maps each key of \"output\" to its list of ports, and nothing else; without \"output\" it is empty.", "quantifier": "every accepted program description", "why_tests_cant": "a malformed entry makes the code drop the whole filter silently; depends on which characters occur in a key", "anchors": ["libs/api/src/Program.cpp: init", "tools/generator/templates/jsonschema.hbs: output patternProperties"]}
{"id": "C65", "title": "No call reaches undefined behaviour", "statement": "Whatever the connections, the messages and the earlier calls, also failed ones, a call of a created program ends with a report or an exception or does not end; it never reads an empty deque, dereferences an end iterator, follows a dangling pointer, converts a number out of range or overflows.", "quantifier": "every program the constructors or the JSON reader can build, every history of calls, every sequence of API requests", "why_tests_cant": "undefined behaviour needs particular combinations of connection, buffer state and an earlier exception; most of them crash only sometimes", "anchors": ["libs/core/include/rtbot/Operator.h: receiveData, executeData, emit", "libs/api/src/Program.cpp: receive", "libs/std/include/rtbot/std/*.h: processData"]}
{"id": "C66", "title": "Every call returns", "statement": "A call of a program without cycles whose messages name data ports of the entry operator always returns a report: it neither throws nor loops nor is undefined, whatever was sent before.", "quantifier": "every program created from a description, every history of calls including failed ones, every message map on existing ports", "why_tests_cant": "exceptions and endless loops depend on buffer fill levels, times and earlier failures of all operators together", "anchors": ["libs/core/include/rtbot/Operator.h: receiveData, executeData, emit", "libs/core/include/rtbot/Demultiplexer.h: join", "libs/std/include/rtbot/std/Variable.h: query", "libs/api/src/Program.cpp: receive"]}
{"id": "C67", "title": "Getters keep telling the truth", "statement": "From the creation of a program under a free id until its deletion, whatever calls are made in between (failing ones, calls on other programs, further creations under the same id), the interface answers the questions for the entry operator, its ports and the output filter with what the description said, and accepts messages.", "quantifier": "every description, every sequence of API calls without the deletion of the program", "why_tests_cant": "the answer has to stay the same over every possible session", "anchors": ["libs/api/src/bindings.cpp: getProgramEntryOperatorId, getProgramEntryPorts, getProgramOutputFilter, addToMessageBuffer", "libs/api/src/Program.cpp: getEntryPorts"]}
{"id": "C68", "title": "Reports mention only declared ports", "statement": "Every entry of a report of a program created from a description names an operator that the description asks for (never one inside a pipeline) and one of its output ports, and no port name contains a ':' so that names of the form operator:port are unambiguous.", "quantifier": "every description with pipelines of any depth, every history of calls, every message map", "why_tests_cant": "it ranges over all programs and over all states they can reach", "anchors": ["libs/api/src/Program.cpp: receiveDebug, receive", "libs/api/include/rtbot/Pipeline.h: receiveData, emit", "libs/core/include/rtbot/Operator.h: emit"]}
{"id": "C69", "title": "Python operator classes make documented operators", "statement": "The constructor of an operator class of the Python wrapper succeeds exactly when its arguments are the documented ones with documented values; the object then holds the type, the arguments and the documented defaults and is a documented description, from which the factory creates the operator.", "quantifier": "every operator class, every set of keyword arguments", "why_tests_cant": "it ranges over all argument sets of all generated classes", "anchors": ["tools/generator/templates/python.hbs", "tools/generator/src/index.ts:155-168", "libs/wrappers/python/rtbot.cpp: validateOperator"]}
{"id": "C70", "title": "Python programs stay well built", "statement": "Whatever sequence of addOperator and addConnection is applied to a new Program, failing attempts included, its operators are valid and have distinct ids, its connections join operators of the program, failing attempts change nothing, and the program validates once it has an entry operator and a date.", "quantifier": "every sequence of edits with any arguments", "why_tests_cant": "it is an invariant over edit sequences of any length", "anchors": ["libs/wrappers/python/rtbot.py:64-143 Program", "libs/wrappers/python/rtbot.py:175-181 Connection"]}
{"id": "C71", "title": "Reading and writing Python programs", "statement": "parse accepts the text of a valid program and gives a Program with the same operators, connections, entry operator and texts; writing it gives back a text with the same contents; texts that are not documented programs are rejected.", "quantifier": "every program value", "why_tests_cant": "round trips have to hold for every document", "anchors": ["libs/wrappers/python/rtbot.py:53-61 parse", "libs/wrappers/python/rtbot.py:65-113 __init__, toJson"]}
{"id": "C72", "title": "A Python run returns the columns of the reports", "statement": "Run.exec calls the program once for each row with the row's values on the entry ports in order, and returns for each operator and port all reported messages in order, nothing else; afterwards the registry is as before; invalid programs are not run, and failures of calls are passed on.", "quantifier": "every program, every table of rows, every registry", "why_tests_cant": "tables and programs are unbounded", "anchors": ["libs/wrappers/python/rtbot.py:8-50 Run", "libs/wrappers/python/rtbot.cpp", "libs/api/src/bindings.cpp: processMessageBufferDebug"]}
{"id": "C73", "title": "JavaScript programs stay well built", "statement": "Whatever operators and connections are added to and removed from a Program of the JavaScript wrapper, failing attempts included, its connections are distinct and join operators of the program, its operators are the added and not deleted ones with distinct ids, deleting removes exactly what is named, and the entry operator is one of its operators.", "quantifier": "every sequence of edits with any arguments", "why_tests_cant": "it is an invariant over edit sequences of any length", "anchors": ["libs/wrappers/javascript/src/program.ts:9-133 Program"]}
{"id": "C74", "title": "A JavaScript run returns the columns of the reports", "statement": "RtBotRun.run and start/processMessage/stop call the program once for each row with the row's values on the entry ports in order; the collapsed format has for each operator and port all reported messages in order and nothing else, the extended format has for each row what was sent and the report; afterwards the registry is as before, also after failures.", "quantifier": "every program, every table of rows, every registry", "why_tests_cant": "tables and programs are unbounded", "anchors": ["libs/wrappers/javascript/src/api.ts:28-152", "libs/wrappers/javascript/src/program.ts:87-116", "libs/api/wasm/emscripten-bindings.cpp"]}
{"id": "C75", "title": "The Rust registry relates keys and pipelines", "statement": "The registry of pipelines has between two keys the pipeline of the last accepted creation that was not deleted; a second creation between the same keys is refused; a message goes once to each pipeline of its input key, in order, and the answer has the result of each; all methods return.", "quantifier": "every sequence of calls, every behaviour of the library", "why_tests_cant": "it ranges over call sequences and behaviours of the library", "anchors": ["apps/rtbot-rs/src/pipelines_registry.rs:16-175"]}
{"id": "C76", "title": "A Composite is what the calls that build it ask for", "statement": "After any sequence of createInput, createOutput, create operator and createInternalConnection calls, whether they returned or threw, the Composite consists of exactly the operators that the permitted calls ask for, with exactly the connections asked for, and has the ports of its Input and its Output; a refused call has no effect, and no other object changes.", "quantifier": "every memory, every sequence of calls with any arguments", "why_tests_cant": "it is an invariant over call sequences of any length, failing ones included", "anchors": ["libs/core/include/rtbot/Composite.h", "libs/core/include/rtbot/Operator.h connect"]}
{"id": "C77", "title": "A Composite does what its operators do", "statement": "Feeding operators that include Composites gives the same reports, errors and operator states as feeding the same operators without the Composites, with messages and connections for a Composite going to its Input and its connections coming from its Output.", "quantifier": "every network of operators with Composites, every sequence of messages, every number type", "why_tests_cant": "networks and message sequences are unbounded", "anchors": ["libs/core/include/rtbot/Composite.h receiveData, execute, connect"]}
{"id": "C78", "title": "A Composite restored from its bytes continues", "statement": "A Composite restored from the bytes collected from it answers every later message as the original would have.", "quantifier": "every Composite, every sequence of messages before and after", "why_tests_cant": "message sequences are unbounded", "anchors": ["libs/core/include/rtbot/Operator.h collect, restore", "libs/core/include/rtbot/Composite.h"]}
{"id": "C79", "title": "rtbot.run computes the output series from the input series", "statement": "rtbot.run sends the samples of the input series to a new pipeline of the program in order, and the output series then has exactly the messages that the pipeline returned; nothing else in the database changes, and a run that fails leaves everything as it was.", "quantifier": "every database, program, series, library and set of other pipelines", "why_tests_cant": "series, programs and histories of commands are unbounded, and the interesting cases are failures half way", "anchors": ["apps/redis-module/src/commands/rtbot_run.rs", "apps/rtbot-rs/src/pipelines_registry.rs"]}
{"id": "C80", "title": "Samples added later go to the pipelines that were kept", "statement": "After rtbot.xrun every sample that is added to the input series is sent once to each pipeline of the series, and what the pipelines return is stored in their output series and published.", "quantifier": "every database, registry, library and sample", "why_tests_cant": "the order of samples and the set of pipelines are unbounded", "anchors": ["apps/redis-module/src/commands/rtbot_xrun.rs"]}
{"id": "C81", "title": "The Redis module takes the programs that the library takes", "statement": "A program is accepted by the check of the Redis module exactly when the library accepts it.", "quantifier": "every JSON value", "why_tests_cant": "JSON values are unbounded", "anchors": ["apps/redis-module/src/program_validator.rs", "tools/generator/templates/jsonschema.hbs"]}
{"id": "C82", "title": "Times increase along a whole program", "statement": "In a program without cycles in which each input port is reached by at most one connection, if the times of the messages given to the entry operator increase strictly along a sequence of calls, successful or not, then the times of what every operator emits on every port increase strictly along all these calls, and so do the times in the reports.", "quantifier": "every such program of operators (all but AutoRegressive and those that compute times of their own need no further condition), every sequence of calls, including failing ones", "why_tests_cant": "graphs, calls and places of failure are unbounded; a failure in the middle of the propagation leaves messages behind in the inputs", "anchors": ["libs/core/include/rtbot/Operator.h", "libs/api/include/rtbot/Program.h"]}
{"id": "C83", "title": "What a program reports comes from what it was given", "statement": "Whatever property of messages the operators of a program pass on from what they are handed to what they return, the program passes on from what it is given to what it reports. So a program without TimeShift, Difference and resamplers reports only times that it was given, and one with ConstantResamplers no time later than all it was given.", "quantifier": "every program (cycles, several connections into one port, Composites and Pipelines included), every sequence of calls, including failing ones", "why_tests_cant": "graphs, calls and properties of messages are unbounded", "anchors": ["libs/core/include/rtbot/Operator.h", "libs/api/include/rtbot/Program.h", "libs/api/include/rtbot/Pipeline.h"]}
{"id": "C84", "title": "The debugger shows what the run reported", "statement": "Whatever the user of the interactive debugger does, the position stays between 0 and the number of reports, and the table has below the titles the reports from the one before the position on, with the messages of each selected port and a dash where there are none.", "quantifier": "every program, every list of reports, every sequence of steps and selections, including actions that throw", "why_tests_cant": "reports, ids and sequences of actions are unbounded; there are no tests of the debugger", "anchors": ["apps/cli/src/tui/store.ts"]}
{"id": "C85", "title": "The debug command runs each row of the data once", "statement": "The debug command sends each row of the data whose columns are numbers to the program, once and in order, ignores the other rows, and hands the reports to the debugger.", "quantifier": "every program, every table of texts, every registry", "why_tests_cant": "tables and programs are unbounded", "anchors": ["apps/cli/src/commands/debug.ts", "libs/wrappers/javascript/src/api.ts"]}
{"id": "C86", "title": "The clients of the websocket server get what the program puts out", "statement": "Each message of the input goes to the program as a sample, in order, and each client gets, in order and once, what the program puts out while it is connected; no client keeps another from getting it, and the task that serves them does not stop.", "quantifier": "every interleaving of the tasks of the server, every sequence of messages, connections and failures of clients", "why_tests_cant": "interleavings and messages are unbounded; the server has no tests", "anchors": ["apps/rtbot-server/src/main.rs", "apps/rtbot-server/src/pull_redis_service.rs", "apps/rtbot-server/src/push_redis_service.rs", "apps/rtbot-server/src/ws_client.rs"]}
{"id": "C87", "title": "The websocket server reads its input by the mapping of its configuration", "statement": "A message of the input is read at the paths of the mapping; its timestamp and its value go to Redis; without a mapping for the timestamp the time of arrival is used; a message that cannot be read does not keep later ones from being read.", "quantifier": "every mapping, every message, every state of the server", "why_tests_cant": "messages and mappings are unbounded; the server has no tests", "anchors": ["apps/rtbot-server/src/main.rs", "apps/rtbot-server/src/config.rs"]}
{"id": "C88", "title": "A part of a program that is driven by one stream loses no match", "statement": "In a program without cycles in which each input port is reached by at most one connection, take operators that emit at the time of the newest message (pointwise and windowed operators, filters, Join, arithmetic of two streams, Output) and that are reached only from one output port, the clock, or from each other. If the messages given to the program have increasing times, each stream of this part is the function of the clock's stream that the connections spell out: every pair of messages with a common time is matched, none is lost, mismatched or left waiting when the call returns.", "quantifier": "every such program, every sequence of successful calls in every partition into batches, every order of the connections, any arithmetic", "why_tests_cant": "programs, message sequences and depth-first delivery orders are unbounded; tests look at single programs", "anchors": ["libs/core/include/rtbot/Operator.h", "libs/core/include/rtbot/Join.h", "libs/core/include/rtbot/Output.h", "libs/api/include/rtbot/Program.h"]}
{"id": "C89", "title": "The Bollinger bands and join example programs compute what they are meant to", "statement": "examples/data/program-test-6.json: for messages with increasing times, the three reports of the operator 37 are, message for message, the moving average of 14, the average minus and the average plus twice the standard deviation of the last 14 messages that its resampler lists; and the resampler lists one message for every time from the one after the first message up to the one before the last. examples/data/program-test-3.json: every sequence of calls with increasing times returns, and the two reports are the input times two and times three, message for message, in step.", "quantifier": "every sequence of messages with increasing times, every partition into calls; real arithmetic for the bands (any exact field for the average), any arithmetic for the join", "why_tests_cant": "the tests feed a single file of data and look at a few values", "anchors": ["examples/data/program-test-6.json", "examples/data/program-test-3.json", "libs/api/include/rtbot/Program.h", "libs/api/src/FactoryOp.cpp"]}
{"id": "C90", "title": "In a program without cycles every message is executed before the next, and a delayed stream finds its matches", "statement": "In a program without cycles in which no port is reached by two connections, between two messages for the same port of an operator it is executed, and it receives all that the connected ports emit. Hence a Join or binary operator one of whose streams has only times that occur in all its other streams emits every match, however late that stream is; an Output passes on everything. Without this condition on the times a complete match can be left waiting when all calls have returned.", "quantifier": "every such program, every sequence of calls with increasing times, every partition into batches", "why_tests_cant": "the tests join streams with the same times or look at single operators; the order of executions in a graph is not observed", "anchors": ["libs/core/include/rtbot/Operator.h", "libs/core/include/rtbot/Join.h", "libs/core/include/rtbot/Output.h", "libs/api/include/rtbot/Program.h"]}
{"id": "C91", "title": "The two peak detector example programs report exactly the peaks", "statement": "examples/data/program-test-2.json: every sequence of calls returns and both ports of the join report exactly the messages in the middle of three successive ones none of which has a larger value. examples/data/program-test-1.json: every sequence of calls returns and out1 reports exactly the input messages at whose times the moving average of 6 minus the moving average of 250 has a peak among 13 successive values.", "quantifier": "every sequence of messages with increasing times, every partition into calls; any arithmetic for program-test-2, any exact field for program-test-1", "why_tests_cant": "the tests feed a single file of data and count or look at a few values", "anchors": ["examples/data/program-test-1.json", "examples/data/program-test-2.json", "libs/std/include/rtbot/std/PeakDetector.h", "libs/core/include/rtbot/Join.h", "libs/api/src/FactoryOp.cpp"]}
{"id": "C92", "title": "Times that a page passes to the WebAssembly build arrive unchanged", "statement": "Every sequence of calls through the browser bindings has the outcomes of the same calls of the C++ interface. This holds for times below 2^32. Violated for larger times, such as times in milliseconds: they are reduced modulo 2^32, the reports show other times, and messages after the turn of a period are dropped by the Input; once a time that is 2^32 - 1 modulo 2^32 has arrived, the port never passes on anything again.", "quantifier": "every registry, every sequence of calls, all times; any number type for the values", "why_tests_cant": "the tests in the browser use small times; the truncation needs times above 2^32 and the loss of messages needs times on both sides of a multiple of 2^32", "anchors": ["libs/api/wasm/emscripten-bindings.cpp", "libs/api/include/rtbot/bindings.h", "libs/api/src/bindings.cpp", "libs/core/include/rtbot/Input.h"]}
{"id": "C93", "title": "A program can divide a stream by counting its messages", "statement": "The program made from examples/data/program-test-4.json, in which a Count, three filters and six Constants steer a Demultiplexer, answers every sequence of calls on its port; the Demultiplexer reports the first 19 of the messages that are later than all before on its first port and all others on its second port, each once, in order, with time and value unchanged, in whatever batches they are given.", "quantifier": "every sequence of calls and every batching, all times and values, in or out of order, up to the number up to which the comparisons tell the counts apart: 2^64 - 1 messages over ordered fields, 2^53 over doubles", "why_tests_cant": "test_demultiplexer_pipeline.cpp gives 100 messages one per call with consecutive times; the control messages arrive on connections that share ports, so that their order matters", "anchors": ["examples/data/program-test-4.json", "libs/api/test/test_demultiplexer_pipeline.cpp", "libs/std/include/rtbot/std/Count.h", "libs/core/include/rtbot/Demultiplexer.h", "libs/core/include/rtbot/Operator.h"]}
{"id": "C94", "title": "The relative strength index program reports the relative strength index", "statement": "The program made from examples/data/program-test-5.json, 41 operators with two loops, answers every sequence of calls; for messages one unit of time apart its output reports, from the 15th message on, 100 - 100 / (1 + G / L), where G and L are the smoothed averages of the gains and losses, each index once, in order and between 0 and 100.", "quantifier": "every sequence of calls and every batching, all values, all coefficients, up to 2^64 - 1 messages over ordered fields and 2^53 over doubles", "why_tests_cant": "test_rsi_generated.cpp gives 37 messages, one per call, at the times 1, 2, 3, ...; it never leaves a gap in the times, never gives a series without losses, and only checks the reports that come, so silence passes", "anchors": ["examples/data/program-test-5.json", "libs/api/test/test_rsi_generated.cpp", "libs/std/include/rtbot/std/Variable.h", "libs/std/include/rtbot/std/Linear.h", "libs/std/include/rtbot/std/Division.h", "libs/std/include/rtbot/std/TimeShift.h", "libs/std/include/rtbot/std/Difference.h", "libs/std/include/rtbot/std/Count.h", "libs/core/include/rtbot/Demultiplexer.h", "libs/core/include/rtbot/Operator.h"]}
{"id": "C95", "title": "The relative strength index program agrees with the RelativeStrengthIndex operator", "statement": "Given the same messages one unit of time apart, the program of examples/data/program-test-5.json reports what the operator RelativeStrengthIndex of 14 emits, at the same times, except where the operator emits 100 because there was no loss; with the rounded coefficients of the file the values differ by less than 0.00001 for up to 62 515 messages.", "quantifier": "all real values, all batchings, every number of messages; any coefficients for the general bound", "why_tests_cant": "test_pipeline_op.cpp compares the two on one series, to within a tolerance and only where both report; the error of the rounded coefficients grows with the number of messages", "anchors": ["examples/data/program-test-5.json", "libs/finance/include/rtbot/finance/RelativeStrengthIndex.h", "libs/api/test/test_pipeline_op.cpp", "libs/api/test/test_rsi_generated.cpp"]}
{"id": "C96", "title": "What a program does depends only on the operators downstream of its entry", "statement": "Two programs of which the second contains, at any addresses, the operators downstream of the entry of the first answer every sequence of calls alike; in particular listing the operators of a description in another order, or adding operators that no connection from the old ones leads to, changes no answer.", "quantifier": "all programs including Pipelines and Composites, all addresses, all further operators, all messages and all sequences of calls, whether they return or fail; for descriptions: all without Pipelines and with distinct ids", "why_tests_cant": "tests run each program in one layout of memory and from one description; a dependence on the order of allocation or on an operator that is not connected would show only in some of the infinitely many layouts", "anchors": ["libs/api/include/rtbot/Program.h:101-118", "libs/core/include/rtbot/Operator.h:466-516", "libs/api/src/Program.cpp:42-77"]}
{"id": "C97", "title": "A program is its entry followed by the program behind it", "statement": "A program answers a sequence of calls exactly as the program that has an Identity of the same id in the place of its entry operator answers the calls with what the entry operator emits. An entry Identity with a single connection can itself be left out: the answers then lack only what is listed for it.", "quantifier": "all programs whose entry is a single operator emitting on one port, with anything (Pipelines and Composites included) behind it; all batches of messages that the entry answers; returning and failing calls", "why_tests_cant": "tests compare a program with expected numbers for a few inputs; that it factors through the output of its entry is a statement about pairs of programs and all sequences of calls", "anchors": ["libs/api/include/rtbot/Program.h:101-118", "libs/core/include/rtbot/Operator.h:417-430", "libs/core/include/rtbot/Operator.h:466-516"]}
{"id": "C98", "title": "Operators with the same meaning can take the place of each other", "statement": "Replacing operators of a program by operators with the same id and ports that give the same answers changes none of the answers of the program. In exact arithmetic these are such pairs: MovingAverage over n messages and FiniteImpulseResponse with n coefficients 1/n; Scale and FiniteImpulseResponse with one coefficient; Identity, Scale by 1, Add 0 and MovingAverage over 1; Difference and FiniteImpulseResponse with coefficients 1, -1; Plus and Linear with 1, 1; Minus and Linear with 1, -1. In any arithmetic: TimeShifts with the same product of dt and times modulo 2^64.", "quantifier": "all programs (Pipelines and Composites included) for the replacement, all flat descriptions for created programs, all sequences of calls and all outcomes; the pairs with values are for exact arithmetic, with doubles they differ by rounding", "why_tests_cant": "The tests check each operator against its own expected values; equal behaviour in every program, for all histories including failures, is about unboundedly many runs of pairs of programs.", "anchors": ["libs/std/include/rtbot/std/MovingAverage.h", "libs/std/include/rtbot/std/FiniteImpulseResponse.h", "libs/core/include/rtbot/Operator.h"]}
{"id": "C99", "title": "The unit in which values are measured does not matter", "statement": "Multiply all values sent to a program by a positive factor, and with them the parameters that are values of the stream (thresholds of filters, the number of an Add, a Constant, the default of a Variable). Then every report is the earlier one with all values multiplied by the factor and the same times, and calls fail exactly where they failed before. The operators may be any whose results are in the unit of their input: Input, Output, Collector, Join, Plus, Minus, the comparisons of streams, Linear, the filters, Add, Scale, Constant, Identity, CumulativeSum, Difference, MovingAverage, StandardDeviation, PeakDetector, FiniteImpulseResponse, AutoRegressive, TimeShift, Variable, the three resamplers, Composite and Pipeline.", "quantifier": "all programs of these operators, all factors above zero, all sequences of calls, all outcomes; exact arithmetic", "why_tests_cant": "It relates two runs of every program for every factor; tests compare single runs with stored values.", "anchors": ["libs/core/include/rtbot/Operator.h", "libs/core/include/rtbot/Join.h", "libs/std/include/rtbot/std/Difference.h", "libs/std/include/rtbot/std/HermiteResampler.h"]}
{"id": "C100", "title": "Only the order of the times matters", "statement": "Give a program the same values at other times that are in the same order, for instance in milliseconds instead of seconds, or counted from another origin. Then it reports the same values at the times that correspond, the same number of messages on the same ports, and calls fail exactly where they failed before. This holds for every operator that compares times and hands them on but does not calculate with them, which is all except TimeShift, the three resamplers and a Difference that does not use the oldest time; a Difference needs that its conversion of times to doubles and back is exact.", "quantifier": "all programs of these operators in corresponding states, all correspondences of times that keep the order and zero, all sequences of calls, all outcomes; every arithmetic of values, doubles included", "why_tests_cant": "It relates two runs of every program for every pair of time axes in the same order; tests run single programs on single axes.", "anchors": ["libs/core/include/rtbot/Operator.h", "libs/core/include/rtbot/Join.h", "libs/core/include/rtbot/Demultiplexer.h", "libs/std/include/rtbot/std/Variable.h", "libs/std/include/rtbot/std/TimeShift.h"]}
{"id": "C101", "title": "The diagram shows the program", "statement": "The flow chart that the Python wrapper draws of a program (`toMermaidJs`) has one arrow for each connection, in their order, from the operator it leaves to the operator it enters, with both ports on it, and each operator on it is labelled with its type and the values of all its other members. Drawing a program that was put together with `addOperator` and `addConnection` never fails, and the connections can be read off the diagram.", "quantifier": "all programs that the wrapper can build, all sequences of edits including failing ones, all ways to write values and to order the members of a dictionary", "why_tests_cant": "It speaks about every program and every text of ids, ports and parameters; no test covers the function.", "anchors": ["libs/wrappers/python/rtbot.py: Program.toMermaidJs"]}
{"id": "C102", "title": "When a program reports does not depend on the values", "statement": "Give a program other values at the same times, or at other times in the same order. Then it reports on the same ports of the same operators, in the same calls, equally many messages at the same or corresponding times, and fails at the same calls with the same failure; only the reported values differ. This holds for every operator except those that look at a value to decide whether to report, which are the comparisons, PeakDetector, Demultiplexer, Division and a Difference that does not use the oldest time.", "quantifier": "all programs of these operators in states that differ in values only, all values, all correspondences of times that keep the order and zero (equality for TimeShift and the resamplers), all sequences of calls, all outcomes; every arithmetic of values, doubles with NaN included", "why_tests_cant": "It relates two runs of every program for all pairs of streams of values; tests run single programs on single streams.", "anchors": ["libs/core/include/rtbot/Operator.h", "libs/core/include/rtbot/Join.h", "libs/std/include/rtbot/std/RelativeStrengthIndex.h", "libs/std/include/rtbot/std/HermiteResampler.h", "libs/std/include/rtbot/std/Variable.h"]}
{"id": "C103", "title": "Programs of averages and sums are monotone", "statement": "Give a program larger values at the same times. Then it reports, on the same ports and at the same times, values that are at least as large as before, and calls fail exactly where they failed before. This holds for programs of the operators that pass on, average or add up what they get: Input, Output, Join, Identity, Constant, Variable, Count, Add, CumulativeSum, MovingAverage, Plus, And, Or, TimeShift, ConstantResampler, Composite, Pipeline, and Scale, Linear, FiniteImpulseResponse and AutoRegressive with coefficients that are not negative.", "quantifier": "all created programs of these operators, all pairs of streams one of which lies above the other, at the same times or (without TimeShift and ConstantResampler) at times in the same order, all sequences of calls, all outcomes; exact arithmetic over every ordered field", "why_tests_cant": "It relates two runs of every program for all pairs of streams; tests run single programs on single streams.", "anchors": ["libs/core/include/rtbot/Operator.h", "libs/std/include/rtbot/std/MovingAverage.h", "libs/std/include/rtbot/std/CumulativeSum.h", "libs/std/include/rtbot/std/AutoRegressive.h", "libs/std/include/rtbot/std/And.h"]}
{"id": "C104", "title": "Programs of averages do not enlarge errors", "statement": "Give a program values that differ from the right ones by at most e. Then it reports, on the same ports and at the same times, values that differ from the right ones by at most e, however long it runs, and calls fail exactly where they would have failed. This holds for programs of Input, Output, Join, Identity, Constant, Variable, Count, Add, MovingAverage, TimeShift, ConstantResampler, Composite, Pipeline, Scale with a factor between -1 and 1, and Linear and FiniteImpulseResponse whose coefficients have absolute values with a sum of at most 1.", "quantifier": "all created programs of these operators, all e that are not negative, all pairs of streams at most e apart, at the same times or (without TimeShift and ConstantResampler) at times in the same order, all sequences of calls, all outcomes; exact arithmetic over every ordered field", "why_tests_cant": "It relates two runs of any length of every program for all pairs of streams; tests run single programs on single streams.", "anchors": ["libs/core/include/rtbot/Operator.h", "libs/std/include/rtbot/std/MovingAverage.h", "libs/std/include/rtbot/std/FiniteImpulseResponse.h", "libs/std/include/rtbot/std/Linear.h", "libs/std/include/rtbot/std/ConstantResampler.h"]}
