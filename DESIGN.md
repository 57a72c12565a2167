# Machine-checked model of rtbot (libs/core, libs/std, libs/finance, libs/api)

## 1. Trusted base

* The Lean 4.33.0 kernel. Every property theorem depends at most on `propext`, `Classical.choice` and `Quot.sound`; section 6 lists
  the axioms of each. There are no axioms of our own, no `sorry`, no `native_decide`, no `bv_decide`. Concrete runs are evaluated by
  the kernel (`decide +kernel`).
* The reading of `/repo` that produced the definitions in `lean/Verif/Model`. Each definition cites file and lines. The code was not
  compiled or run. Besides the reading, `Checks/*` evaluates the repository's own unit tests in the model, with doubles bit by bit:
  the model gives the results the authors' tests expect, to the last bit where they compare exactly. (Of the two longest runs, the RSI programs, the
  kernel replays the first 17 messages; all messages were evaluated with `#eval` while the model was written.)
* Assumptions about the platform: `size_t` and `uint64_t` are 64 bit little endian, `double` has 8 bytes, `bool` 1, `int` 32 bits;
  `std::map`/`std::set` iterate in the lexicographic byte order of their `std::string` keys; allocation never fails; a
  `deque`/`vector` never reaches 2^64 elements; the call stack is unbounded.

## 2. What is modelled

| Layer | Module | Remarks |
| --- | --- | --- |
| `std::string`, `std::map`, `std::set`, outcomes | `Model/Base` | strings are byte lists; maps are association lists sorted by key. A call returns, throws (one of a few exception kinds), has undefined behaviour or diverges; the state at that point is kept |
| `double` | `Model/Num` | a class of operations **without laws** (`Num V`). Theorems with only `[Num V]` hold for every interpretation, IEEE doubles included. Numeric identities are proved for interpretations by ordered fields (`Exact V`) or by ℝ |
| `double`, bit by bit | `Model/Double` | `F64`: IEEE 754 binary64, round to nearest even, as a further interpretation of `Num`. That it is IEEE 754 is itself proved: the representation (`double_format`), correct rounding of + - * / and `sqrt`, overflow to infinity exactly from the limit of the standard on, comparisons, truncation to `uint64_t` (`double_model`, against definitions over ℚ and ℝ), infinities and NaNs (`double_special`). Assumed: no fused operations, no excess precision; `pow`, `cos` and the bits of a new NaN are parameters (`Platform`). Used by Props/Double |
| `uint64_t` time | `UInt64` | wrap-around is exact. The conversions between time and `double` are operations of `Num`; a conversion out of range is undefined behaviour |
| `Operator<T,V>`: ports, buffers, `receiveData`, `receiveControl`, `connect` | `Model/Operator` | pointers are addresses in a heap |
| `processData`, `executeData`, `executeControl` of all operators, Collector, Composite; constructors | `Model/Process` | one definition per method |
| `emit`, the recursion through connections, Composite, Pipeline | `Model/Engine` | the recursion is bounded by a fuel argument with the outcome `diverge`; C28 shows when it does not matter. A ghost log that no definition reads records emissions, deliveries and executions |
| `Program::receive`, `receiveDebug` | `Model/Program` | |
| `collect`, `restore`, `serialize` | `Model/Codec` | bytes; reading behind the end is undefined behaviour |
| JSON values and their accessors | `Model/Json` | conversions between number kinds as nlohmann/json does them |
| `from_json`, `readOp`, constructor of `Pipeline`, `Program::init`, programs from bytes | `Model/Create` | the text parser is a parameter |
| `to_json`, `writeOp`, `getProgram` | `Model/Write` | the value that parsing the written text gives |
| the JSON schema, `validate`, `validateOperator` | `Model/Schema` | the schema the generator assembles from the template and the front matter of the operators' markdown files, and the keywords of it that json-schema-validator 2.2.0 evaluates. Trusted about that library (its source is not in /repo): draft 7 semantics of these keywords; numbers with fraction or exponent are not integers; integers are compared with a minimum as `int64_t`; the format "date" is a calendar date |
| `FactoryOp`, `bindings.cpp` | `Model/Factory` | every program has a heap of its own, since the objects of different programs are disjoint |
| the Python wrapper: `rtbot.py`, the generated operator classes, the bindings | `Model/Python`, `Model/Mermaid` | arguments by keyword; `json.dumps` followed by parsing keeps values, except that the function `wire` of the environment says which reported numbers can be read back; exceptions without texts; in `toMermaidJs` ids that are no texts equal nothing, and how a value that is no text is written and the order of the keys of a dictionary are parameters |
| the member functions of `Composite` that build it | `Model/Composite` | `int i` counting up to a `size_t` is undefined from 2^31 on |
| the JavaScript wrapper: `program.ts`, `api.ts` | `Model/Javascript` | no interleaving of `async` methods; operators are objects with an id, a type and a written value; the check `Program.validate`, the conversion of numbers to times (`unsigned long`, 32 bits in wasm) and the values read from reports are parameters; exceptions without texts |
| the bindings for the browser: `emscripten-bindings.cpp` | `Model/Wasm` | times are natural numbers, converted to 32 bits as ToUint32 of ECMAScript does (emscripten is not in /repo); returned texts are the values they are made from |
| the websocket server: `main.rs`, `push_redis_service.rs`, `pull_redis_service.rs`, `ws_client.rs`, `ws_handlers.rs`, `config.rs` of apps/rtbot-server | `Model/Server` | one move for each step of a task; a panic ends its task; published messages arrive at once; unbounded channels; JSONPath and the texts of numbers are parameters |
| the debugger of the command line: `tui/store.ts`, `commands/debug.ts` | `Model/Debugger` | without the screen and the splitting of files into rows; the text of a message is a parameter; what objects inherit is a list of names |
| the registry of the Rust wrapper: `pipelines_registry.rs` | `Model/Rust` | one thread; the bridge to C++ is a parameter (it calls functions that libs/api no longer has); the maps are sorted by keys |
| the Redis module: `rtbot_run.rs`, `rtbot_xrun.rs`, `program_validator.rs` | `Model/Redis` | with the part of Redis that it uses (documents, series, channels) as its documentation describes it; `wire` says which values Redis takes; the handler is called after each `ts.add`, also those of `rtbot.run`, but not for those of the handler |

Not modelled: the text parser and dumper of nlohmann/json (parameter `parse`; the theorems on the registry hold for any check `valid`, C63 uses the actual one;
`readOp(x.dump())` works on the value `x` itself), texts of exceptions, `debug()` strings, writing a Pipeline, the classes generated for JavaScript and their checks,
the bridge of the Rust wrapper to C++, the effect of rounding on theorems stated for exact arithmetic (except C57 to C59 and the theorems `*_double`), memory exhaustion, alignment, concurrency (the library
has none). Loop counters of type `int` that index buffers are natural numbers (fewer than 2^31 buffered messages); the counter of emitted messages of the
interpolating resamplers is modelled with its overflow. Ids are assumed to be valid UTF-8 when written. `FactoryOp.cpp` does not include `Function.h` and
`ConstantResampler.h` itself; it is assumed to compile through other includes.

## 3. Method

* `Spec/*`: small definitions that do not use the model's helpers (windows, records, common times, grids, wirings, histories, ...).
* `Props/*`: the property theorems and beside each an `example` showing that its hypotheses are met by a concrete non-trivial case.
  Helper lemmas are in `Lemmas/*`.
* Histories. For single operators: `Act` is a call of `receiveData`, `receiveControl`, `executeData` or `executeControl`; theorems quantify over all
  lists of such calls from a newly built operator (`Built` lists the constructors), failing calls included. For programs: all lists of calls of `receive`
  and `receiveDebug`; for the registry: all lists of calls of the API.
* Where the code violates a property, the negation is proved with a concrete witness (`_violated`), and the part that holds under a name ending in `_partial`.
* `Checks/*`: `example`s that replay the unit tests of /repo; no theorem depends on them.
* Mutation testing: `seeded/LOG.jsonl`, section 5.

## 4. Properties

"any arithmetic" means only `[Num V]`.

| Id | Title | Props/ | What is proved | Violated by |
| --- | --- | --- | --- | --- |
| C01 | Input gate forwards exactly the strictly increasing records of each port | Gate | Input with n ports, any calls. Each port is a gate of its own: exactly the records (strictly newer than all forwarded before) pass. | – |
| C02 | Bounded input buffers are sliding windows | Buffers | Every bounded port buffer holds the last n messages addressed to it, for every operator using the base class methods, any calls. | – |
| C03 | MovingAverage emits the exact mean of the last n values | Windows | Mean of the last n values in exact arithmetic; silent before. n = 0 means an unbounded buffer that never fills: no output. | – |
| C04 | StandardDeviation emits the sample standard deviation of the last n values | Windows | Sample standard deviation over ℝ, n ≥ 2. For n = 1 the code divides by 0. | – |
| C05 | FiniteImpulseResponse is the causal convolution | Windows | Convolution, any arithmetic in the order of the code and exact. | – |
| C06 | PeakDetector emits exactly the window-centre local maxima | Windows | Centre of the full window, when no message of it is strictly larger. | – |
| C07 | Difference emits consecutive differences | Windows | `useOldestTime = true`. The time passes through a `double`; hypothesis: it survives (always so in exact arithmetic; proved for IEEE doubles up to 2^53). | IEEE doubles beyond 2^53, such as nanoseconds since 1970: the time is changed (Props/Double). |
| C08 | CumulativeSum and Count are running totals | Pointwise | Running sum in any arithmetic (order of additions) and exact; Count below 2^64 messages. | – |
| C09 | Pointwise operators are one-in one-out and keep timestamps | Pointwise | Any arithmetic. | – |
| C10 | Value filters forward exactly the matching subsequence | Pointwise | Any arithmetic; the trichotomy in exact arithmetic. | – |
| C100 | Only the order of the times matters | Relabel | `C100_partial` (two programs in corresponding states), `C100_created_partial` (two runs of a created program), `C100_unit` and `C100_origin` (a finer unit and an earlier origin are such correspondences). No law of arithmetic is used, so the statement holds for doubles. A second instance of `Mapped.Law`. Missing: TimeShift, the resamplers, Difference with useOldestTime false. | TimeShift adds a constant, or reports zero (`C100_violated`); Difference with useOldestTime false reports a value as a time (`C100_difference_violated`). |
| C101 | The diagram shows the program | Mermaid | `C101_text_partial` (the text is the diagram of the arrows), `C101_drawn` (never fails for programs made by the two methods), `C101_readable` (the arrows can be read off, if ids have no bracket, output ports no colon and input ports no bar). | Operators without connections are not drawn (`C101_violated_alone`); a valid connection that leaves out its ports makes the function fail (`C101_violated_ports`); names with a colon make diagrams ambiguous (`C101_violated_names`). |
| C102 | When a program reports does not depend on the values | Timing | `C102_partial` (two programs that differ in values only), `C102_created_partial` (two runs of a created program), `C102_equal` (equal times are such a correspondence). No law of arithmetic is used, so the statement holds for doubles. A third instance of `Mapped.Law`. | A comparison, a division by zero and a peak (`C102_violated`); likewise Demultiplexer, the comparisons of streams and Difference with useOldestTime false. |
| C103 | Programs of averages and sums are monotone | Nearby | `C103_created`, over ordered fields. `Nearby.created_rel` is the general statement, for any relation of values that the operators keep; it is a fourth instance of `Mapped.Law`. That the stored sum of a MovingAverage is the sum of its buffer is part of the invariant. Examples show that Minus, Multiplication, Division and negative factors are not monotone. Other operators that are not listed are not covered, without an example. Exact arithmetic only; nothing is claimed for doubles. | – |
| C104 | Programs of averages do not enlarge errors | Nearby | `C104_created`, over ordered fields, from the same general statement. Examples beside the theorem show that CumulativeSum, AutoRegressive, Plus and And enlarge differences, which is why they are not among the operators. Other operators that are not listed are not covered, without an example. Exact arithmetic only. | – |
| C11 | TimeShift adds dt*times to every timestamp | Pointwise | For non-zero products and shifted times in range. | dt*times ≡ 0: the time becomes 0; negative shift beyond the time: wraps around. |
| C12 | AutoRegressive follows its recurrence | Recursive | The recurrence with the coefficients **reversed**; palindromes. | coefficients (2, 0), inputs 1, 1. |
| C13 | ConstantResampler emits every grid point exactly once with the last known value | Resample | Exactly one message per grid point, carrying the latest value; strictly increasing times without overflow. The uninitialised members do not matter. | – |
| C14 | CosineResampler emits every grid point exactly once, within the bracketing values | Resample | Exactly one message per grid point, cosine interpolation (any arithmetic); bounds over ℝ. | – |
| C15 | HermiteResampler emits every grid point exactly once | Resample | As C14, up to the last but one message, when the first gap is at least dt and the first four times are below 2^30. | off-grid emission when the first gap is below dt; a `double` out of the range of `uint64_t` is converted (undefined behaviour) for millisecond timestamps. |
| C16 | Function interpolates its points | Function | Exact arithmetic; linear and hermite mode; the cubic is characterised by its end values and derivatives. | – |
| C17 | RelativeStrengthIndex follows Wilder's recurrence and stays in [0,100] | Recursive | Exact arithmetic, n ≥ 1. n = 0 is degenerate. | – |
| C18 | Variable answers each query with the value in force at the query time | Variable | All interleavings of increasing data and increasing queries. | a waiting query is lost when another one arrives. |
| C19 | Join emits only synchronized tuples of received messages | Join | Any calls, any timestamps. | – |
| C20 | Join never loses a match | Join | Increasing timestamps per port, any interleaving: emitted ++ still buffered = all common times. | – |
| C21 | Join emits a match as soon as it is complete | Join | After enough executions nothing complete is left. | one execution emits at most one match. |
| C22 | Synchronised output does not depend on the arrival interleaving | Join | For two interleavings one output is a prefix of the other. | two arrival orders, different outputs. |
| C23 | Binary stream operators combine synchronised values | Synced | All eight binary operators, any arithmetic. | – |
| C24 | Linear applies coefficient k to port ik | Synced | Coefficients in the lexicographic order of ports; at most nine ports: coefficient k for port ik. | ten ports: i10 comes before i2. |
| C25 | Demultiplexer routes each message according to its control instructions | Demux | Routing for all interleavings of complete streams, completeness, no misrouting and rejection for all streams. | – |
| C26 | Batch boundaries are invisible | Program | `receive` and `receiveDebug`, any program, failing calls included. | – |
| C27 | receive is receiveDebug restricted to the output filter | Program | Filters that name no port twice; what happens in general; `C27_run_partial` (Props/ReceiveRun) for sequences of calls. | a port listed twice is reported twice. |
| C28 | Acyclic programs always terminate | Terminate | Finitely many operators, no cycle. `C28_steps`: of the operators themselves only ConstantResampler and an AutoRegressive without coefficients can loop. | – |
| C29 | The debug report is the complete chronological log of emissions | Program | Any successful call. | – |
| C30 | Every emitted message is delivered once to every connection, in order | Program | Any successful call: deliveries over a connection = emissions, directly after each emission. | – |
| C31 | Operators not downstream of the entry are never touched | Program | Any call, whatever its outcome. | – |
| C32 | Programs compose: a tree of operators computes the composition of their stream functions | Compose | Paths of sole connections in any acyclic program; calls, states and reports. | – |
| C33 | Behaviour does not depend on the order in which operators were connected | Rewire | What is emitted at the end of paths of sole connections does not depend on the order of connecting (`C33_tree_partial`); nor do the streams of graphs as in C90, joins and binary operators included (`C33_graph_partial`). | an operator fed directly and through a third. |
| C34 | Successfully created programs never hit missing ports at run time | Ports, PortsPipes | Any history, any operators connected by `connect`, and created programs, also with Pipelines whose connections name ports without a second ':'. | inner operators of a Pipeline whose id contains ':'. |
| C35 | Operator state encoding is self-delimiting and lossless | Codec | All operators, also with further bytes following. | – |
| C36 | A restored program continues exactly like the original | Snapshot | Programs without RelativeStrengthIndex and Pipeline: all further calls have the same outcomes. | – |
| C37 | Snapshots capture the whole state of every operator | Snapshot | What is captured is C36. | averages of RelativeStrengthIndex, inner operators of Pipelines. |
| C38 | Serialization is stable | Snapshot | As C36. | – |
| C39 | A damaged snapshot is rejected without undefined behaviour | Snapshot, Damaged | Unreadable descriptions and unknown operators are reported. All bytes: creation ends, the ways it can fail, and what stays of the operators when it succeeds. | almost all truncations read behind the end; the others are accepted; a flag can be any byte; foreign ports and an interval of zero are accepted. |
| C40 | Programs are isolated from each other | Factory | Any sequence of API calls. | – |
| C41 | Creating a program under an existing id does not disturb it and is reported | Factory | The registry is untouched in all cases; creation from bytes reports; what a rejected creation tells (`C41_rejected`). | creation from a description answers as on success. |
| C42 | Deleting a program removes every trace of it | Factory | When nothing is buffered. | `deleteProgram` leaves the message buffer, which is given to the next program with the id. |
| C43 | Buffered messages are processed exactly once | Factory | Any sequence of API calls. After an exception the messages are kept and given to the program again (`C43_again_after_failure`). | – |
| C44 | processBatch is equivalent to feeding the messages one by one | Factory | Equivalent to the messages one by one sorted by port; equal to the batch when the ports are in order. | batches with several ports are fed in the order of port names. |
| C45 | Calls on unknown programs fail cleanly | Factory | All API calls. | – |
| C46 | Program creation validates the entry operator | Create, Loose, Damaged | Creation ends. Either a usable entry, or a program without operators that answers every call with an error. | an entry with control inputs is accepted (the exception is constructed but not thrown). |
| C47 | Operator ids are unique within a program | Create | The first of several descriptions with an id wins. | duplicates are accepted. |
| C48 | Operator descriptions survive a write/read round trip | Create, Pipeline, Loose, Written | All operators but those of the violations and Pipelines; `getProgram` writes every operator of the program exactly once, in the order of ids, and writes the same after any calls (`C48_stays`). | RelativeStrengthIndex (n + 1), Difference (`useOldestTime` lost), Function (unreadable), TimeShift (dt ≥ 2^31). |
| C49 | Operator parameters in a program description are taken over exactly | Create, Loose | Parameters in range; both directions; all JSON values that are accepted, and what is made of them, also out of range. | Variable's value and TimeShift's dt are read as `int`; negative sizes become huge; no Function can be created from a description. |
| C50 | A Pipeline exposes exactly its unconnected inner ports | Pipeline | Pipelines nested to any depth. | – |
| C51 | Wrapping operators in a Pipeline does not change what they compute | Wrap | Successful calls; inner names without further ':' and no way back to the pipeline. Messages for different outputs are emitted output by output. | an inner id with ':'. When an inner operator throws, `toProcess` is not cleared. |
| C52 | Operators preserve strictly increasing time | Order | All operators, any calls: if the messages for each port are strictly increasing, so are those on each output. Conditions (`OrderCond`) only for Difference, TimeShift, resamplers, AutoRegressive. | one witness for each of these conditions. |
| C53 | Causality: outputs never carry a timestamp newer than the newest input | Times | All operators but TimeShift; interpolating resamplers when fed in order, Difference when the conversion of times does not round up. | Difference with `useOldestTime = false` takes the *value* as time; CosineResampler fed backwards; Difference with IEEE doubles and times beyond 2^53 (Props/Double). |
| C54 | HermiteResampler interpolates with the four neighbouring messages | Resample | Exact arithmetic, restrictions of C15, average gap at most the first time. | the artificial message before the first one wraps around. |
| C55 | Function reproduces straight lines | Function | Linear mode; hermite mode with points 1 apart. | hermite tangents are not scaled by the length of the segment. |
| C56 | The connections of a created program are exactly those of its description | Pipeline | Every accepted description, nested pipelines included. | – |
| C57 | Windowed statistics depend on the window only | Double | FiniteImpulseResponse and PeakDetector in any arithmetic; MovingAverage in exact arithmetic (with doubles for integers: C58). | MovingAverage and StandardDeviation with doubles: after 2^53 has passed through the window of size 2 the mean of 1 and 1 is 0.5 for ever (running sum). |
| C58 | Integer data are processed exactly with doubles | Double | Count, CumulativeSum, MovingAverage with IEEE doubles; correctly rounded mean whatever the history. | – |
| C59 | The relative strength index computed with doubles is a number between 0 and 100 | Double | IEEE doubles: NaN or in [0, 100] for any values; a number in [0, 100] for values up to 2^1000 and n up to 2^20. | finite values near the largest double overflow to NaN. |
| C60 | Validation accepts exactly the documented descriptions | Schema | The model of the schema against an independent description of what the documentation asks for, for all JSON values; both checks agree. | – |
| C61 | Every operator description that passes validation can be created as described | Schema | All 35 documented types, when integers are natural numbers in range (`Sane`). | a Join without the optional "numPorts" and a Linear without "coeff" are accepted and undefined behaviour; no accepted Function can be created; a window of -1; numPorts of 2^31 (overflow) and 2^32 (no ports); StandardDeviation with n = 2.5. |
| C62 | Every operator the factory can create has a description that passes validation | Schema | All descriptions the factory takes over exactly, but for the listed cases (`Documented`). | RelativeStrengthIndex and Pipeline have no schema; LessThan with a fraction; TimeShift by 0; an interval of 2^63 counts as negative. |
| C63 | Creating a validated program is well defined | Schema | The API's createProgram with the actual check. Under `Sane` creation succeeds or throws runtime_error or out_of_range; sufficient condition for success. | a Join without "numPorts" makes createProgram undefined; entry and connections are not checked. |
| C64 | The output filter of a validated program is taken over exactly | Schema | Filters whose keys the schema checks. | the pattern `[A-Z0-9a-t_-]` leaves keys such as "out" unchecked, and one malformed entry drops the whole filter without notice. |
| C65 | No call reaches undefined behaviour | Defined | Any history of calls, failed ones included: programs from constructors with any connections, programs from descriptions with pipelines at any depth, and sessions of the API. `Mild` excludes the violating operators. | CosineResampler with dt = 0 (accepted by the schema) overflows its loop counter; an AutoRegressive in a pipeline executed again after an exception pops an empty deque; Difference with `useOldestTime = false` and a negative value; Difference over doubles at time 2^64 - 1. |
| C66 | Every call returns | Returns | From a bound on the fuel every call of a created acyclic program, with pipelines, after any history of calls, is `.ok`. `Sturdy`, `Mild` and `PlainPipes` exclude the violating operators. | Demultiplexer throws for a control value other than 0 and 1 and for a control message later than the waiting data message; Variable throws for a query earlier than the first kept message; RelativeStrengthIndex with n = 0 throws at its second message. |
| C67 | Getters keep telling the truth | Getters | Any session without the deletion of the program: entry operator, its ports, filter, acceptance of messages. | – |
| C68 | Reports mention only declared ports | Reports | Created programs with pipelines of any depth, any history of calls; `receive` and `receiveDebug`. | – |
| C69 | Python operator classes make documented operators | PyOperators | Constructors of all operator classes, any keyword arguments: success, contents, failure, creation by the factory (without integers that do not fit and Functions). | a Function can be made but not created; a negative window becomes a huge one |
| C70 | Python programs stay well built | PyProgram | Any sequence of `addOperator` and `addConnection` from a new Program. | a program without a date is never valid (its entry operator is not written either); an entry operator that was not added counts as valid but cannot be created |
| C71 | Reading and writing Python programs | PyParse | Any program value: round trip, contents, acceptance. | documented programs without a date or with an output filter cannot be read |
| C72 | A Python run returns the columns of the reports | PyRun | Any program, table and registry: columns, registry afterwards, invalid programs, failing calls. | after a failing run the program stays registered and the next run of it continues from its state without notice; a run with an infinite result fails |
| C73 | JavaScript programs stay well built | JsProgram | Any sequence of `addOperator`, `deleteOperator`, `addConnection` and `deleteConnection`. | `deleteConnection` keeps the connection that is named and deletes those that differ from it everywhere; a deleted operator can remain the entry operator; ids can repeat |
| C74 | A JavaScript run returns the columns of the reports | JsRun | Any program, table and registry: both formats, the methods of Program, invalid programs, failing calls. | after a failing run the program stays registered and the next run continues from its state |
| C75 | The Rust registry relates keys and pipelines | Rust | Any sequence of `create`, `delete` and `receive`, any behaviour of the library. | `delete_by_input_key` locks the mutex twice and never returns when there is a pipeline |
| C76 | A Composite is what the calls that build it ask for | Composite | Any sequence of calls from a new Composite, in any memory. | – |
| C77 | A Composite does what its operators do | Composite | Any operators with Composites that have an Input, any messages; any further connections. Runs that diverge excepted. | – |
| C78 | A Composite restored from its bytes continues | Composite | The bytes of a Composite are the same whatever messages it was given (`C78_blind`). | `collect` is not overridden, so nothing of the inner operators is saved: a restored CumulativeSum forgets its sum |
| C79 | rtbot.run computes the output series from the input series | Redis | Any library, program, series and database, when no pipelines begin at the input or at the output; the first value of each result is stored. Refused programs change nothing. | only the first message of each result is stored; a run whose input is missing leaves its pipeline, so that the same run is refused later; kept pipelines of the same input get the whole series again |
| C80 | Samples added later go to the pipelines that were kept | Redis | Samples newer than all others of the series, once a registry exists; any pipelines. | before the first `rtbot.run` any `ts.add` makes the handler panic; for an older sample the newest is sent again; only the first message of each result is stored |
| C81 | The Redis module takes the programs that the library takes | Redis | Exactly which programs the module accepts; those of the library with a title and an entry node, without ports. | the module wants "entryNode" and "title", the library "entryOperator"; the module refuses all connections with ports |
| C82 | Times increase along a whole program | ProgramOrder | Any program of simple operators without cycles, at most one connection into each port; any sequence of calls and any outcome of each. Operators with times of their own under the conditions of C52. | – |
| C83 | What a program reports comes from what it was given | Flow | Any program and any sequence of calls; the operators that are neither Composite nor Pipeline only have to pass the property on one by one. | – |
| C84 | The debugger shows what the run reported | Debugger | The position and the selection after any actions; the table at any position with ten more reports, when ids are plain, operators in a report are there with all their ports and values are numbers; a new program leaves nothing of the earlier one (`C84_again`). | any step to one of the last nine positions throws (so every step with fewer than eleven reports); an operator that emits on some of its ports makes it throw; ids with a colon show other operators' messages; ids such as "valueOf" make it throw; NaN is shown as 0 |
| C85 | The debug command runs each row of the data once | Debugger | Any data, for programs with one entry port. | programs with more entry ports fail at the first row |
| C86 | The clients of the websocket server get what the program puts out | Server | Any interleaving: what each client is sent is the part of what was published since it joined; once subscribed, what is published is what the program replies; the start gives such a state; which texts are read as numbers (`C86_number`). | what the program replies before the subscription takes effect reaches no client |
| C87 | The websocket server reads its input by the mapping of its configuration | Server | Messages with a number as timestamp and texts of numbers as values; the first value is sent. | a value that is a JSON number, a timestamp that is negative or has a fraction, or a missing member, ends the reading for good; without a mapping for the timestamp "$.timestamp" is used, only null means the time of arrival |
| C88 | A part of a program that is driven by one stream loses no match | Lockstep | Any such part of any program of simple operators: the calls on its operators are in step (`C88_lockstep`), its streams (`C88_flows`) and what is reported of them (`C88_reports`, `C88_listed`) are the function of the clock. Operators with times of their own outside the part under the conditions of C52. | – |
| C89 | The Bollinger bands and join example programs compute what they are meant to | Bands | `C89_bands` (real numbers), `C89_middle` (any exact field), `C89_resampled` (times below 2^30, by C15) for program-test-6; `C89_bands_receive` and `C89_join_receive` (Props/ReceiveRun) for `receive`; `C89_join` (Props/JoinTest, any arithmetic) for program-test-3. `C89_bands_returns` (Props/BandsReturn, by C97, since C66 does not cover HermiteResampler): every call with times below 2^30 is answered; `C89_bands_total` puts this together with the bands. | – |
| C90 | In a program without cycles every message is executed before the next, and a delayed stream finds its matches | Served | `C90_served` for the calls on every operator, `C90_join` for a Join that is called so, `C90_streams` for all streams of the program, `C90_listed` for the reports; `C90_left_waiting` runs the program in which a match is left waiting when neither stream has all the times of the other (the phenomenon of C21 in a whole program). Operators with times of their own under the conditions of C52; connections to data ports only. | – |
| C91 | The two peak detector example programs report exactly the peaks | PeakPrograms | `C91_peaks` (program-test-2, any arithmetic), `C91_ppg` (program-test-1, any exact field); both with the return of every call; `C91_peaks_receive` and `C91_ppg_receive` (Props/ReceiveRun) for `receive`, with nothing else reported by the filtered one. | – |
| C92 | Times that a page passes to the WebAssembly build arrive unchanged | Wasm | `C92_reduced` for every call, `C92_calls_partial` for sequences with times below 2^32, `C92_period` for the order within one period, `C92_silent` for what follows a time that is 2^32 - 1 modulo 2^32. | `C92_violated`: three messages with times in milliseconds; the times in the reports are other ones and the third message is lost. The conversion is ToUint32 of ECMAScript, an assumption since emscripten is not in /repo. |
| C93 | A program can divide a stream by counting its messages | Selector | `C93_selects` for any number type whose comparisons tell the numbers up to a bound apart, by following each message through the program step by step; `C93_exact` over ordered fields and `C93_double` over IEEE doubles; `C93_receive` for `receive`. | – |
| C94 | The relative strength index program reports the relative strength index | RsiProgram | `C94_reports`: what the output reports, for any number type and whatever the times, by following each message through all 41 operators; `C94_exact` over ordered fields, `C94_double` over IEEE doubles; `C94_textbook_partial` and `C94_range` over the reals; `C94_receive`: through the filter of the file comes the index and nothing else. That the program is made as assumed is checked by the kernel (`heaps`; the tactic `krfl` only builds the proof term `Eq.refl`). | `C94_gap_violated`: a message that does not come exactly one unit of time after the one before (the TimeShifts of 1 in the loops no longer meet the changes) ends the reports for ever. `C94_rising_violated`: while values never fall nothing is reported, though the index is 100 then (Division drops a division by 0). `C94_late_violated`: the index of the 15th message comes only with the 16th. |
| C95 | The relative strength index program agrees with the RelativeStrengthIndex operator | RsiAgree | `C95_agree_partial` (exact coefficients 13/14 and 1/14, real numbers, consecutive times), `C95_close_partial` (other coefficients: distance at most 100 (n - 15) (1 - a/(13/14))), `C95_file_partial` (the coefficients written in the file). Missing: rounding of doubles. | `C95_rising_violated`: for constant values the operator emits 100 and the program reports nothing. |
| C96 | What a program does depends only on the operators downstream of its entry | Copy | `C96_copy` (programs with any operators, Pipelines and Composites included; every outcome, failures too), `C96_created` (flat descriptions; the second may list more operators in any order and further connections that come from these; the uninitialised memory holds the same value for all operators), `C96_reordered` (another order only). `C96_same_id` and `C96_from_inside` show that the conditions are needed. | – |
| C97 | A program is its entry followed by the program behind it | Cut | `C97_entry` (what the entry emits, batch by batch), `C97_stream` (for an operator with one output port of which it is known what it answers to all messages in turn), `C97_skip` (an entry Identity left out). The entry is neither a Pipeline nor a Composite. Used in Props/BandsReturn to show that the Bollinger bands program answers. | – |
| C98 | Operators with the same meaning can take the place of each other | Replace | `C98_replace` (heaps with the same or interchangeable operators at every address), `C98_created` (flat descriptions, Pipelines not covered), the pairs `C98_average`, `C98_scale`, `C98_identity`, `C98_difference`, `C98_linear` (exact arithmetic), `C98_timeShift` (any arithmetic). `C98_older_differs`: the Difference with the time of the older message is no such filter. `C98_double_differs`: with doubles the MovingAverage of 2^53, 1, 0 over two messages ends with 0, the filter with 1/2, 1/2 ends with 0.5, so the pairs are stated for exact arithmetic. | – |
| C99 | The unit in which values are measured does not matter | Units | `C99_partial` (a program and its operators in the new unit, any state), `C99_created_partial` (created programs whose parameters are no values of the stream, run as they are), `C99_made` (what the constructors make in the new unit), `C99_bands` (the Bollinger bands over the reals). The StandardDeviation is covered where the square root is homogeneous, as over the reals. Uses the general `Mapped.Law` of `Lemmas/Mapped`: runs on related messages with related operators give related reports. Missing: Difference with useOldestTime false. | Difference with useOldestTime false reports a value as a time, so that a change of unit changes the times of its reports (`C99_violated`). |

Further observations made while reading, outside the properties: an entry with control inputs gives a program without operators; members of ConstantResampler
and Variable are uninitialised until first use; Demultiplexer removes messages before it throws; a snapshot of CumulativeSum stores the running sum only;
HermiteResampler emits a time twice when the first gap is below dt; `Difference` rounds times above 2^53 (2^53 + 3 becomes 2^53 + 4).

## 5. Mutation testing

Batches of edits are applied one at a time to a scratch copy of the model outside `/verif`, each imitating a realistic mistake, and the project is rebuilt.
`seeded/LOG.jsonl` has one line per attempt with the definition, the edit, the claim it breaks, the theorems that stopped checking and what was tightened.
Lines with `"failed": []` survived; their `note` says why. `failed` lists the theorems whose proofs stopped checking, as reported by the build. This is evidence
and not proof that the edit makes a statement false: a proof can break although its statement still holds, and theorems behind a broken lemma are not rebuilt. Where this was noticed the `note` says so; the
log was not searched for it line by line.

## 6. Axioms per theorem

From `#print axioms`; all names are in the namespace `Rtbot`.

* `none`: C10_nan_double, C102_equal, C73_violated_other, C84_null_violated.

* `propext`: C07_violated_double, C101_readable, C101_violated_names, C27_no_filter, C34_connect, C34_colon_violated, C37_violated_rsi, C37_violated_pipeline, C39_violated_flag, C39_violated_port, C39_violated_interval, C39_violated_truncated, C39_violated_accepted, C41_untouched, C41_reported_partial, C41_violated_json, C41_rejected, C42_violated, C43_again_after_failure, C44_violated, C46_entry_partial, C46_unusable, C46_violated_control, C46_objects, C47_violated_duplicate, C48_violated_rsi, C48_violated_difference, C48_violated_function, C48_violated_timeShift, C48_function, C48_program, C49_violated_function, C51_colon_violated, C52_violated_double, C53_violated_double, C56_unique, C57_violated_movingAverage, C57_violated_standardDeviation, C59_violated, C61_violated_join, C61_violated_linear, C61_violated_negative, C61_violated_ports, C61_violated_overflow, C62_violated_rsi, C62_violated_lessThan, C64_absent, C69_raises, C69_violated_negative, C70_new, C72_invalid, C72_refused, C72_violated_left, C72_violated_again, C72_violated_infinite, C74_invalid, C74_start, C74_violated_again, C75_deleteAll_partial, C75_violated_deadlock, C77_connect, C78_violated, C79_arguments, C79_violated_first, C79_violated_left, C80_violated_panic, C80_violated_old, C81_violated_entry, C84_again, Debugger.C84_colon_violated, Debugger.C84_names_violated, C86_violated_early, C87_violated_default, C92_violated, C96_same_id, C96_from_inside, C98_double_differs.

* `propext, Quot.sound`: C34_connections, C40_isolated, C40_undisturbed, C45_unknown, C46_missing, C47_first_partial, C49_exact_partial, C49_accepted, C53_constant, C73_connection, C73_joined, C73_operators, C73_entry, C73_violated_kept, C74_missing, C74_send, C74_stop, C76_unique, C76_described, C77_output, C81_accepts, C81_violated_ports, C84_state, C84_table_partial, C84_first, C85_inputs_violated, C86_number, C87_input_partial, C87_violated_number, C87_violated_missing, C87_violated_time, C92_reduced, C92_calls_partial, C92_period, C99_made.

* `propext, Classical.choice, Quot.sound`: C01_input, C01_records, C02_sliding_window, C03_movingAverage, C04_standardDeviation, C05_fir, C05_fir_exact, C06_peakDetector, C07_double, C07_difference, C07_difference_exact, C08_cumulativeSum, C08_cumulativeSum_exact, C08_count, C09_add, C09_scale, C09_power, C09_constant, C09_identity, C10_trichotomy_double, C10_filters, C10_trichotomy, C100_partial, C100_created_partial, C100_unit, C100_origin, C100_violated, C100_difference_violated, C101_text_partial, C101_drawn, C101_violated_alone, C101_violated_ports, C102_partial, C102_created_partial, C102_violated, C103_created, C104_created, C11_timeShift_partial, C11_violated_zero, C11_violated_negative, C12_autoRegressive_partial, C12_palindrome_partial, C12_violated, C13_constantResampler, C14_cosineResampler, C14_bounds, C15_hermiteResampler_partial, C15_violated_grid, C15_violated_ub, C16_linear, C16_interpolates, C16_hermite, C17_rsi, C17_range, C18_variable_partial, C18_violated_query_lost, C19_join, C20_join, C21_violated, C21_join_partial, C22_violated, C22_join_partial, C23_binary, C24_linear_partial, C24_linear_le_nine, C24_violated, C25_routing, C25_complete, C25_no_misrouting, C25_rejects, C26_debug, C26_receive, C27_filter_partial, C27_violated, C27_general, C27_run_partial, C28_terminates, C28_again, C28_steps, C29_report, C30_delivered, C30_orderly, C31_untouched, C32_calls, C32_emits, C32_composition, C32_reports, C33_order_violated, C33_tree_partial, C33_graph_partial, C34_run, C34_created_conns, C34_created_partial, C35_lossless, C35_rest, C36_continues, C38_stable, C39_outcomes, C39_returns, C39_rejected_partial, C42_forgotten_partial, C43_buffer, C43_processed, C44_by_port, C44_sequential_partial, C46_returns, C48_roundtrip_partial, C48_stable, C48_program_ids, C48_stays, C49_violated_variable, C49_violated_timeShift, C49_violated_negative, C49_any, C50_pipeline, C50_program, C50_distinct, C51_fed_partial, C51_enclosed, C51_program_partial, C51_direct, C52_double, C52_order_partial, C52_order, C52_violated_difference, C52_violated_timeShift, C52_violated_hermite, C52_violated_overflow, C52_violated_autoRegressive, C53_times, C53_difference, C53_cosine_partial, C53_hermite_partial, C53_causality_partial, C53_violated_difference, C53_violated_cosine, C53_timeShift, C54_hermiteResampler_partial, C54_on_time_partial, C54_violated, C55_linear, C55_hermite_partial, C55_violated, C56_wired, C57_fir, C57_peakDetector, C57_movingAverage_exact, C58_count, C58_cumulativeSum, C58_movingAverage, C59_range_partial, C59_range, C60_operator, C60_program, C60_agree, C60_types, C61_created_partial, C61_violated_function, C61_violated_fraction, C62_accepted_partial, C62_violated_program, C62_violated_timeShift, C62_violated_interval, C63_defined_partial, C63_created_partial, C63_answer_partial, C63_violated_join, C63_violated_entry, C64_filter_partial, C64_violated_dropped, C65_run_partial, C65_created_partial, C65_sessions_partial, C65_violated_cosine, C65_violated_retry, C65_violated_difference, C65_violated_time, C65_composites, C66_returns_partial, C66_violated_demux, C66_violated_variable, C66_violated_rsi, C67_told, C67_described, C68_named, C68_filtered, C69_object, C69_made, C69_created_partial, C69_linear, C69_violated_function, C70_operator, C70_connection, C70_edited, C70_valid, C70_violated_date, C70_violated_entry, C71_roundtrip, C71_read, C71_accepted_partial, C71_violated_date, C71_violated_output, C72_columns, C72_failed_partial, C73_connections_partial, C73_valid, C73_violated_entry, C73_violated_twice, C74_extended, C74_collapsed, C74_failed_partial, C75_create, C75_delete, C75_receive, C75_session, C76_plan, C76_call, C76_operator, C77_reports, C77_converse, C77_states, C77_built, C78_blind, C79_run, C79_refused, C79_violated_replay, C80_added_partial, C81_both_partial, C82_order_cond, C82_order, C83_kept, C83_times, C83_causality, C84_end_violated, C84_ports_violated, C84_inherited_violated, C85_command_partial, C86_clients, C86_tasks, C86_through, C86_start, C88_lockstep, C88_flows, C88_reports, C88_listed, C89_bands, C89_middle, C89_resampled, C89_bands_returns, C89_bands_total, C89_join, C89_join_receive, C89_bands_receive, C90_join, C90_served, C90_streams, C90_listed, C90_left_waiting, C91_peaks, C91_ppg, C91_ppg_receive, C91_peaks_receive, C92_silent, C93_receive, C93_selects, C93_exact, C93_double, C94_receive, C94_reports, C94_exact, C94_double, C94_range, C94_textbook_partial, C94_gap_violated, C94_rising_violated, C94_late_violated, C95_agree_partial, C95_close_partial, C95_file_partial, C95_rising_violated, C96_copy, C96_created, C96_reordered, C97_entry, C97_stream, C97_skip, C98_replace, C98_created, C98_timeShift, C98_average, C98_scale, C98_identity, C98_difference, C98_linear, C98_older_differs, C99_partial, C99_created_partial, C99_bands, C99_violated.
