# Design of the formal model of square/finch

The model is written in Lean 4 (4.33.0) with Mathlib, under `lean/Verif/`. Go code is modelled function by
function as total Lean functions; goroutines, mutexes and channels are modelled as state machines whose
steps are the atomic actions of the code; random sources, MySQL, HTTP, files and clocks are inputs that
the environment chooses, so a theorem holds for everything they can do.

Layout: `Verif/Model/*.lean` holds the definitions that mirror the Go code (each with the file and
lines it models); `Verif/Props/*.lean` the specifications, helper lemmas, the property theorems (named
`Cnn_…` after the property in `properties.jsonl`) and examples that meet their hypotheses.

Names of theorems: `Cnn_…` is (part of) property Cnn; `…_partial` proves it under a condition that the
property does not have, its comment and the note in `MANIFEST.json` say what is missing; `…_false` proves
with a concrete witness, or for all inputs, that the code does not do what the property says.

## How Go is represented

* `int`, `int64`: unbounded `Int` with an explicit wrap-around (`i64`) where the code can overflow
  (data/integer.go, limits); iteration counters are `uint32` with wrap-around. Counters of statistics
  are unbounded (2^64 events do not happen).
* `float64`: `Model/Float.lean` rounds exact rationals to 53 bits (finite, normal range). `math.Log` is any
  function with an error of at most one unit in the last place, `math.Pow` is Go's algorithm for integral
  exponents (`Model/FloatBuckets.lean`; from Go's library, which is not in this sandbox).
  `rand.NormFloat64`, `strconv.ParseFloat` and the text of a float are inputs
  (C85_numbers and C135_option assume that `strconv.ParseFloat` rounds decimal numbers to the nearest float64).
* `string`: lists of characters (`Text`); valid UTF-8 is assumed. Bytes of files are lists of `Nat`.
* maps: functions or association lists with distinct keys. Iteration order of a map is an argument or is
  the order of the list, so theorems hold for every order.
* pointers: numbers (addresses) where sharing matters (generators, counters, limiters, driver buffers,
  `Collector.local.Total`, the double buffer of `stats.Trx`), else values.
* errors: `none`, `.err` or `false`; panics: `.panic` or an explicit end state. Error texts are not modelled.
* goroutines: every access to shared memory that is not inside one critical section is a step of its own.
  Data races within one Go statement (torn reads) are not modelled.
* time: a tick, the end of a runtime, a timeout and CTRL-C are steps that may come at any time. Only rate limits
  (C111), reports (C112, C125), response times (C113), requests (C124) and the end after CTRL-C (C128) and after the loss of the server (C129) have times; there the readings of clocks are inputs.

## Go unit tests run on the model

`Verif/Conformance/` has the inputs and expected results of Go unit tests of /repo as examples evaluated by the
kernel. They test that the model agrees with the code on these inputs; they prove no property and none of them
is in MANIFEST.json. Covered: trx (load 001, 002, 003, copy3, COPY_NUMBER, RowScopeCSV, calls, row scope),
config TestVars, finch_test.go, stats (basic, trx, percentiles, collector, percentiles parsed, CSV), limit TestOr,
data (auto-inc, int-range-seq, int-gaps, client-id, xid, scope trx and PREV), workload groups, and all of
boot/scope_test.go (the rows inserted by whole runs, with random numbers replaced by different ones). Differences:
* `human.ParseBytes` and `math.Log` are tables of the values needed (logs computed outside Lean); HOME is `/root`.
* Percentiles: counts of buckets are given instead of recording each event. 255000 us is left out of the
  bucket numbers, since the comment in stats_test.go:143 (upper end 251188) does not fit it.
* TestGroups_SetupOne uses generator int for the mock, so its check of the value function is not covered.
* TestCalls goes through the tokenizer. Checks of DB and Stats pointers are left out.
* Not covered: tests of random values (int, int-range, str-fill-az), tests that need MySQL or a server (client,
  boot, dbconn, compute), TestValidate_Stage, TestLoadWithBase, the multi-threaded test, aws.

## Wrong programs

In `seeded/LOG.jsonl`, `failed_directly` are the declarations that did not compile after the edit. `failed` are
the theorems of properties whose proof uses one of them (by the constants of the unedited build), or the same as
`failed_directly` if there are none. So a long list in `failed` can come from one lemma, which may fail
because the edit changed the shape of a step and not because each of these claims became false.

## What is modelled, by source file

| file | modelled | not modelled |
|------|----------|--------------|
| finch.go | RunLevel, scopes, NOOP column, Bool, Uint, WithPort, error table and flags | Debug, SystemParams (values), CPU profile |
| aws/rds.go | | certificates (a constant) |
| bin/finch/main.go, boot/boot.go, boot/cmdline.go | main, Up, ParseCommandLine (Model/Boot) | go-arg and environment variables (an input), printed text; CTRL-C is an input of the boot, stage and client models; the forced exit 7.5 s after it is in Model/ShutTime; CTRL-C before the handler is installed |
| client/client.go | all of Run, Connect, Init (statement preparation, error handling, iterations, limits, recording), text of statements (fmt.Sprintf with %d, %s, %v; flags and other verbs are any function), response times (Model/Latency, clock as input), all clients of a stage with their generators, what they send and what they save (Model/Session), and with the iteration counters that they share, each atomic addition a step of its own (Model/Joint), and together with Stage.Run, which starts them and waits for them (Model/StageRun), and with the row limits that they share (Model/LoadRun) | lengths of sleeps and waits, log lines |
| compute/api.go | all handlers, Stage, New, the waiting loops | response texts, http server |
| compute/server.go | Run (stages in order, with one data scope that is reset: Model/Stages), runStage, boot test | log lines, http listener |
| compute/client.go | run, Run, getTrxFiles | log lines, sleeping |
| JSON in compute/api.go, compute/client.go, proto/proto.go | Model/Json: encoding of stage configurations and statistics, and decoding into their types | text of floats; the nesting limit of 10000 |
| compute/server.go, api.go, client.go together | Model/System: one server with all its handlers and any number of remote instances, connected by their requests and responses (lost ones included) | a second process with the name of an instance; time limits |
| config/config.go, config/file.go | Load for any number of stages, with maps as references (Model/Load); its parts as pure functions (base file, command line, interpolation, defaults, validation), Vars of every type, With, Validate, TLS | YAML decoding, text of errors |
| data/generator.go | all: Register, Make, and the interface (Format, Values, Scan, Copy) of all built-in generators | |
| data/scope.go, data/integer.go, data/string.go, data/id.go (client-id), data/column.go | all | the text of an xid (a library; any text) |
| dbconn/factory.go, dbconn/mycnf.go | Make, setDSN, credentials, TLS, ParseMyCnf, RedactedDSN | ini parser, database/sql |
| limit/data.go | Rows, Size, Or, progress lines (Model/Progress) | rounding of floats and the text of progress lines |
| limit/rate.go | NewRate, And and their goroutines (Rate); times of ticks (RateTime) | `golang.org/x/time/rate` (a tick; its token bucket with burst 1 in exact arithmetic) |
| proto/proto.go | Get, Send, request with retries, URL, reading the body after the cancellation | net/http (QueryEscape and parseQuery are modelled from the source of net/url; what a cancelled context does to the body from the documentation) |
| stage/stage.go | Prepare (what it takes from the configuration: Model/Configured), Run | CPU profile |
| stats/stats.go, stats/collector.go | all; times in Model/ReportTime and Model/FinalReport | |
| stats/reporter.go, stats/csv.go, stats/stdout.go | percentiles, header, lines, options, Register, MakeReporters, CSV files over all stages of a benchmark (Model/Reporters), the table on stdout (Model/Table) | failing writes; text/tabwriter is modelled from its documentation, a character having width 1; `%.1f` is modelled from the documentation of strconv (Model/ReportTime) |
| stats/remote.go | `NewServer`, `Report`, `Stop`, `report` as a queue machine (Model/RemoteStats), and in time (Model/RemoteTime) | the values sent are those at the time of encoding; retries (see C55); JSON is in Model/Json |
| trx/trx.go | all, with the line length limit of bufio.Scanner (Model/Scan) and read errors (Model/ScanBroken) | |
| workload/workload.go | all | debug output |
| test/* | | not part of the program |

Assumptions about libraries, used only by the properties that say so: `go-sql-driver/mysql` splits a DSN as
documented (C63, C82, C92); `database/sql` rejects a call whose context is cancelled (C49, C78);
`golang.org/x/time/rate` is a token bucket with burst 1 (C111; in C21, C22 its returns are inputs); `xid` ids are unique (C51-C54);
`go-humanize` writes and reads numbers as documented (C60, C86); `net/http` may or may not have taken
the request body from its reader when an attempt fails (C55), its `Do` returns when the timeout is over (C124), and a
cancelled context ends the reading of a response (C123); `net/url` escapes and parses as in its source (C122);
`text/tabwriter` is as documented (C133); `time.ParseDuration` (C136) and `humanize.ParseBytes` (C137) are as in their sources, and inputs elsewhere; `encoding/json` encodes and decodes as in its source (C127; written down from Go 1.20, which is not in this sandbox).

The server model (`Model/Compute.lean`): names of instances and stage ids are numbers; critical sections are
atomic; every request is handled by a goroutine of its own whose steps interleave with all others; the API
is present (the server was started with `--bind` or has remote instances).

## Trusted base

Lean's kernel; the axioms `propext`, `Classical.choice`, `Quot.sound` (each theorem depends on a subset of
these and on no others; checked with `#print axioms` for the property theorems by `vcheck`); and the claim that the
definitions in `Verif/Model` say what the Go code does. There is no `sorry`, `native_decide` or axiom of our own. Witnesses
of `_false` theorems are evaluated by the kernel (`decide +kernel`, `rfl`).

## Properties

Modules are under `Verif/Props`. What a partial property lacks is in the note of `MANIFEST.json` and in the next section.

| id | title | status | modules | how it is proved |
|----|-------|--------|---------|------------------|
| C01 | Data keys share a generator exactly within their scope | proved | AllocScope, Scope, ScopeNames | invariant over lexicographically ordered visit sequences: the copy number changes iff the scope suffix of the run level changes |
| C02 | Every data key in a statement has a value source | partial | AllocScope, Scope | case analysis of scopes |
| C03 | One value per scope iteration for single-client scopes | proved | ScopedGen | simulation against a specification that keeps (scope counter, last call) |
| C04 | Explicit calls always generate and become current | proved | ScopedGen | simulation against a specification that keeps (scope counter, last call) |
| C05 | Client-group scope: one call per client and iteration, whatever the interleaving | proved | MultiClient | state machine over lock sections of any number of clients, invariant per client |
| C06 | Exec-group and workload scope treat different clients independently | partial | MultiClient | state machine over lock sections of any number of clients, invariant per client |
| C07 | Stage and global scope generate exactly one value | partial | MultiClient | case analysis of the one-time branch, for all histories |
| C08 | Only stage- and global-scoped data survives between stages | proved | Scope | filter laws, induction over histories |
| C09 | Uniform int values stay within [min, max] | partial | Integer | arithmetic with wrap-around, for all random draws |
| C10 | Normal int values stay within [min, max] | partial | Integer | arithmetic with wrap-around, for all random draws |
| C11 | int-gaps values are in range and hit exactly p percent of the range | partial | IntGaps | arithmetic in exact rationals and with float64 rounding (monotonicity of rounding) |
| C12 | int-range returns a well-formed range inside [min, max] | partial | Integer | arithmetic with wrap-around, for all random draws |
| C13 | int-range-seq enumerates the range exactly once per cycle | partial | Integer | induction over calls of the sequence |
| C14 | auto-inc values are sequential and unique across clients | proved | Integer | induction over interleaved calls |
| C15 | str-fill-az returns exactly len letters | proved | Generators | induction over the loop with fuel |
| C16 | client-id returns the configured run counters in order | proved | Generators | induction over lists and histories; driver buffers as memory addresses |
| C17 | A saved column yields the most recently scanned value | partial | Generators | induction over lists and histories; driver buffers as memory addresses |
| C18 | Row limit stops all clients with bounded overshoot | proved | Limit | state machine with any number of clients, counting invariant |
| C19 | Size limit is checked at a fixed cadence and stops every client | proved | SizeLimit | state machine with any number of clients, counting invariant |
| C20 | Database size limit measures the database | partial | SizeLimit | evaluation of Size.More for all answers of MySQL |
| C21 | Combined rate limits respect both limits | proved | Rate | token counting invariant over the tree of limiters, any interleaving |
| C22 | Stage, exec group and client rate limits hold simultaneously | proved | Rate | token counting invariant over the tree of limiters, any interleaving |
| C23 | Combining data limits stops at the first limit reached | partial | SizeLimit | state machine with any number of clients, counting invariant |
| C24 | Statistics count every event exactly once | proved | Stats | homomorphism from event lists |
| C25 | Combining statistics equals recording everything in one place | partial | Stats | homomorphism from event lists |
| C26 | A copied statistic equals its source | partial | Stats | homomorphism from event lists |
| C27 | A reported percentile is the histogram percentile | partial | FloatBuckets, Percentile | loop invariant over buckets with rounded frequencies |
| C28 | Interval statistics neither lose nor duplicate events | proved | TrxSwap | invariant of the double buffer: reported + pending = recorded, over all interleavings |
| C29 | Collector never indexes out of range and interval numbers only grow | partial | Collector | state machine of collections, deliveries and Stop; invariants |
| C30 | A report holds each compute instance's statistics for that interval | partial | Collector | state machine of collections, deliveries and Stop; invariants |
| C31 | Stop tells whether the final statistics were complete | partial | Collector | state machine of collections, deliveries and Stop; invariants |
| C32 | Trx file lines become statements with their own modifiers | proved | TrxLines | induction on lines |
| C33 | copies: N yields N copies | partial | TrxC33 | induction on characters, matches and modifiers |
| C34 | csv N expands to N rows | partial | TrxCsv, TrxCsvCount | induction on characters, matches and modifiers |
| C35 | Row scope regenerates each row key once per row | partial | TrxCsv | induction on characters, matches and modifiers |
| C36 | Placeholders are replaced by the format of their own generator | partial | TrxFormat | induction on characters, matches and modifiers |
| C37 | Generated values line up with query placeholders | proved | Values | induction on characters, matches and modifiers |
| C38 | Statement kinds are recognised from the first word | partial | TrxKinds | induction on characters, matches and modifiers |
| C39 | Exec groups partition the workload in order | proved | Groups | induction on the workload list |
| C40 | DDL runs once and alone | partial | GroupNames, Groups | induction on the workload list |
| C41 | Automatic assignment runs every trx once in file order | proved | Groups | induction on the workload list |
| C42 | A client executes its trx in order with correct boundaries | proved | AllocScope | induction on client groups and clients; correspondence with Groups |
| C43 | Iteration and rate limits are attached as configured | partial | AllocScope | induction on client groups and clients; correspondence with Groups |
| C44 | Iteration limits are never exceeded under concurrency | partial | IterLimits | invariant of the atomic counters for any number of clients and interleavings |
| C45 | MySQL errors are handled as documented | partial | ClientErr | invariants over all steps of the client machine, for all answers of MySQL |
| C46 | Rollback-class errors inside a transaction roll it back | partial | ClientErr | invariants over all steps of the client machine, for all answers of MySQL |
| C47 | Prepared statements belong to the current connection | partial | ClientPs | invariants over all steps of the client machine, for all answers of MySQL |
| C48 | Each executed query is recorded once, under its own transaction and class | partial | ClientStats | invariants over all steps of the client machine, for all answers of MySQL |
| C49 | Clients stop when told to | partial | ClientStop | invariants over all steps of the client machine, for all answers of MySQL |
| C50 | Exec groups run one after another | partial | Stage | state machine invariant over contexts and done signals |
| C51 | Remote clients advance only through the protocol states in order | partial | ComputeStates | invariants of the server machine over all interleavings of requests |
| C52 | At most the configured number of remote instances join a stage | proved | Compute | invariants of the server machine over all interleavings of requests |
| C53 | A stage starts only when all instances booted | partial | Compute | invariants of the server machine over all interleavings of requests |
| C54 | An instance that failed to boot can boot again | partial | ComputeBoot | invariants of the server machine over all interleavings of requests |
| C55 | A retried request carries the same body | partial | Proto | induction over attempts |
| C56 | Every trx file fetched by a remote instance keeps its own content | partial | Proto, Redact | induction over trx files with a file map |
| C57 | Switching stages takes bounded time | partial | ComputeEnd, Proto | induction over rounds; invariants of the server machine |
| C58 | Stage settings override base settings | partial | ConfigBase | decision logic, list induction |
| C59 | Command line parameters override file parameters | partial | ConfigBase | decision logic, list induction |
| C60 | Parameter references are replaced by exactly their values | partial | Redact, Vars | induction over texts, matches and replacements |
| C61 | A validated stage is well formed | proved | Validate | decision logic, list induction |
| C62 | A disabled stage is not run | partial | Validate | decision logic, list induction |
| C63 | The MySQL connection uses the configured credentials by precedence | partial | Dbconn | decision logic; inverse of the driver's parser |
| C64 | TLS settings of my.cnf are honoured | partial | Dbconn | decision logic; inverse of the driver's parser |
| C65 | Adding a default port is idempotent and never changes an explicit port | proved | Port | induction on characters |
| C66 | Uniform int can return every value of [min, max] | partial | Integer | arithmetic with wrap-around, for all random draws |
| C67 | Saved columns are quoted by default | partial | Generators | induction over lists and histories; driver buffers as memory addresses |
| C68 | Unused rate permits stay available to the clients that need them | partial | Rate | token counting invariant over the tree of limiters, any interleaving |
| C69 | Reporters always get statistics of at least one instance | partial | Collector | state machine of collections, deliveries and Stop; invariants |
| C70 | Per-trx statistics add up to the total | proved | CollectTrx | homomorphism; induction over clients and trx |
| C71 | The combined line of a report depends on that report only | partial | Combined | equality of combined statistics for all earlier reports |
| C72 | Histogram buckets have the documented limits | proved | Buckets, FloatBuckets | error analysis of log and quotient against rational bounds of the exponential, checked by the kernel for all 449 limits; powers evaluated by the kernel for all 450 buckets |
| C73 | Every data key of a loaded statement has a generator | proved | TrxSet | invariants over loading of all lines of all files |
| C74 | Saved columns are used | proved | TrxColumns, TrxSet | invariants over loading of all lines of all files |
| C75 | Files keep their order and do not disturb each other | proved | TrxSet | invariants over loading of all lines of all files |
| C76 | DDL marks of loaded trx | partial | TrxLoaded | invariants over loading of all lines of all files |
| C77 | Saved columns keep their order | proved | TrxLoaded | invariants over loading of all lines of all files |
| C78 | Cancellation is not an error | partial | ClientStop | invariants over all steps of the client machine |
| C79 | Run counts given to generators | partial | ClientCounts | invariants over all steps of the client machine |
| C80 | The TLS files of an accepted stage are used | partial | DbconnMake | decision logic; inverse of the driver's parser |
| C81 | All connections of a stage use one DSN, that of its own configuration | proved | DbconnMake | decision logic; inverse of the driver's parser |
| C82 | A connection that cannot be configured is reported as an error | partial | DbconnMake | decision logic; inverse of the driver's parser |
| C83 | Variables are replaced in every setting | partial | StageVars | decision logic over all settings; commutation of replacements |
| C84 | The result of interpolation does not depend on the order of params | partial | StageVars | decision logic over all settings; commutation of replacements |
| C85 | Percentiles are used as configured | partial | PctText, Report | induction over columns and characters |
| C86 | Each reported value is under its column | partial | Report | induction over columns and characters |
| C87 | Stdout prints the lines that are configured | partial | Report | induction over columns and characters |
| C88 | Rate limits are applied to every execution | proved | ClientWaits, ConfiguredWaits | invariants over all steps of the client machine |
| C89 | Statements are executed in the default database | proved | ClientWaits | invariants over all steps of the client machine |
| C90 | Every execution is recorded and its results saved | proved | ClientAfter | invariants over all steps of the client machine |
| C91 | A boot test boots every stage and runs none | partial | ComputeEnd | invariants of the server machine over all interleavings of requests |
| C92 | Passwords are not shown | proved | Redact | inverse of the driver's parser |
| C93 | A remote instance runs a stage only when told | proved | Remote | invariants over all steps of the machine of a remote instance and of the server |
| C94 | Errors of a remote instance reach the server | partial | Remote | invariants over all steps of the machine of a remote instance and of the server |
| C95 | A remote instance stops when the stage is stopped or the server is lost | proved | Remote | invariants over all steps of the machine of a remote instance and of the server |
| C96 | Statistics of a remote instance reach the server once and in order | partial | RemoteStats | invariants over all interleavings of collector and sender |
| C97 | A valid stage can be prepared | partial | Prepare | invariant of the data scope over all copies made by the allocator; composition of loader, allocator and collector |
| C98 | The collector watches every trx of every client once | proved | Prepare | composition with C39, C70; induction over clients |
| C99 | Each stage file is loaded as if it were alone | proved | Load | refinement: a program on a memory of maps against pure functions; ownership invariant (maps of a stage are newer than everything before it) |
| C100 | From the command line to the stages that are run | proved | Boot | case analysis of the start; induction over the stages; composition with C99 |
| C101 | A distributed stage is run by all its instances together, and after the stages before it | partial | System | invariants of the composition of server, handlers and any number of instances; simulation of executions in which instances give up |
| C102 | A distributed stage can be completed unless one of its instances fails | proved | System | a measure over the composite state that some step decreases in every state of the invariant; stability of the state of a failed instance |
| C103 | The number of instances of a stage | proved | System | invariants over all steps of the server |
| C104 | A CSV report file holds the report of one stage and nothing else | proved | Reporters | induction over stages, reports and reporters |
| C105 | Every stage with valid reporter options gets its reporters | partial | Reporters | induction over stages; witnesses for all configurations of the kind |
| C106 | The reporters of a stage are those configured | proved | Reporters | induction over the entries in any order |
| C107 | A trx file is loaded from all its lines or not at all | proved | Scan, ScanBroken | induction over lines |
| C108 | Disabled statistics are not reported | partial | Reporters | decision logic; negation for all configurations |
| C109 | MySQL gets the statement of the trx file with data keys replaced by values | partial | Sql | induction over the pieces of the query for any behaviour of fmt; composition of C36, C37 and C110; witnesses |
| C110 | Data generators keep to their format | partial | Gen | invariant over calls, copies and scans; induction over registrations |
| C111 | Rate limits hold in any window of time | partial | RateTime | induction over calls of the token bucket; permit counting invariant over steps (C22); induction over how a stage builds limiters; witness |
| C112 | Times and rates of reports are those of the interval | partial | ReportTime | induction over collections with float64 error bounds; composition with C86; witness |
| C113 | Response times are those of the executed statements | partial | Latency | case analysis of steps; induction over runs; composition with C24; witness |
| C114 | Clients send what their data keys generate, whatever the others do | partial | Session, SessionPrep, SessionStages | refinement: histories of all clients projected to each client and each generator, composed with C01, C02, C37, C47 and C79; induction over runs, lines of trx files, uses and stages |
| C115 | Clients send what they saved | partial | SessionCols, SessionSent, SessionStages | invariant over the steps of all clients, composed with C01, C79 and C90; witnesses |
| C116 | A stage that was accepted is prepared as it is configured | partial | Configured | composition of C61 (what validation accepts and sets), C75 (files in order), C39/C41 (groups), C42/C43 (clients, limits, rate limiters) and C97 over one configuration; numbers are read digit by digit in the specification |
| C117 | A remote instance executes what the server would | partial | RemoteSame | equality of what both sides prepare, from C56 and the model of C116; induction over the fetch; a witness |
| C118 | A stage ends on time | proved | StageEnd | a measure that every move of the stage decreases, separately for milliseconds; a list of the clients that are open, kept in step with the counter and the warnings |
| C119 | A client executes its statements in order, iteration after iteration | partial | ClientOrder | invariant: the trace is the list of iterations that are over and the current one, with the place of the client; a measure that decreases when everything goes well; index bounds for absence of panics |
| C120 | Every modifier has its effect and no other | partial | TrxMods | white space and names are specified independently of strings.Fields; induction over the modifiers |
| C121 | A benchmark with iteration limits executes and records exactly what is configured | partial | Joint, JointConf, JointGroups | invariant over all interleavings: each shared counter is the sum of the iterations begun, those being begun and the clients that were refused; a client of the whole is a run of C119, whose trace is paired with what it records; C24 for the counts |
| C122 | The server sees what an instance sends in the URL of a request | proved | Url | unescape after escape is the identity by induction over bytes; splitting at & and cutting at = undo the joining because escaped text has neither; decimal digits read back |
| C123 | A response is delivered whatever its size | partial | ProtoBody | case analysis of the retry loop: the read error is returned at the first attempt; the claim is refuted, and proved for bodies that came with the headers |
| C124 | Statistics that are collected far enough apart are all sent, in time | proved | RemoteTime | induction over attempts; timed machine with deadlines: invariant that what waits was collected last and the sender is free in time; refinement to the machine of C96 |
| C125 | Everything recorded during a stage is in its reports | partial | FinalReport | invariant over records, ticks and Stop: reports and what is not yet collected are what was recorded, and the rest after Stop is younger than half of the frequency; runs for every frequency refute the whole claim |
| C126 | CTRL-C on the server ends a distributed stage | partial | Interrupt | invariant over all later actions that nobody can acknowledge; counting by a permutation between acknowledgements of boot and of the end, running clients and the local instance; induction over the clients and the acknowledgements |
| C127 | What is sent as JSON arrives as it is | proved | Json, JsonConf | mutual induction over the value for reading what was written, with an induction over the bytes of a text by UTF-8 sequences; induction over types for the decoding into fields |
| C128 | After CTRL-C the process ends by itself in time, else by force | proved | ShutTime | invariant of the stage machine: a budget of sleeps that no step increases; induction over the turns of the waiting loop; the bounds of C124 |
| C129 | A remote instance ends soon after the server is lost | proved | PingTime | induction over the turns of the ping loop, with an induction over the attempts of a request: one that ends after the loss is not answered with 200; the bounds of C124 and C128 |
| C130 | A stage with iteration limits ends by itself, complete | proved | StageRun, StageStuck | refinement: each run of stage and clients together projects to one of the stage and one of the clients; a measure that each step decreases unless it changes nothing, whatever fails, strong induction over it for fair schedules; invariants that a shared counter goes over the limits at most once for each client and so never wraps, that a client has begun no more iterations than it counted, and that clients not yet started have done nothing; the theorems of C50, C119 and C121 |
| C131 | A stage that loads data ends by itself, with the data | proved | LoadRun | invariant over all interleavings: each counter is what it began with plus the rows written; rows written plus R for each client between asking and telling are bounded; a client has begun no more iterations than rows were written with its limit, plus one; so iterations are bounded along the schedule and the measure of C130 applies; refinement of the runs to those of C130; structural induction for combined limits |
| C132 | Data keys are what is configured for them | partial | TrxConf, TrxConfStages | invariant of the parser over modifiers, csv templates, keys, copies, lines and files: every key was there or is made of the configuration, which changes only by row scope where no scope was set; then the validated configuration of the stage, and induction over the stages with an invariant of the data scope; counterexamples by evaluation |
| C133 | The report on stdout is a table | partial | Table | splitting the written text gives the same number of cells in each line, so each block of a column is the whole table; induction over the cells of a line for bars and reading back |
| C134 | Data limits report their progress | partial | Progress | induction over the calls: a call either logs a line more than r percent after the last or is within r percent of it; telescoping sums; the integer division of the remaining time |
| C135 | Reported percentiles are those of the recorded latencies | partial | PctAccuracy, PctText, PctWhole | the bucket of the percentile (C27) and the latencies of its bucket and of those before it (C72), with the ratio of the values of neighbouring buckets; counts of latencies are monotone in the limit |
| C136 | Durations mean what is written | partial | DurLong, Duration, ModText | the loop over the parts equals the sum of their values, by induction over the written parts; bounds of the three float64 roundings of a fraction, and of what is cut off after 18 digits; conversely, induction over the rounds of the loop gives the written parts |
| C137 | Sizes mean what is written | partial | ModText, SizeText | the written number and unit are found again by the scan; bounds of the two float64 roundings; exact for integers up to 2^53; conversely the scan gives the written parts; then the modifiers of a statement (C120) |

## Where the code does not do what the property says

Each of these is a theorem; the property keeps its full statement and has a `_partial` theorem for the rest. 

* `C02_global_scope_never_gets_a_generator`: (negation for global scope). The claim "every data key has a value source" is false of the code: a key with global scope never gets a generator, in any history, because the comparison of run levels at global level compares 1 with 1. `workload.go:231` then silently drops the input.
* `C06_clients_of_different_groups_interfere`: With exec-group or workload scope, clients of different client groups are not independent: client numbers start at 1 in every client group and are the only key of the generator's memory, so client 1 of group 2 gets the values generated for client 1 of group 1 in the same iteration number, and the generator is not called for it.
* `C07_one_time_scope_never_generates`: With stage or global scope no implicit use ever calls the generator or returns a value: the test for "already generated" is inverted (data/scope.go:251).
* `C07_one_time_scope_regenerates_after_explicit_call`: (negation, second half). After an explicit use, every implicit use of a stage- or global-scoped key calls the generator again instead of returning the one value.
* `C09_uniform_max_not_positive_panics`: An accepted uniform configuration with max <= 0 panics on every call.
* `C10_default_mean_outside_range`: With min=100000, max=200000 and all else default the mean is 50000 (half the width instead of the middle), and two draws below the mean return 50000, which is less than min.
* `C10_large_mean_false`: With max and mean 2^53+3 the mean as a float64 is 2^53+4, and two draws above it return this number, which is more than max.
* `C11_small_range_panics`: Whenever p percent of the range is less than one value (size*p < 100), the configuration is accepted but every call panics.
* `C11_single_index_is_nan`: If size*p/100 is between 1.01 and 1.99, there is a single index, the slope is a division by zero, and every call converts NaN to an integer.
* `C11_fewer_values_than_percentage`: 29 percent of [1, 100] is 29 values, but float64 rounding makes it 28.
* `C11_max_not_reached`: For [1, 100] and p=50 the value 100 is never returned: the last index gives 99.99999999999999, truncated to 99.
* `C12_size_zero_is_accepted_and_reversed`: size=0 is accepted and gives a pair whose upper bound is below the lower bound.
* `C12_overflow_at_int64_limit`: With max = 2^63-1 the upper bound wraps around to a negative number.
* `C13_size_zero_never_advances`: size=0 is accepted and every call returns the empty range (1, 0): the table is never scanned.
* `C13_overflow_at_int64_limit`: A range that ends at 2^63-1 overflows: after the last chunk the next one starts at a negative number instead of `begin`.
* `C17_second_save_in_same_trx_is_ignored`: If the key was used after a first save, a second save in the same transaction is not seen by later implicit uses of that transaction: they return the first value.
* `C20_database_size_false`: a database with one small table; MySQL rejects `ANALYZE TABLE ` without a table name (a syntax error), which is what finch sends because it closes the result of SHOW FULL TABLES before reading it. The third call says stop at 1 byte of 1000.
* `C23_zero_rows_false`: for `-- rows: 0`: it adds a nil pointer inside a non-nil interface.
* `C25_minimum_false`: for the minimum : combining a client that recorded reads (here of 40 µs) with one that recorded none reports a minimum of 0.
* `C26_copy_false`: in general : errors left in the destination by an earlier interval stay if the source has none of that code.
* `C27_list_code_false`: for lists , with the code's buckets and values.
* `C27_list_false`: for lists : if all events are slower than 10 seconds they are in the last bucket, and every percentile but the first is reported as 0.
* `C29_single_remote_false`: for a single remote instance (one instance, local disabled): if its statistics of interval 1 are lost, those of interval 2 leave the only slot occupied, and the next ones are written out of range.
* `C30_late_remote_false`: if a remote instance is one interval late: two local collections complete the interval, the report contains the local instance twice and the remote not at all, and both entries show the statistics of the second interval, so those of the first are lost.
* `C30_repeated_delivery_false`: if statistics are delivered twice (a remote repeats a request whose response it did not get): the repeated one takes the place of another instance.
* `C31_stop_always_returns_true`: : Stop always returns true, so it never tells that statistics were incomplete.
* `C31_incomplete_but_true`: : with two instances, one of which never reports, Stop returns true after its timeout with a report of one instance.
* `C33_one_copy_false`: One copy has the number 0, not 1.
* `C33_saved_column_false`: Two copies of a statement that saves a column are refused: the second copy finds the column saved already.
* `C33_colon_false`: A leading colon hides the modifier from the code that removes it: endless recursion.
* `C34_later_comment_false`: A later comment in the query becomes part of the template: it and the text before it are repeated N times.
* `C35_prefix_keys_false`: If one key is the beginning of another one, the wrong key is marked, even twice, and the other one is never called again: all rows get the same value of `@d`.
* `C36_prefix_keys_false`: If a data key is the beginning of another one, the result depends on the iteration order of a Go map, and in one order `@d2` becomes the placeholder of `@d` followed by `2`.
* `C36_prev_false`: All `@PREV` of a query get the placeholder of the last one: the first `@PREV`, which belongs to the number range `@r`, becomes a quoted string.
* `C38_select_not_first_false`: Statements that read rows but do not begin with the word SELECT are not reads, so they are executed as statements without a result: a comment first, a parenthesis, a common table expression.
* `C40_name_clash_false`: Without the condition on the names it need not: an unnamed client group with DDL next to one that is named `ddl1`.
* `C43_large_limit_false`: A shared limit of 2^32 iterations is stored as 0, which the client takes for "unlimited" (client/client.go:228).
* `C44_largest_limit_false`: for the largest limit. With iter-exec-group 4294967295 the counter overflows to 0 and the limit never stops a client: one client begins any number of iterations.
* `C45_abort_never_stops_false`: for errors listed as abort. Whatever the table of errors says, no client ever stops because of the error of a query that is in the table: `Eabort` is 0, and `flags & 0` is 0.
* `C46_last_statement_false`: for the last statement. `BEGIN`, `UPDATE`, `COMMIT` in one trx file; the last statement fails with a lock wait timeout (1205, handled with rollback). The trx of the client is already marked as ended, so the next iteration begins without ROLLBACK.
* `C47_reconnect_false`: after a reconnect. An unknown error (2013, lost connection) in the prepared second statement; in the next iteration it is executed with the statement prepared on connection 0, which is closed, while the open connection is 1.
* `C48_idle_first_false`: for idle entries at the beginning of a trx. Such an entry carries the BEGIN mark, and the client does not look at it. Two trx `a` and `b`, the second begins with an idle entry: its query is counted under `a`. If the first begins so, the client stops with an index out of range after its first query.
* `C49_only_idle_false`: for clients that only sleep. A client whose statements are all idle time and that has no limit of iterations does not stop when the context is cancelled: nothing in its loop looks at the context.
* `C50_runtime_false`: with a stage runtime. Two execution groups of one client each. The runtime of the stage elapses; the client of the first group does not stop within the ten ticks (its query still runs); the stage warns and starts the client of the second group while the first still runs.
* `C50_late_client_false`: late clients. The late client of the first group then signals done while the stage waits for the second group. It is taken for the client of the second group: the stage ends although that client still runs and the stage never warns about it.
* `C51_order_false`: With overlapping requests a client can go back from running to runnable.
* `C51_stats_false`: With overlapping requests statistics are accepted from a client that is not running.
* `C53_distinct_false`: A stage of two instances can start with one instance that acknowledged twice.
* `C54_after_error_false`: The report of a boot error leaves the instance where it was: a client of the stage in state booting.
* `C54_never_boots_false`: After a boot error the instance cannot ask for the stage again, whatever it and the others do (other than POST /boot without GET /boot, which no instance does, see compute/client.go:114-120): no GET /boot is answered with the stage, its place is not given to another instance, and the stage never starts.
* `C54_stale_request_false`: The place in the second stage is taken by a request that nobody waits for, and the instance is refused.
* `C55_empty_retry_false`: An attempt that was sent completely but failed (a timeout or any other status) is followed by an attempt without body, for all data.
* `C55_boot_error_false`: consequence. A remote instance that failed to boot tells the server; if the first attempt times out the second one says that the boot was successful.
* `C56_same_name_false`: Files with the same base name overwrite one another, and the longer one is not even truncated: both trx refer to a file whose content is that of neither.
* `C56_local_false`: A file of that name which is on the instance already is used, whatever its content.
* `C57_unbounded_false`: As long as a client of the old stage has not left, the server waits; the timeout has no effect.
* `C58_freq_false`: for `stats.freq` : that of the stage file is always lost, even if there is no base file at all; the base file wins if both set it.
* `C58_report_false`: for `stats.report` : the base file wins.
* `C59_no_base_false`: without base params : the command line params are ignored altogether.
* `C59_stage_false`: for params that the stage file sets : the stage file wins.
* `C60_prefix_false`: if one name is the beginning of another : `$params.ab` becomes the value of `params.a` followed by `b`.
* `C60_numbers_false`: for texts with digits : in settings that allow human numbers (all params of the stage and of data generators) letters after a digit and commas between digits are taken for human numbers.
* `C62_disabled_run_false`: A disabled stage that was accepted is run like any other.
* `C62_disabled_panics_false`: A disabled stage without trx (as the error message of the validation suggests it) makes the program panic, and later stages are not run.
* `C63_socket_false`: for the socket. The hostname that the stage sets is not used if my.cnf sets a socket.
* `C63_port_false`: for the port. With a port but no host in my.cnf there is no default host.
* `C63_password_false`: for the password. The password that the stage file sets loses against a password file that the base file sets, and the newline at its end is part of the password.
* `C63_colon_false`: for user names with a colon. The driver takes the rest of the name for the password.
* `C64_ignored_false`: The TLS settings of my.cnf have no effect at all: files that differ only in these give the same connection.
* `C64_required_false`: my.cnf requires TLS, the connection does not use it.
* `C66_uniform_never_returns_max`: The uniform int generator never returns `max`, unless min = max.
* `C66_uniform_never_negative`: (negation, lower end). Negative values are never returned, also not when min is negative.
* `C67_column_not_quoted_by_default`: Without the quote-value param (documented default: yes) saved values are not quoted.
* `C68_unused_permits_lost_false`: the goroutine that combines the stage limit with the limit of another client takes the stage's permit although that client asks for nothing (it may not even run yet, or have finished).
* `C69_stop_reports_nothing_false`: : two instances; Stop collects the local statistics, the remote ones arrive and complete the interval, and the timeout then forces a report without any instance. (The CSV reporter accesses the first instance of it: stats/csv.go:61.)
* `C71_stdout_false`: for later reports on stdout : two reports of two instances each; in the first one instance has an error, in the second there are none, and the second combined line still shows it.
* `C76_removed_ddl_false`: with `copies: 0` : the trx is marked as DDL without a DDL statement.
* `C78_prepare_false`: while preparing. No error happens, the context is cancelled while the client prepares; `fmt.Errorf("prepare: %s", err)` hides that it was the context.
* `C78_rollback_false`: while rolling back. A lock wait timeout (which the client handles), then the context is cancelled during `ROLLBACK`.
* `C79_idle_first_false`: for idle time at the beginning of a trx. The trx counter is 0 at the first statement, and a generator of trx scope gives no value at all (client/client.go would put nil into the query).
* `C80_unchecked_false`: A stage with a certificate but no key is accepted, and its connections are made without the certificate.
* `C82_invalid_dsn_false`: A DSN that the driver cannot parse is not reported: the program panics.
* `C82_db_slash_false`: The same with a database name that contains a slash.
* `C83_forgotten_false`: for five settings: hostname, socket, iter, iter-clients and iter-exec-group are taken literally, whatever is in them.
* `C83_iter_refused_false`: A stage that uses a variable in iter, iter-clients or iter-exec-group is never accepted (unless it is disabled), however the params are set.
* `C84_order_false`: for params that refer to params: a stage named `$params.a` is called `1000` or `$params.c`, depending on the order in which Go happens to take the params.
* `C85_nan_false`: : NaN is taken as a percentile.
* `C85_default_refused_false`: of the documentation : the documented default, `P999`, is refused if it is written, for every parser that reads `999` as 999; by default the percentile 99.9 has this name.
* `C86_csv_comma_false`: for names of instances with a comma: the line has one field more than the header.
* `C86_stdout_percent_false`: for names of instances with a percent sign: the line is used as a format (stats/stdout.go:136), so another name is printed.
* `C87_default_false`: of the documentation , which says that the combined line is on and the lines of instances off by default: without any stats in the stage file there is no combined line, with as many instances as you like, and the lines of the instances are printed.
* `C87_nothing_false`: of the documentation : with `each-instance: no` and the default of `combined`, nothing is printed below the header.
* `C91_next_stage_false`: : once a remote instance has joined a stage in a boot test, no other stage is ever offered to remote instances, whatever happens: the instance waits for the run signal of the tested stage, which is not given (`cfg.Test` is never set), and the server waits for the instance.
* `C94_silent_false`: negation. An instance that has got the stage but fails before preparing it (here: the second of two files cannot be fetched) returns an error without telling the server, which goes on waiting for its boot. This holds for every such failure: whenever `run` returns an error before `prepare`, nothing is reported.
* `C94_run_error_false`: negation. An error of the run never reaches the server (the result of the stage is dropped), and the process exits with status 0 whatever happened.
* `C96_values_false`: negation. What is sent for an interval is whatever was collected last, because copies in the queue share their statistics: in any state with `k` waiting, the statistics of `k` are lost and those of the later interval are sent in their place (and so counted twice, if the later interval is sent as well).
* `C97_global_insert_id_false`: for an insert id with global scope : the trx file loads, and the allocator dereferences a nil generator (workload/workload.go:265), because `Copy` never makes one for global scope (C02).
* `C97_prev_insert_id_false`: for `save-insert-id: @PREV` : it loads if a later statement uses `@PREV`, and then the allocator dereferences the nil that `Copy` returns for `@PREV`.
* `C97_saved_again_false`: for a saved column with stage or global scope that is used in two stages : the key stays after the first stage, and the second stage fails with "duplicated saved column". With trx scope, both are prepared.
* `C101_lost_false`: With a lost response, C101 is false: one instance is counted twice and begins to run a stage that requires two, though no other one prepared it.
* `C103_zero_false`: The documented meaning of `instances: 0` fails: the server begins such a stage and never leaves it.
* `C105_same_file_false`: (false as stated): if two stages name the same file, by the configuration or by the same base file, the benchmark never runs to its end: the later stage cannot make its reporters, whatever was reported. (stats/csv.go:30 opens with `O_EXCL`, and a collector is made for each stage, compute/server.go:97.)
* `C105_left_false`: (false as stated): a CSV reporter whose percentiles are wrong leaves its file behind, and then not even the corrected configuration works: a later attempt to make a CSV reporter with this file fails, whatever its options.
* `C105_default_name_false`: (false as stated): the name of the CSV file without option `file` is documented as `finch-benchmark-TIMESTAMP.csv`; it never ends with `.csv`, since the random number comes last. The random number is one or more digits.
* `C108_remote_false`: (false as stated): with statistics disabled every remote instance reports them all the same: to the server, and on its stdout if the config has `stdout` (as it does by default).
* `C109_percent_false`: A percent sign in a trx file does not reach MySQL: `LIKE 'a%'`, in a statement without any data key, is sent as `LIKE 'a%!'(MISSING)`, a different statement, and no error is reported.
* `C109_percent_key_false`: A percent sign takes the value of a data key: the day of the month becomes the value of `@d` and the value for `@d` is missing.
* `C109_extra_value_false`: A data key with two values that is not followed by `@PREV` gives its second value to the next key, whose own value is dropped: `b = @d` is sent with the upper end of the range `@r`.
* `C109_nil_false`: A column that was not scanned (no row matched) or was NULL becomes `<nil>`.
* `C109_quote_false`: A quote within a string value is not escaped: it ends the string, and the rest of the value is SQL. The column got these bytes from MySQL.
* `C110_no_values_false`: A client-id generator whose params have another name than `ids` is made without error and returns no value at all, though its placeholder needs one.
* `C111_burst_false`: not in the code. A limit of 1 per second for the stage does not hold in a window up to a constant: ten clients with a limit of 1 per second each receive ten permits in one instant, all limiters ticking as configured.
* `C112_order_false`: for instances with different durations (possible if stats are reported at the end only): for 100 queries in 1 second on one and 100 in 100 seconds on the other, the line says 200 or 2 queries per second, depending on whose statistics came first.
* `C113_cancelled_false`: for statements that MySQL does not execute: the context is cancelled before the first statement is sent, and it is counted as a query with a response time of 0.
* `C115_no_row_sends_old_value_false`: **Not nil if no row matches.** client/client.go:294-297 says that a column returns nil if no row was read. In the second trx here no row is read, and the client sends the id of the first trx.
* `C115_client_scope_sends_first_value_false`: **Not the value saved last**: with client scope the client sends the first id it read for ever.
* `C115_own_column_sends_old_value_false`: **Not the value saved last**: a statement that uses the column it saves makes the rest of the trx use the old value.
* `C115_statement_scope_sends_nil_false`: **Not a saved value**: a column with statement scope is nil in every other statement.
* `C116_same_name_false`: for trx of the same name, which are accepted: the second file is executed twice, the first one never.
* `C117_environment_false`: if the trx file uses an environment variable: its value is that of the instance, not of the server. The server executes the statement twice, the instance three times.
* `C120_extra_words_false`: for modifiers with too many words : they are accepted, what follows is ignored. `prepare: no` prepares, and a third word after `rows: max offset` makes the offset disappear.
* `C120_missing_word_false`: for modifiers with too few words : `rows:`, `idle:` and `copies:` without a value crash the program (index out of range).
* `C123_cut_false`: negated. A longer body of which the rest is not read before the transport sees the cancellation makes the whole request fail, whatever the number of tries and whatever the server would answer to another: there is no other.
* `C123_delivered_false`: negated. The claim does not hold.
* `C123_file_false`: negated. A remote instance does not get a trx file of which it has not received everything with the headers, and boots no stage that needs the file.
* `C124_short_freq_false`: what it excludes. With collections 100 ms apart (`freq: 100ms`) and a server that does not answer, statistics are dropped and the statistics of a later interval are sent in place of those of an earlier one.
* `C125_all_false`: negation. With any frequency of at least 4 (nanoseconds), there are runs of a stage whose last events are in no report, though Stop says that everything was reported.
* `C125_remote_false`: negation, several instances. If the last report is recent when the server stops its collector, the statistics of a further interval that another instance collected at its own end are in no report, whether they arrive before or after.
* `C126_returns_false`: CTRL-C on the server does not end it: a stage of two instances is interrupted, both of them are told so (205) and one reported its end (200); the server waits for the other one, which never ran, for ever.
* `C127_bytes_false`: What is received has only valid texts, so a value with a text that is not valid UTF-8 (a password in the DSN of the command line can have any bytes) never arrives as it is.
* `C132_other_generator_false`: for trx that configure different generators for the same key, which are accepted: also the second trx uses the generator of the first one, without quotes around the value.
* `C132_next_stage_false`: over stages for keys with stage scope: the key of the first stage stays, and the second stage, which is accepted, uses its generator instead of the configured one.
* `C133_names_false`: for names of instances with a newline: the report has a line more than lines. With a tab: another column. With a bar it cannot be read back.
* `C134_size_eta_false`: for size limits when the size found exceeds the maximum: `lm.max-bytes` is a difference of uint64 (limit/data.go:246), and the line tells that more than 58 years are left when nothing is.
* `C134_rows_eta_false`: for row limits when the rows exceed the maximum: the time that is left is negative.
* `C135_rounding_false`: without the rounding. 57 of 100 events took 20 us, the other events one second: the percentile 57 should be about 20 us. But 57/100·100 is less than 57 in float64, and about one second is reported.
* `C136_wrap_false`: if a part is as large as 2^63 nanoseconds. The sum is computed with 64 bits: two times of 292 years are zero, and not refused.
* `C136_idle_zero_false`: for idle times that are not positive : other than for runtime and interval these are accepted. With zero, the statement is the same as without the modifier, so that it is executed.
* `C137_comma_false`: for commas that do not separate thousands : 1,5GB is accepted, as 15 GB.

## Notes per property

* C02: True for every scope except global, for which the code never creates a generator (C02_global_scope_never_gets_a_generator). The @PREV special key has none by design.
* C04: Scopes up to workload; stage and global are treated by C07.
* C05: Steps are the lock sections and the real generator's call.
* C06: False of the code: client numbers repeat across client groups (C06_clients_of_different_groups_interfere). The partial theorem covers clients with different numbers.
* C07: False of the code: the nil check at data/scope.go:251 is inverted. Two negations are proved for all uses; the partial theorem covers explicit calls.
* C09: Accepted configurations with max <= 0 panic (negation proved); the partial theorem covers all with max > 0.
* C10: In float64 arithmetic, for any standard deviation (infinities and NaN included) and any result of conversions that Go leaves undefined. False if the mean is outside [min, max]; the default mean is (max-min+1)/2, which is often outside (C10_default_mean_outside_range), and for means above 2^53, which are rounded (C10_large_mean_false). The draws are arbitrary rationals.
* C11: Float64 rounding is modelled exactly. False in four ways, each proved: ranges with fewer than one index panic, with one index give NaN, input_max can be one too small, max can be unreachable. The partial theorems prove range and strict monotonicity with rounding for max*input_max <= 2^49, and the full claim in exact arithmetic.
* C12: Negations for size <= 0 and for ranges ending near 2^63; partial for the rest.
* C13: Negations for size <= 0 and for ranges ending near 2^63; partial for the rest.
* C15: Returns is partial correctness: a source that never yields a letter makes the Go loop run forever.
* C17: A second save after a use in the same trx is not seen (negation proved).
* C18: Any number of clients, any combination with other limits. Row counts are int64; the theorems assume max + clients*b < 2^63.
* C19: n wraps at 2^64 as in Go. What MySQL answers is an input.
* C20: False of the code: the rows of SHOW FULL TABLES are closed before they are read, so ANALYZE TABLE has no table names. The partial theorem describes what happens instead.
* C21: Ticks of golang.org/x/time/rate are inputs; C111 adds time.
* C22: Ticks of golang.org/x/time/rate are inputs; C111 adds time.
* C23: False for '-- rows: 0' (typed nil pointer in an interface): negation and panic proved. Partial theorem for positive values.
* C25: Counts, histograms, maxima and error counts in full. False for the minimum: combining statistics without events of a type sets its minimum to 0 (C25_minimum_false); the partial theorem gives the proviso.
* C26: False of the code: error codes that the source lacks keep the destination's old counts (C26_copy_false).
* C27: One percentile in full, with float64 rounding of the frequency; log and pow are inputs (with the code's: C72_percentage, C27_list_code_false). False for lists (C27_list_false): at most one percentile per bucket is found, so percentiles that share a bucket get the next bucket's value or 0.
* C28: Recording one event and reading one buffer are atomic steps of the model.
* C29: False for a single remote instance (C29_single_remote_false).
* C30: False for overlapping or repeated deliveries, each proved; partial for intervals that do not overlap.
* C31: False of the code: Stop always returns true, and with two or more instances it always waits for its timeout unless the local statistics are the last ones.
* C32: Lines are given as a list (the scanner's 64 KB line limit is not modelled). C32_no_line_lost: nothing is dropped or duplicated.
* C33: Partial: one copy has copy number 0 (C33_one_copy_false). Also proved: two copies of a statement with a saved column are refused, and a modifier written :copies recurses forever.
* C34: False if the query has a later comment end (C34_later_comment_false): the template match is greedy. The partial theorem also carries C35's condition on key names.
* C35: False if one key name is the beginning of another (C35_prefix_keys_false). Partial: keys of the template are prefix-free.
* C36: False if one key name is the beginning of another (depends on map order, C36_prefix_keys_false) and for @PREV (C36_prev_false). Partial: prefix-free keys.
* C37: Proved for the assignment of generator values to placeholders in client.Run: each placeholder gets the value the generator of that placeholder returned, as far as a generator returns as many values as it has placeholders; a generator returning another number shifts the rest (C37_miscounted_values_shift).
* C38: Partial: the first word decides; a SELECT after a comment, parenthesis or WITH is not recognised (C38_select_not_first_false).
* C40: DDL client groups run alone unless a configured group name equals the name generated for a DDL group (C40_name_clash_false shows the clash); clients = iterations = 1 for DDL groups is proved without restriction.
* C42: Hypothesis NoEmptyTrx (every trx has a statement) holds for every loaded trx set (C73).
* C43: Shared limits are stored in 32 bits: proved below 2^32; C43_large_limit_false shows 2^32 becomes unlimited. Rate limiters are exactly the tree of C22.
* C44: The atomic counters are uint32 and are incremented once more per client that stops: the limits hold if limit + number of clients < 2^32 (C44_*_partial), and C44_largest_limit_false shows that a limit of 2^32-1 never stops. The limit per client has no such restriction. All interleavings at the granularity of the atomic additions.
* C45: Continue, rollback, reconnect and DDL handling proved. The claim that errors listed as abort stop the client is false: Eabort is 0, so the test errFlags&Eabort != 0 is never true; those errors reconnect (C45_abort_never_stops_false, C45_default_table_partial).
* C46: Proved for statements inside a trx file except the last of a file of several statements, for which the claim is false (C46_last_statement_false): the END mark clears trxActive before the statement is executed. Trx means Finch trx (file), as in the code.
* C47: For every client and every run: statements run on the connection open then; a prepared statement is used exactly for statements marked so and comes from the same text (for loaded trx). On the current connection: true until a reconnect (partial); after one the code is wrong: statements prepared on the closed first connection are used for ever (C47_stale_after_reconnect, C47_reconnect_false).
* C48: For clients whose trx do not begin with idle time: each execution is followed by exactly one record under the trx it comes from, with its class; each failure is counted once unless the context is done. False if a trx begins with idle time (C48_idle_first_false: counted under the previous trx, or a panic).
* C49: done exactly once and last; at most one more call after cancellation, which the cancelled context rejects; stops within a bound if some statement is not idle time; the data limit stops at once. False for clients that only sleep (C49_only_idle_false). What database/sql does with a cancelled context is an assumption.
* C50: Proved while neither the run nor the stage is cancelled, with progress and bounds after cancellation. False with a stage runtime: when it elapses the next exec group is started at once (C50_runtime_false), and a client that is still running is counted for the next group (C50_late_client_false).
* C51: Order of states and statistics proved for executions without two overlapping requests of one instance; with overlapping requests (a client that timed out and tried again) both are false (C51_order_false, C51_stats_false). That refused requests change nothing holds in every state.
* C53: Count of successful acks proved for every execution; that they are from different instances only without overlapping requests of one instance, else false (C53_distinct_false: one instance acknowledges twice).
* C54: False of the code: after a boot error the instance stays in state booting, GET /boot is refused forever, its place is never freed and the stage never starts (C54_never_boots_false); a stale GET /boot can take a place (C54_stale_request_false). Partial: another POST /boot would be accepted.
* C55: Attempts bounded and success exactly for 200 or 205: proved. Same body: only while nothing of it was sent; false otherwise (C55_empty_retry_false), so that a repeated report of a failed boot is a report of a successful one (C55_boot_error_false). How many bytes the transport takes from the buffer is chosen by the environment.
* C56: Proved for files with different base names that the instance does not have. False otherwise (C56_same_name_false, C56_local_false). The server's answer is proved without restriction (C56_served).
* C57: False: the timeout has no effect (C57_unbounded_false). Partial: ends when no clients are left. Proved in the server model: after a stage ended no remote begins to run it, a waiting one is told to reset.
* C58: mysql and params exactly; the rest (qps, tps, runtime...) as far as the base file can set it. False for stats: base wins for freq and report (C58_freq_false, C58_report_false).
* C59: A command line parameter wins over the base file, if the base file has parameters and the stage file does not set it. False otherwise: without parameters in the base file it is ignored (C59_no_base_false), and the stage file wins over the command line (C59_stage_false). --dsn and --database always win (C59_dsn_db).
* C60: Braced references: proved for all texts. Unbraced: for texts in which no reference is a prefix of another one's replacement region; false otherwise (C60_prefix_false). Human numbers are replaced inside words (C60_numbers_false).
* C61: Accepted if and only if well formed, for stages that are not disabled; disabled stages are not checked.
* C62: False: disabled stages are accepted unchecked and run like others (C62_disabled_run_false), or panic (C62_disabled_panics_false). Partial: stages that are enabled run in order up to the first error.
* C63: What the driver reads from the DSN, for names without the separators of a DSN. False: a socket in my.cnf wins over the hostname of the stage (C63_socket_false), a port without host in my.cnf (C63_port_false), a password file of the base file wins over the password of the stage (C63_password_false), user names with a colon (C63_colon_false). The driver (how it splits a DSN) is not part of the repository and is modelled from its documentation.
* C64: False for all inputs: the TLS settings of my.cnf have no effect (C64_ignored_false, C64_required_false). Partial: those of the stage are used.
* C65: Proved. An IPv6 address without brackets is taken to have a port (C65_ipv6_taken_for_port), which is what the pattern in the code says.
* C66: False: max is never returned, negative values are never returned.
* C67: False: not quoted by default.
* C68: False of the code: the goroutine combining a shared limit for an idle client takes permits others need (negation proved).
* C69: False of the code (C69_stop_reports_nothing_false); true of reports that are not forced.
* C71: False on stdout from the second report on (C71_stdout_false), for error counts only; true for CSV.
* C72: For float64 arithmetic with the code's constants, for any math.Log with an error of at most one unit in the last place (LogSpec), and with Go's math.Pow modelled for integral exponents. Negative latencies (NaN) are not modelled. C72_real_*: over the real numbers for any factor.
* C76: First half proved; second half only for what was written (copies: 0 removes a DDL statement and keeps the mark: C76_removed_ddl_false).
* C77: Names and order of outputs after the save-columns modifier.
* C78: True except while preparing and while rolling back, where the code wraps the error with %s and it is reported (C78_prepare_false, C78_rollback_false).
* C79: Counts proved for every client and run. Ordering for trx scope needs a first trx that does not begin with idle time; else false (C79_idle_first_false).
* C80: False: the check is never called (C80_unchecked_false). Partial: settings that pass the check are used completely.
* C82: False: an invalid DSN panics (C82_invalid_dsn_false), also a database name with a slash (C82_db_slash_false). Partial: any other settings do not panic.
* C83: C83_replaced_partial: the settings other than hostname, socket, iter, iter-clients and iter-exec-group are the interpolation of what was written; C83_undefined: a variable without value is refused; C83_forgotten_false, C83_iter_refused_false: those five settings are never interpolated, and iter settings with a variable are refused. YAML decoding is not modelled.
* C84: C84_order_partial: holds if no param refers to a param. C84_order_false: if a param refers to another one, the result depends on the order of the map.
* C85: Lists as documented with decimal numbers from 0 to 100: proved (C85_listed). Range of accepted values: except NaN, which is accepted (C85_nan_false). The documented P999 is refused (C85_default_refused_false). strconv.ParseFloat is an input; assuming that it rounds decimal numbers correctly, the percentiles in use are the written ones to the precision of float64 (C85_numbers).
* C86: Header and line for every statistics and list of percentiles; for names of instances without comma (CSV), tab or percent sign (stdout), else false (C86_csv_comma_false, C86_stdout_percent_false). The text of floats and float division are inputs; alignment by tabwriter is not modelled.
* C87: As configured if both options are set. The defaults are not the documented ones (C87_default_false, C87_nothing_false).
* C88: Proved for every client and run of the client model.
* C89: Proved for every client and run of the client model.
* C90: Proved for every client and run of the client model. That a saved column yields the scanned value is C17.
* C91: That nothing runs is proved. False that every stage is tested with remotes: after a remote joined, no other stage is ever offered (C91_next_stage_false), since cfg.Test is never set and the old stage's run signal is not given.
* C92: Proved for every user name and password (also in a password file or my.cnf), none of them empty. The driver (ParseDSN) is modelled from its documentation. Debug logging is not covered.
* C93: Proved for every run of the model of Client.run; requests are atomic here, retries are C55.
* C94: Proved: a failure to prepare the stage is reported, and the end of every run. False for failures before that (no file, no directory, no collector: C94_silent_false, the server waits for ever) and for errors of the run, and the exit status is always 0 (C94_run_error_false).
* C95: Proved for the models of the instance and of the server; how soon is C129. Assumes the instance still belongs to the current stage; the others get 410, which counts as lost.
* C96: Order, at-most-once, the drop rule, draining on Stop and absence of panics are proved. The values are proved only if no interval waits when the next one is collected; otherwise a waiting interval is sent with the numbers of a later one, because the queued copy shares the statistics (C96_values_false). Not modelled: the time limit of Stop, the data race while encoding, retries (C55).
* C97: Proved if no statement saves the insert id in a key with global scope or in @PREV; these crash (C97_global_insert_id_false, C97_prev_insert_id_false). A saved column with stage or global scope cannot be loaded again by a later stage (C97_saved_again_false). Contrary to the documentation of --test, Prepare neither prepares SQL statements nor executes USE for the default database; both are done by Client.Connect (C79, C89).
* C98: Proved for every stage that Prepare accepts.
* C99: Proved for maps as references in a memory (Model/Load): the heap program equals the composition of the pure functions of C58, C59, C84 and C61.
* C100: Proved. CTRL-C during a stage that returns no error ends with exit status 0 though later stages are not run. The program crashes if it is started without even its own name as argument (last example in Props/Boot).
* C101: Proved for executions in which the requests of one instance do not overlap: responses are lost only after the request was handled, instances may give up at any time, and the server may be stopped while it waits for instances to boot. Otherwise false: an instance that sends POST /boot again while the first one is being handled is counted twice, and runs a stage for which another instance is missing (C101_lost_false). Not covered: the response to GET /run cannot be written. CTRL-C on the server while a stage runs is C126. One process per instance name.
* C102: Proved as a possibility in every reachable state (without losses): from everywhere there is an execution to the end. That it is taken (fairness, time limits) is not modelled. A failure in the meantime blocks the stage (C102_failed), whether it is reported or not.
* C103: Proved. That instances: 0 works with the local instance is false (C103_zero_hangs, C103_zero_false): the send of the local ack to a channel without buffer blocks, and is not in a select with the context.
* C104: Proved. Writes are assumed to succeed (no full disk) and nobody else changes the files meanwhile.
* C105: Proved for stages that name different files, none of which exists. Otherwise false: stages that name the same file (as with csv in the base file _all.yaml) never run to the end (C105_same_file_false); wrong percentiles leave an empty file, because of which the corrected configuration fails as well (C105_left_false); the default name never ends with .csv (C105_default_name_false).
* C106: Proved.
* C107: Proved. log.Fatal is the end of the process: a remote instance does not report the error to the server.
* C108: Proved for the server and the local instance. False for remote instances, which do not look at stats.disable (C108_remote_false).
* C109: Proved for statements without percent sign, with values that are not nil and as many @PREV as the generators have values (and as C36 requires). Otherwise false: the statement is always a format of fmt.Sprintf, so that LIKE 'a%' is sent as LIKE 'a%!'(MISSING), even without any data key (C109_percent_false), or a percent sign takes the value of a key (C109_percent_key_false); an extra value goes to the next key (C109_extra_value_false); an unset or NULL column is sent as <nil> (C109_nil_false); quotes in a column value are not escaped (C109_quote_false). What package fmt does with flags and other verbs is any function.
* C110: Proved, except that a client-id generator with params but without ids is accepted and returns no value (C110_no_values_false).
* C111: The constant is 3 and two more for each limiter combined with the one in question, at most the number of execution groups, client groups and clients (C111_behind_bound): every combination saves a permit in its goroutine and one in its channel. Partial because a constant independent of the number of clients does not hold: ten permits in one instant for a stage limit of 1 per second (C111_burst_false). The token bucket of golang.org/x/time/rate is modelled from its documentation with exact arithmetic (burst 1, Wait in a loop).
* C112: Proved if all instances of a report have the same seconds, for durations of more than 0 ns and less than 2^63 ns, counts up to 2^53 and rates up to 2^62. With different seconds (possible if stats are reported at the end only) the rates are those of all queries in the seconds of the instance that came first (C112_order_false). Without any time the quotient is infinite and its conversion is not defined by Go (C112_no_time).
* C113: Times are inputs of the steps (a clock that does not go back). Partial because a statement that is not executed, since the context was cancelled before or while it ran, is recorded like any other: a stage that ends counts up to one query too many for each client (C113_cancelled_false).
* C114: For all clients that the allocator makes (Staged), for first stages prepared from trx files (C114_prepared...) and for every stage of a benchmark, whose data keys have the same scope in all stages (C114_benchmark...). Value functions of one statement are called in one step. Partial because of known defects: with trx scope a trx must not begin with idle time (C79_idle_first_false), keys of global scope get no generator (C02), and a key that returns fewer or more values than it has places shifts the values after it, so C114_placeholders_partial assumes that the numbers agree (C37). Saved columns are C110, scopes above client C05 and C06.
* C115: For every stage of a benchmark: C115_benchmark.... Partial: with trx scope a trx must not begin with idle time (C79_idle_first_false); scopes above client are C05 and C06. False of the code, with witnesses: a trx that reads no row sends the value of an earlier trx, though the comment in client.go says nil (C115_no_row_sends_old_value_false); with client scope the first value is sent for ever (C115_client_scope_sends_first_value_false); a statement that uses the column it saves makes the rest of the trx use the old value (C115_own_column_sends_old_value_false); a column with statement scope is nil in all other statements (C115_statement_scope_nil_partial, C115_statement_scope_sends_nil_false).
* C116: Partial: the statements of a trx are those of its file only if no two trx of the stage have the same name; such stages are accepted (file names without directory are the default names), the last file is then executed for both and the first never (C116_same_name_false). That preparing succeeds has the insert id exception of C97.
* C117: Partial: no two fetched files have the same base name and files that the instance has already are those of the server (C56 is false otherwise); instance and server have the same environment variables and system parameters, because variables in trx files are replaced on the instance (C117_environment_false). JSON encoding of the configuration is not modelled.
* C118: Milliseconds are the sleeps of the last wait; starting goroutines and writing the log take no time in the model. The wait for the final statistics is C31.
* C119: Partial: absence of panics and with it that a client completes are proved for trx files that do not begin with an idle entry; with one, the client can panic (C48_idle_first_false). Order and idle entries are proved for every client and every run. How long a client sleeps or waits is not modelled.
* C120: Partial: modifiers with too many words are accepted and the rest is ignored, so that prepare: no prepares and rows: 100 40 rows loses the offset (C120_extra_words_false); rows, idle and copies without a value crash the program (C120_missing_word_false); limits are stated for positive values (for zero see C23). Durations and byte sizes are those of time.ParseDuration and humanize.ParseBytes, which are not modelled. For copies see C33.
* C121: Partial: what is recorded is stated for trx files that do not begin with an idle entry, because their statements are attributed to another trx (C48_idle_first_false); and for runs in which no statement failed and no statement has a data limit (for these see C17, C23 and C119). Iterations begun that an error cuts short are counted (C121_shared_limit).
* C122: net/url's QueryEscape and parseQuery are modelled from their source. The id of the stage is not escaped (C122_raw_id); xid ids need no escaping.
* C123: Partial: false of the code. The context of the request is cancelled before the body is read; a body that came with the headers is delivered (C123_arrived_partial), a longer one may end the request with an error that is not retried (C123_cut_false, C123_file_false). That the rest of a body is lost when the transport sees the cancellation is taken from the documentation of net/http.
* C124: The time between collections is an assumption: with stats.freq it is the frequency, and for the last one at least half of it (stats/collector.go:Stop). For shorter times see C124_short_freq_false and C96.
* C125: Partial: false of the code. If the stage ends less than half of stats.freq after the last periodic report, Stop does not collect again and what was recorded since is in no report, though Stop returns true (C125_all_false, for several instances C125_remote_false): up to 2.5 s with the frequency of 5 s. Everything before that is reported once (C125_once, C125_tail_partial); without a frequency everything is (C125_no_freq).
* C126: Partial: false of the code. An instance that asks to run (GET /run) after the interrupt is told to reset and leaves the stage without an acknowledgement, for which the server then waits (C126_run, C126_returns_false, C126_hangs); the process is ended by the exit 7.5 s after CTRL-C, which is not modelled. If all instances that did not report yet are running, the server can leave the stage when they report (C126_leaves_partial); each is told at its next ping (C126_ping) and stops its stage (C126_ping_cancels).
* C127: encoding/json (Go 1.20) is modelled from its source: escaping, UTF-8, numbers, the decoder with its matching of keys to fields. The text of a float is any valid number and is compared as text. Bytes that are not UTF-8 (possible in --dsn) do not arrive as they are (C127_bytes_false); all other values do (C127_stage, C127_stats). C127_conf is about the configuration as in the other theorems (C116, C117): what is decoded is the encoding of it and of no other.
* C128: Delays of timers, and the time for printing and for the ticker to stop, are limited by hypotheses of C128_local and C128_remote. C128_local is about the instance of the server and a server without remote instances; a server with remote instances also waits for them (C126), and then the forced exit is what ends it (C128_ends). Preparing a stage is not covered.
* C129: Delays of timers, and the time for printing and for the ticker to stop, are limited by a hypothesis of C129_ended. Attempts end with the timeout of the HTTP client (net/http). A server that refuses connections for half a second counts as lost (example).
* C130: For runs without a runtime limit and without CTRL-C; these are C50, C102 and C128. The end theorem is for schedules in which everybody gets a turn again and again (the Go scheduler and the database are fair) and connections can be made again and again (a client tries without end, so without connections the stage does not end: C130_unconnected); completeness and order hold in all schedules. Shared limits plus the number of clients are below 2^32. Trx files that begin with an idle entry are excluded from completeness, they make a client panic (C119).
* C131: For runs without a runtime limit and without CTRL-C. The number of rows an execution affects is an input, at most R. Row limits and R times the number of clients are below 2^61, so that counters cannot overflow; rows: 0 (nil limit) is C23. What size limits answer is an input. Trx files that begin with an idle entry are excluded where completeness is claimed, they make a client panic (C119).
* C132: Partial: false of the generator when two trx configure different generators for the same key. Validate compares only the scopes, so this is accepted, and both use the generator of the trx that is loaded first (C132_other_generator_false). Proved when all trx that configure the key agree (C132_generator_partial); for the scope without this hypothesis (C132_scope). Whatever generator is configured for a saved column, the column generator is used. A key with stage or global scope stays for later stages, which then use its generator instead of the one they configure (C132_next_stage_false); all other keys are of the stage itself (C132_stages). Formats of generators are an input (data.Make).
* C133: Partial: false for names of instances with a newline, tab or bar (C133_names_false); a percent sign is C86. Proved for other names. text/tabwriter is modelled from its documentation and source, which are not in this sandbox: every character has width 1, no vertical tabs and form feeds, writes do not fail. How a float looks and that the list of percentile values is as long as that of the percentiles are hypotheses as in C86. Errors of the combined line are an input here.
* C134: Partial: the time that is left is false when the maximum is exceeded. For sizes, lm.max-bytes is a difference of uint64 and the line tells years (C134_size_eta_false); for rows it is negative (C134_rows_eta_false). Proved when it is not exceeded, something was written in some time, and it takes less than 292 years. Floats are exact in this model, and the two times that a line takes are one.
* C135: Partial: false at the exact percentage, since n/N*100 is rounded: with 57 of 100 events at 20 us and the others at one second, P57 is about one second (C135_rounding_false). Proved exactly for up to 2^40 events for the default percentile 99.9 and all whole percentiles except 29, 57 and 58 (C135_exact, C135_exact_for, for several clients C135_combined_exact), and for every percentile to 300/2^53. The same from the text of the option (C135_option). One percentile at a time (lists: C27).
* C136: time.ParseDuration is modelled from the source of Go 1.20. Partial: each part at most 2^63-2 ns; a part of 2^63+2 ns or more is refused (C136_too_long, C136_setting_too_long); the sum is computed with 64 bits, and two parts of 2^63 ns are accepted as zero (C136_wrap_false). That nothing else is accepted is proved for every text (C136_only, C136_runtime). Idle times may be zero or negative: zero executes the statement (C136_idle_zero_false).
* C137: humanize.ParseBytes is modelled from the source of go-humanize. Partial: commas are ignored wherever they are, so that 1,5GB is 15 GB (C137_comma_false); sizes within one part in 2^51 of 2^64 bytes may be accepted or refused, by rounding. That nothing else is accepted is proved for every text (C137_only).
