# Design: a Lean 4 model of joeholley/experiment24 (Open Match 2 core)

## Approach

The model is a set of small, total, computable Lean functions, one per Go
function or code section, each citing the lines it models.  Run-time panics are
values (`none` in the `Go` result type), nil pointers are `Option`, Go maps and
`sync.Map`s are association lists whose iteration order is a universally
quantified permutation, clocks are arguments (one reading per `time.Now()` call),
goroutines and channels are state machines whose schedule is universally
quantified.  External systems (Redis, gRPC, protobuf) are explicit small models
or parameters, listed under "Trusted base".

Properties are theorems in `lean/Verif/Props/*.lean`; their vocabulary is in
`lean/Verif/Spec/*.lean`, which does not import the code model's helper
functions.  When the code violates a listed property, the violation is itself a
theorem (suffix `_refuted`) with a concrete execution, and the part that does
hold is a theorem with suffix `_partial`.

## Layout

`lean/Verif/Model` is the model (every definition cites the lines it models),
`lean/Verif/Spec` the vocabulary properties are stated in, `lean/Verif/Lemmas` the
proofs' machinery, `lean/Verif/Props` the property theorems with, beside each, an
`example` that meets its hypotheses.  `lean/Verif/Conformance` runs the
repository's own test cases on the model.  `MANIFEST.json` maps properties to theorems.
`seeded/LOG.jsonl` records how the theorems fared against wrong programs.

## Modules: what is modelled, what is simplified

| module | models | simplifications, and what is left out |
|---|---|---|
| `Go` | byte strings, maps as association lists, slices, `strings.Split`, `strconv.ParseInt` (base 10 and base 0) and `FormatInt`, `time.Time.Add/After/Unix`, saturating `Duration` | characters are bytes; iteration order of maps is a universally quantified permutation; `int` overflow of counters is ignored where said |
| `F64` | IEEE-754 binary64 comparison on bit patterns, NaN, signed zero | no arithmetic |
| `Proto` | messages.proto types, `timestamppb` `IsValid`/`AsTime`/`New` | `Extensions` are a map to `google.protobuf.Any` bytes |
| `Filter` | core/internal/filter/filter.go: `In`, `ValidatePoolFilters` | log lines |
| `Store` | datatypes/store.go, memory/main.go `getReplId`, `SendUpdates` | counter overflow |
| `Redis` | redis.go `SendUpdates`, `GetUpdates`; XADD `*`, XTRIM MINID, XREAD COUNT; lagging read replicas; redigo's pipeline errors and pool | replies Redis cannot give for these commands; BLOCK is a poll that may return nothing; bytes and log-in are in `Resp` |
| `Cache` | replicatedticketcache.go: applying updates, the expiration closure; cache/metrics.go counts | the clock is read once per `Range` callback |
| `Incoming` | the drain loop and its timer | durations of single steps are parameters |
| `Outgoing` | the outgoing queue, a batch at a time | |
| `Pipeline` | the same queue, the in-memory replicator, the polling goroutine and the handlers, a channel operation at a time | Redis calls are taken to return |
| `Snapshot` | core/main.go `setDifference`, two `Range`s interleaved with cache writes | `sync.Map.Range` visits each key present throughout once, others at most once |
| `Handlers` | CreateTicket, ActivateTickets, DeactivateTickets, CreateAssignments, `validateTicketIds`, `addStateUpdateErrorDetails` | the RE2 engine (the one pattern is modelled); log lines |
| `Wire` | protobuf wire format of Ticket and Assignment, both directions, with UTF-8 checks, unknown fields, repeated fields and messages in pieces | nesting limit of the decoder; groups (skipped by Go, an error here); the refusal of varints beyond ten bytes or 64 bits and of field numbers 0 and from 2^29 (in `Requests`) |
| `Messages` | the same for profiles, pools, filters, rosters, chunked requests and matches | requests and responses (in `Requests`) |
| `Invoke` | InvokeMatchmakingFunctions: input checks, filling pools, sizes, chunking; mmf/server `GetChunkedRequest` | marshalled sizes computed field by field as `proto.Size` does |
| `Relay` | its goroutines: one per MMF, fan-in, deactivation, metric | dialling and TLS; what a stream delivers is a script; the data race on `err`, which :641 logs from another goroutine |
| `Watch` | WatchAssignments and its goroutines | |
| `Mmf` | functions/golang/{soloduel,battleroyale,teamshooter}, mmf/main.go | the gRPC server around them |
| `Matchmaker` | matchmaker-example/main.go: activation batches, cycle loop, re-queueing, HTTP stream decoding (`fmt.Fscanf`) | metrics, flags |
| `WaitGroup` | the same `activateTickets`, with the panics of Go's `sync.WaitGroup` | `Done` checks and wakes in one step |
| `Example` | the same file: mock players, the profile, accepting and rejecting matches, `proxyCreateTicket` | the HTTP transport |
| `Logging` | logging.go, core/server.go stats handler | logrus |
| `Config` | config.go, viper's lookup and cast's conversions, the places that read a value, the arguments of XREAD, main.go's choice of replicator | `GetDuration` (see `Timeouts`), OpenTelemetry and knative variables |
| `Gateway` | core/pkg/api/v2/api.pb.gw.go: routes, request decoding cases; grpc-gateway's `ServeMux` | JSON (in `ProtoJson`), headers routing does not look at |
| `Serve` | the addresses of MMFs (core/main.go:527-552), mmf/main.go and mmf/server's port, the example's specs, the clock text in match ids, the per-call histograms | what gRPC makes of an address; time zones (the local clock is a parameter) |
| `Measure` | what an expiration cycle counts, logs and records | OpenTelemetry's aggregation |
| `Listen` | core/server.go `start`, core/main.go:81-84, core/metrics.go:84-93: the four listeners and the order in which they get their ports, the pages of `http.DefaultServeMux`, the port the gateway dials, and the error variable shared by three goroutines (sequentially consistent) | how Go's `net` reads a port (a parameter); escapes in paths, methods other than GET on the two debug ports |
| `Latency` | replicatedticketcache.go:74-127 with time and with the handlers that wait at the unbuffered channel | the queue's own work takes no time; timers fire on time; a call of the storage takes at most D |
| `Lag` | replicatedticketcache.go:134-359 with time, Redis as the storage: the goroutine that reads, the channel, the one that sleeps, applies and expires | reads succeed; a read takes at most R once there is something to read, a cycle at most E; the 500 ms timer does not fire |
| `Outage` | `Lag` with times during which reads fail (redis.go:254-258) | an outage ends when the first read begins that succeeds; the pool has no limit |
| `Delay` | `Latency` and `Lag` for any number of instances with one clock and one stream; Redis executes the XADDs of a batch one by one, among those of others (redis.go:173, :188) | as for the two; batches are written without errors and not trimmed before they are read |
| `Timed` | what the updates of `Delay` are, and what an instance does to its cache in an execution of `Delay` (replicatedticketcache.go:242-359) | an expiration cycle is one step of the cache's history, with its own visits and clock readings |
| `WatchTime` | WatchAssignments with time (core/main.go:805-887), and beside the instances of `Delay` | goroutines' own work takes no time, timers fire on time, and `stream.Send` takes at most a given time |
| `Stop` | how an instance stops, and clients that give up: signals, `grpc.Server.Stop` with calls in progress, the outgoing queue until the process ends (core/server.go:28-77, core/main.go:79-135, replicatedticketcache.go:74-127) | writes succeed; grpc v1.62.1 `Stop` closes all connections and does not wait for handlers |
| `Duplex` | core/main.go:556-603 against a function that receives and sends as it likes; flow control as an arbitrary predicate | the deadline is no step: a state without a step lasts until it |
| `Requests` | the requests and responses of the API as bytes, and the refusal of bytes that are no message, at any depth, with the limits on varints and field numbers | unknown fields (dropped here, kept by Go); groups (skipped by Go, refused here); nesting limit |
| `Descriptor` | core/pkg/pb/v2: the embedded descriptors byte for byte, the type tables and structs of messages.pb.go, the service tables and paths of the gRPC files; how protobuf-go derives its readers from them; grpc-go's routing | getters, the compressed descriptors, file options, the texts of gRPC's refusals; protobuf-go's own types (Timestamp, Any) are given |
| `LogLines` | the lines that logrus makes of a record with the JSON and text formatters of logging.go:38-46; what reading the configuration (config.go:125-136) and `CreateTicket` write | the stackdriver formatter, the other lines; logrus 1.9.3, encoding/json and strconv from their documentation, `strconv.IsPrint` a parameter |
| `Closing` | the line that core/main.go:133 writes at the end, its four counts taken while the cache is written | the dump of OM_VERBOSE |
| `CycleLines` | the lines that the loop of matchmaker-example/main.go:191-378 writes | the lines before the loop, those of debug, the last words of a process that ends while it reads an answer |
| `Json` | JSON texts as protobuf's encoding reads and writes them: UTF-8, escapes, number grammar, first value of a body, json.Marshal's escaping of streamed results | limit on nesting (10000 levels) |
| `ProtoJson` | protojson for all messages of the API; the gateway's decoder and forwarding of streams; what the example posts and reads over REST | decimal text of doubles and the set of known extension types are parameters; text after a number in a string and odd times that `time.Parse` lets pass are refused; map entries unsorted |
| `Frontend` | matchmaker-example/main.go: `Run`, `proxyCreateTicket`, `restfulGrpcPost`; the gateway's error bodies | pauses, tickets per second, logs |
| `FailedCalls` | the error lines of `activateTickets` and `proxyCreateTicket` for each way their calls come back | failures of `protojson.Marshal`; the other fields of a line |
| `Errors` | how a handler's error reaches clients: `google.rpc.Status`, grpc-message's percent-encoding, trailers, the gateway's HTTP statuses and error bodies | grpc-go 1.62.1 and grpc-gateway 2.19.0 are general knowledge: their source is not in /repo. Left out: base64 of binary headers, the size limit of headers (16 MB), errors of the connection; a storage error that is a context's time-out would have code DEADLINE_EXCEEDED, here UNKNOWN |
| `Resp` | redis.go's dialling, `SendUpdates` and `GetUpdates` down to bytes: redigo's commands (RESP), how Redis takes commands out of what has arrived, replies and redigo's reading of them, AUTH, connections that break after any byte in either direction | redigo 1.9.2 and Redis are general knowledge: their source is not in /repo. Inline commands (here the connection is closed), Redis commands and options that om-core does not use (here refused), overflow of lengths in replies, TLS |
| `Scrape` | the callback of cache/metrics.go:93-106 against the writes of replicatedticketcache.go:340-343; the attributes of server.go:128-140 as time series | memory ordering of the unsynchronised variables (each access atomic and in order); the SDK's optional limit on attributes, which is off by default (general knowledge); the attribute `mmf.name` of the match counter |
| `MainLoop` | matchmaker-example/main.go: the flags and the loop of `main`, over gRPC and REST | logs, the pause after an empty cycle, starting the MMF servers. That an unreachable server fails the call, that errors of a server come with `Recv`, and the form of the gateway's error line are general knowledge of grpc-go, net/http and grpc-gateway: their source is not in /repo |
| `Timeouts` | core/main.go:170, :507, :562, :859, the waits of the cache, redis.go:43-93: configured times as int64 nanoseconds; durations as text; batches and polls under a time limit | `time.ParseDuration`, cast's `ToDurationE` and what redigo and net do with a limit are general knowledge of them: their source is not in /repo. The floating-point arithmetic of fractions is a parameter. Left out: idle connections that are closed, the PING of TestOnBorrow |
| `System` | any number of instances over one Redis stream: calls, batches, partial failures, polls (also of lagging replicas), expiration, crashes, restarts | one clock bound for all; a Redis failover that loses acknowledged writes |
| `Pools` | the same with the connection pools of redis.go:43-93, whose connections are never given back | redigo's pool is general knowledge: its source is not in /repo |
| `Limits` | the 4 MiB limit on received gRPC messages, on requests, chunks and matches | grpc-go's default limit and what happens beyond it are general knowledge: its source is not in /repo; map entries in the order sent |

Not modelled: the generated protobuf and gRPC code beyond its tables (`Descriptor`) and what it does to the bytes (`Wire`, `Messages`, `Requests`) and to JSON (`ProtoJson`), OpenTelemetry set-up
(core/metrics.go, matchmaker-example/metrics.go), the contents of the profiles, authentication of MMF calls, cancellation of contexts (no handler looks at its context except to
pass it to the MMF call).

## How each kind of property is proved

- Decision logic (C01–C05, C07–C09, C14–C18, C56, C57, C68, C77, C86, C87, C93, C98–C103, C105, C106, C109, C113, C114, C116, C117, C122, C124, C129, C130, C145, C147, C150, C151, C153): the function is total
  and computable; the theorem relates it to a separately stated specification by cases
  and induction over the filter or id list.  What counts as a number (C86) and as text (C93) is
  a grammar of its own (`Spec/Numbers`, `Spec/Text`), met exactly; so is JSON and what it says
  of a message (C109: `Spec/Json`, `Spec/ProtoJson`).
- Round trips (C06, C21, C38, C39, C65, C85, C107, C110, C111, C119, C120, C121, C149, C152): encode then decode, for all messages; `Wire`
  gives a concrete codec satisfying the laws the others assume.
- State machines (C12, C13, C19, C20, C22–C31, C36, C37, C60, C62, C144, C154, C155): invariants by
  induction over arbitrary lists of operations or events; C23, C24 are refinements to a
  last-operation-wins specification.
- Concurrency (C25, C28, C43–C49, C58, C59, C64, C71–C75, C80–C82, C108, C112, C115, C123, C125, C131, C132, C135, C136, C148): each goroutine's
  communications are steps, the schedule is a universally quantified list of labels;
  safety by invariants, liveness as a decreasing measure plus absence of stuck states.
- Distributed system (C03, C69, C70, C79, C83, C95, C96, C104, C126, C137, C138, C139, C140, C141, C142, C143, C146): one transition system over all histories.
  `Props/OwnBatches.lean` and `Props/OwnRounds.lean` restrict the conditions of C69, C70, C88, C95, C96, C104, C137 to the batches that carry the
  calls' own updates.
- Whole rounds (C84, C88–C92, C118, C133, C134): the theorems on pools, chunks, MMFs and relay are composed; the
  only glue is that the messages received are those sent up to map order.
- Size bounds (C40–C42, C127, C128): arithmetic on the wire format.

## Where the code disagrees with a property

Each of these is a theorem ending in `_refuted` with a concrete execution; what does
hold is the theorem ending in `_partial` beside it.

| | the code |
|---|---|
| C02 | compares creation times the wrong way round (filter.go): a filter with start before end admits nothing; a bound left out counts as 1970 |
| C08 | a creation time in the future extends a ticket's life past the TTL |
| C10 C69 | redis.go pairs reply *i* with update *i* although refused updates got no reply, so a caller gets another caller's id |
| C11 C70 C95 | a lost Redis connection is only logged: the caller gets OK and an empty id, or OK for a deactivation that never happens |
| C95 | errors when the tickets of a match are deactivated are only logged: the match is handed out, its tickets stay in the pools |
| C16 | the id pattern is not anchored, and ids without a dash are dropped without an error |
| C17 C70 | if Redis refuses an update with a text that is not UTF-8 (say, naming a user in Latin-1), `WithDetails` fails and yields a nil status: ActivateTickets and DeactivateTickets say OK |
| C18 | Redis error responses carry no id, so details overwrite each other under the empty key |
| C25 | a snapshot overlapping a creation can return the new, inactive ticket |
| C32 C33 C74 | Redis ids are milliseconds but are read, and the trim threshold written, as seconds: nothing ages out, nothing is trimmed, watches wait for millennia |
| C34 | an unknown stream entry becomes a ticket with the empty id; a short `assign` entry panics |
| C35 | connections are never returned to the pool; with the default limit the 501st call blocks for ever |
| C126 | so an instance that has asked Redis 500 times for updates (when idle that is after about twelve minutes) never hears of another one, and one that has sent 500 batches never answers a call that must be stored |
| C36 | expired tickets are served until the next expiration cycle |
| C37 | the 500 ms limit of the drain loop is restarted on every update |
| C41 | the 4 MB chunk budget counts tickets but not their framing: up to five bytes a ticket, 37 and twice its name a pool, beyond it |
| C127 | CreateTicket accepts tickets that are too long for any chunk: one such ticket, and no bundled function makes a match for any profile that admits it |
| C128 | a match whose tickets add up to more than 4 MiB never reaches om-core, nor do the function's later ones; its players stay in the pools and are matched like that again |
| C42 | pool name, filters and extensions are not forwarded |
| C133 | the matches of several functions are passed on without looking for players in two of them (the comment at core/main.go:616 leaves that to the matchmaker) |
| C134 | the snapshot is in the order of a `sync.Map`: of an odd number of players the same one can be left over for ever |
| C135 | om-core never closes its side of a function's stream: a function that reads to the end waits for the deadline |
| C136 | om-core sends the whole request before it receives: a function that answers early can hang together with it |
| C137 | an instance answers calls while it still replays the stream, and then offers players who were matched before it was started |
| C138 | an ActivateTickets that is repeated because its answer was lost puts a player back into the pools who was matched in the meantime |
| C141 | `Stop` (core/server.go:76) waits neither for the calls in progress nor for the outgoing queue: clients are told `Unavailable` for updates that are stored, and of one call some updates may be stored and others not |
| C144 | as C32: of every ticket that is not in the pools last, and of every assignment, the entry stays in the memory of all instances for ever |
| C145 | an illegal pool is only logged (core/main.go:402-407): the matchmaker is told OK, and its functions see what they would see of a pool without players |
| C147 | over REST the example looks at no status line, and `err` is another variable where it is logged (matchmaker-example/main.go:445-472): all errors look alike; the tickets of a failed activation are dropped |
| C151 | with OM_LOGGING_LEVEL=debug `config.Read` dumps all settings (config.go:131-136), the Redis passwords among them |
| C152 | on a terminal logrus' text format writes messages as they are; core/main.go:155 puts the client's ticket id into one: an id with a newline forges a line |
| C153 | config.go:132 compares the level as written with "debug": with "DEBUG" or "trace" the log has the words "configuration:" and nothing after them |
| C154 | the inactive set also holds ids that have no ticket (as C62): active and inactive do not add up to the tickets |
| C155 | the line after a cycle prints the `err` of main, not that of the call: always `<nil>`; over REST the error that ends a stream counts as a match and only shows as a part that could not be read |
| C45 | the handler can return while the last match is still in the fan-in goroutine |
| C46 | a match without tickets, or a stream failing after a match, can panic the process; nothing else can (`C46_crash_exactly`) |
| C47 | the wait for deactivation looks once and then returns |
| C104 | deactivations come back through the stream, so a round started before that can match the same players again; OM_MATCH_TICKET_DEACTIVATION_WAIT does not prevent it (C47) |
| C97 | errors of `stream.Send` are dropped: a matchmaker that has gone loses matches whose tickets stay deactivated |
| C49 | MMF failures are not reported to the caller |
| C51 | a ticket in two pools is matched with itself |
| C55 | a client that sends a pool without participants in two chunks panics `GetChunkedRequest` |
| C57 C70 C96 | CreateAssignments returns OK whatever happened |
| C59 C75 | after a timeout the watch goroutines send on a closed channel |
| C61 | the watch gauge is raised, not lowered, on timeout |
| C62 | the active gauge is off by the inactive ids that have no ticket |
| C64 | `WaitGroup.Add` runs inside the goroutine |
| C125 | for the same reason more than 500 tickets to activate can make Go's `sync.WaitGroup` panic, which ends the example matchmaker |
| C66 | re-queueing more than 10000 tickets blocks the loop that would drain them |
| C67 | the loop stops at the fourth empty cycle, not the third |
| C71 | the match metric counts one too many per MMF |
| C76 | a blank inside a streamed result ends the example matchmaker |
| C77 | `IsDebugEnabled` reads a key that is never set |
| C88 | matches meant to be rejected one in a hundred are rejected two in a hundred (`rand.Intn(100) <= 1`) |
| C90 | the three MMFs share their pools, so a player of an accepted match can also be in a rejected one and is re-activated |
| C91 | the battle-royale function needs a pool "competitive" that the example profile lacks |
| C94 | a made-up id with a time of the future prolongs the watch for up to 292 years |
| C99 | a function spec without a type is one of type REST, which is not implemented: the function is not called, the call returns OK |
| C101 | match ids name neither the profile nor the run, and the clock in hundredths of a second: two runs at the same time repeat ids |
| C102 | the MMF server cuts PORT to 32 bits, so 4294967297 is port 1 |
| C103 | the per-call metrics count failed updates, and no metric counts the deactivations of matched tickets |
| C105 | an expiration cycle of less than a millisecond is recorded as 0; its three counters are registered (metrics.go) but never recorded |
| C106 | with PORT=0 gRPC gets a port from the system, but the REST gateway dials port 0; with PORT=2223 or 2224 om-core's own metrics or profiling server competes with gRPC for the port, and the process may end |
| C108 | `start` and the goroutines of both servers share one variable `err`: registering the gateway can set it back to nil between a failure of the gRPC server and the test of it, and the process stays up deaf |
| C129 | a metrics server without its port prints the error and is given up; om-core runs without metrics |
| C130 | the metrics server on all addresses (:2223) and the profiling server on localhost:2224 both serve `http.DefaultServeMux`, so heap contents, stacks and the command line are available to every machine at :2223/debug/pprof/ |
| C109 | a ticket with an extension of a type that is not linked into om-core cannot be created over REST |
| C110 | likewise a match with such an extension ends the REST stream, and the matches after it are lost |
| C111 | see C76: a blank in any string of a match ends the example; a request that cannot be written is posted as an empty one |
| C113 | over HTTP the example calls localhost:58081 whatever -omhost says |
| C114 | the example ends when om-core is not there or, over REST, refuses a call (status other than 200) or ends the stream with an error whose message has a blank; with a message of one word the error is counted as a match |
| C116 | OM_REDIS_POOL_IDLE_TIMEOUT is also the time for connecting and for each reply, and a plain number is nanoseconds: with "300" nothing is read or stored while clients are told all is well (C11) |
| C117 | a number of seconds above 9223372036 overflows: OM_MMF_TIMEOUT_SECS=9999999999 leaves functions no time at all, and with that ticket TTL every ticket is stored as expired long ago |
| C123 | the gauges' callback reads the three counts one after the other while a cycle may be writing them: the number of active tickets can be of two cycles at once, even negative |
| C124 | the text of an error is an attribute of the error counter, and that of ActivateTickets and DeactivateTickets names the number of ids requested: every size of a request that is too large is a time series of its own |
| C86 | a malformed number silently becomes 0; a leading zero makes it octal; `0x10` is accepted by om-core but refused by Redis, so nothing is ever read; the variable named in the API documentation (OM_TICKET_TTL_SECS) is not the one read |

Also noticed, without a theorem: filter_test.go:35-39 reports an error when a ticket that
should be in the pool is in it, and several of its cases have nil tickets for which `In`
panics (`lean/Verif/Conformance/RepoTests.lean`); config.go documents
OM_MATCH_TICKET_DEACTIVATION_WAIT as "False: wait, True (default): return immediately"
while its default is false and the code waits when it is true.

## Testing the theorems

In a copy of the project outside the repository each seeded bug edits one model
definition as a realistic mistake in the Go code would, everything downstream is
recompiled with failing proofs replaced by `sorry`, and the theorems that come to depend
on `sorryAx` are listed.  A bug whose English claim no theorem notices leads to a new or
tighter theorem here.  `seeded/LOG.jsonl` has one line per attempt.

## Trusted base

- Lean 4.33.0's kernel.  `decide +kernel` (evaluation by the kernel) is used for closed
  examples, counterexamples and the finite tables of the generated code (C149, C150); neither `native_decide` nor `bv_decide` is used.
- Axioms: `propext`, `Classical.choice`, `Quot.sound`; no theorem depends on any other
  (`#print axioms`), and the project declares none.
- Mathlib, for a few list and order lemmas and tactics; checked by the same kernel.
- The model being a faithful reading of the cited Go lines, of Go's semantics for the
  features used (channels, `select`, `sync.Map`, `WaitGroup`, `defer`), and of the
  libraries: Redis streams, redigo, protobuf's wire format, `timestamppb`, `fmt.Fscanf`,
  viper and cast, grpc-gateway's routing and streams, protojson and `json.Marshal`.
