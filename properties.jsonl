{"id": "C01", "title": "Pool membership is the conjunction of its filters", "statement": "For a pool without a creation-time filter, a ticket is put in the pool exactly when every double-range filter, every string-equals filter and every tag-present filter of the pool is satisfied by the ticket: the named double argument exists and lies numerically between minimum and maximum with each bound included or excluded as the filter's bounds value says (a NaN value or bound never matches), the named string argument exists and equals the value byte for byte, and the tag is one of the ticket's tags.", "quantifier": "all pools, all tickets, all float64 bit patterns (including NaN, infinities and signed zeros)", "why_tests_cant": "the input space is unbounded in filters, tags and arguments and 2^192 per double comparison; a test samples a few", "anchors": ["core/internal/filter/filter.go: In", "proto/v2/messages.proto: Pool.FilterBounds"]}
{"id": "C02", "title": "Creation-time filter admits tickets created between start and end", "statement": "A pool whose creation-time filter has a start and an end admits a ticket (whose other filters pass) exactly when start <= creation time <= end, with a bound excluded when the filter's bounds value says so. A bound that is left out restricts nothing.", "quantifier": "all filters, all tickets, all timestamps and bounds values", "why_tests_cant": "timestamps are unbounded; the repository's own inclusion tests assert the wrong polarity, so they pass while the property fails", "anchors": ["core/internal/filter/filter.go: In", "proto/v2/messages.proto: CreationTimeRangeFilter", "core/internal/filter/filter_test.go: testInclusion"]}
{"id": "C03", "title": "Filtering never crashes the server", "statement": "Evaluating any pool of a profile against any ticket that CreateTicket accepted and that was replicated terminates with an answer and never panics.", "quantifier": "all pools, all tickets stored through CreateTicket", "why_tests_cant": "a missing nil check shows only for the field combination that reaches it", "anchors": ["core/internal/filter/filter.go: In", "core/main.go: CreateTicket, InvokeMatchmakingFunctions"]}
{"id": "C04", "title": "Filters only narrow, and their order and repetition do not matter", "statement": "Adding a filter to a pool never adds a ticket to it; reordering or repeating a pool's filters never changes which tickets it contains; reordering a ticket's tags or arguments never changes its membership.", "quantifier": "all pools, tickets, permutations of filters, tags and map entries", "why_tests_cant": "permutations and supersets of filter lists cannot be enumerated", "anchors": ["core/internal/filter/filter.go: In"]}
{"id": "C05", "title": "Pool validation rejects exactly the malformed timestamps, and an invalid pool does not disturb the others", "statement": "A pool is refused exactly when its creation-time filter has a start or end that is present and is not a legal protobuf timestamp; a refused pool receives no tickets, and every other pool of the same profile receives exactly the tickets it would receive without the refused pool.", "quantifier": "all profiles, all timestamps, all cache contents", "why_tests_cant": "the claim ranges over all combinations of pools in one profile", "anchors": ["core/internal/filter/filter.go: ValidatePoolFilters", "core/main.go: InvokeMatchmakingFunctions"]}
{"id": "C06", "title": "CreateTicket stores what the client sent", "statement": "For an accepted CreateTicket call, the ticket that every om-core instance eventually serves in pools has exactly the request's tags, string arguments, double arguments and extensions; its id is the server-assigned id and never the id the client put in the request; its creation time is the request's if that is a legal timestamp and the server's current time otherwise.", "quantifier": "all requests, all clock values", "why_tests_cant": "must hold for every field combination and through the marshal/replicate/unmarshal path", "anchors": ["core/main.go: CreateTicket", "core/internal/statestore/cache/replicatedticketcache.go: IncomingReplicationQueue"]}
{"id": "C07", "title": "CreateTicket clamps expiration to creation time plus TTL", "statement": "The stored expiration time is the requested one when it is a legal timestamp not later than creation time + OM_CACHE_TICKET_TTL_SECS, and exactly creation time + TTL otherwise; so it is never later than creation time + TTL.", "quantifier": "all requests, clocks, TTL settings of up to 292 years either way (C117 is about longer ones)", "why_tests_cant": "boundary and invalid-timestamp cases over unbounded timestamps", "anchors": ["core/main.go: CreateTicket"]}
{"id": "C08", "title": "No ticket outlives the configured TTL", "statement": "A ticket created at server time T is not served in pools by a cache whose last expiration cycle ran after T + OM_CACHE_TICKET_TTL_SECS.", "quantifier": "all requests (including client-chosen creation times), all histories of activations and expirations", "why_tests_cant": "depends on client-chosen timestamps combined with every later history", "anchors": ["core/main.go: CreateTicket", "core/internal/statestore/cache/replicatedticketcache.go: IncomingReplicationQueue (expiration closure)", "proto/v2/api.proto: CreateTicket"]}
{"id": "C09", "title": "CreateTicket without a ticket is refused without side effects", "statement": "A CreateTicket request with no ticket fails with InvalidArgument and queues no state update; every other request whose ticket can be marshalled queues exactly one ticket-creation update.", "quantifier": "all requests", "why_tests_cant": "absence of side effects for every input", "anchors": ["core/main.go: CreateTicket"]}
{"id": "C10", "title": "CreateTicket returns the id under which its ticket is stored", "statement": "If CreateTicket returns a ticket id without error, then that id is the id under which the update carrying that very ticket was replicated, whatever other updates share its batch.", "quantifier": "all batches of concurrent updates, all positions in the batch, both state stores", "why_tests_cant": "depends on which invalid or failing updates of other callers happen to share a batch", "anchors": ["core/main.go: CreateTicket", "core/internal/statestore/redis/redis.go: SendUpdates", "core/internal/statestore/memory/main.go: SendUpdates", "core/internal/statestore/cache/replicatedticketcache.go: OutgoingReplicationQueue"]}
{"id": "C11", "title": "CreateTicket success means the ticket is stored", "statement": "If CreateTicket returns without error then its ticket has been written to state storage, including when the storage connection fails or storage answers with an error.", "quantifier": "all storage outcomes (success, per-command error, connection loss)", "why_tests_cant": "failure injection at every point of the pipeline exchange", "anchors": ["core/main.go: CreateTicket", "core/internal/statestore/redis/redis.go: SendUpdates"]}
{"id": "C12", "title": "Ticket ids are unique", "statement": "No two accepted CreateTicket calls on one in-memory instance ever receive the same ticket id, as long as the wall clock does not run backwards.", "quantifier": "all call sequences, all non-decreasing clock readings (including readings that straddle a second inside one call)", "why_tests_cant": "needs every clock schedule", "anchors": ["core/internal/statestore/memory/main.go: getReplId, SendUpdates"]}
{"id": "C13", "title": "Ticket ids increase and carry their creation second", "statement": "Ids issued by an in-memory instance strictly increase in (timestamp, counter) order, always contain a '-' so the API's id validation accepts them, and the expiration logic reads back from each id exactly the unix second at which it was issued.", "quantifier": "all call sequences and clock readings", "why_tests_cant": "round-trip through formatting and parsing for every integer", "anchors": ["core/internal/statestore/memory/main.go: getReplId", "core/internal/statestore/cache/replicatedticketcache.go: strconv.ParseInt(strings.Split(id, \"-\")[0])", "core/main.go: validateTicketIds"]}
{"id": "C14", "title": "Batch-size validation of (de)activation requests", "statement": "ActivateTickets and DeactivateTickets with no ids, or with more ids than OM_MAX_STATE_UPDATES_PER_CALL, fail with InvalidArgument and queue no update; any other request is not refused for its size.", "quantifier": "all requests and limits", "why_tests_cant": "absence of side effects at and beyond every limit", "anchors": ["core/main.go: ActivateTickets, DeactivateTickets"]}
{"id": "C15", "title": "Id validation partitions the request and forwards the valid ids faithfully", "statement": "In an accepted (de)activation request every id is classified as valid or invalid by the replicator's id format, exactly the valid ids are sent as updates of the requested kind, in request order and with multiplicity, and no other id is sent.", "quantifier": "all id lists and all strings", "why_tests_cant": "all strings against a regular expression, all lists", "anchors": ["core/main.go: validateTicketIds, updateTicketsActiveState"]}
{"id": "C16", "title": "Malformed ticket ids are rejected", "statement": "An id that is not of the form <digits>-<digits> is refused by ActivateTickets/DeactivateTickets, and the caller is told: a call that returns OK has acted on every id in the request.", "quantifier": "all strings, all requests", "why_tests_cant": "all strings", "anchors": ["core/main.go: validateTicketIds, ActivateTickets, DeactivateTickets", "core/internal/statestore/redis/redis.go: GetReplIdValidationRegex", "core/internal/statestore/memory/main.go: GetReplIdValidationRegex"]}
{"id": "C17", "title": "(De)activation reports OK exactly when no update failed", "statement": "ActivateTickets/DeactivateTickets return OK exactly when state storage reported no error for any of the updates sent, and otherwise return InvalidArgument.", "quantifier": "all requests, all storage outcomes", "why_tests_cant": "all combinations of per-update outcomes", "anchors": ["core/main.go: updateTicketsActiveState, addStateUpdateErrorDetails"]}
{"id": "C18", "title": "(De)activation error details name every failed ticket", "statement": "When state storage fails some updates of an ActivateTickets/DeactivateTickets call, the returned error details contain one entry for each distinct failed ticket id.", "quantifier": "all requests, all storage outcomes", "why_tests_cant": "all subsets of failing updates", "anchors": ["core/main.go: updateTicketsActiveState, addStateUpdateErrorDetails", "core/internal/statestore/redis/redis.go: SendUpdates", "core/internal/statestore/datatypes/store.go: StateResponse"]}
{"id": "C19", "title": "Every caller gets exactly its own results, in order", "statement": "For any number of concurrent callers and any interleaving of their updates into batches, each queued update yields exactly one response, delivered to the caller that queued it; a caller that queued updates u1..un receives the responses to u1..un in that order.", "quantifier": "all interleavings of callers, all batch splits (size threshold and timeouts)", "why_tests_cant": "schedules cannot be enumerated by tests", "anchors": ["core/internal/statestore/cache/replicatedticketcache.go: OutgoingReplicationQueue", "core/main.go: updateTicketsActiveState, CreateTicket, CreateAssignments"]}
{"id": "C20", "title": "Outgoing batching loses, duplicates and reorders nothing and respects the threshold", "statement": "The batches handed to state storage, concatenated, are exactly the updates received from the queue in order; no batch is empty and none exceeds max(1, OM_CACHE_OUT_MAX_QUEUE_THRESHOLD).", "quantifier": "all arrival/timeout schedules, all thresholds", "why_tests_cant": "schedules", "anchors": ["core/internal/statestore/cache/replicatedticketcache.go: OutgoingReplicationQueue"]}
{"id": "C21", "title": "Redis replication round-trips every update", "statement": "Every valid update written to the Redis stream is read back by every instance as the same command on the same ticket id with the same payload (a ticket creation is read back under the stream id Redis assigned to it).", "quantifier": "all updates, all payload strings", "why_tests_cant": "all strings", "anchors": ["core/internal/statestore/redis/redis.go: SendUpdates, GetUpdates"]}
{"id": "C22", "title": "Polling neither misses nor repeats nor reorders updates", "statement": "Whatever the poll size, however polls interleave with other instances' writes, and even when polls go to read replicas that lag behind by different amounts, the updates an instance has read so far are exactly the first k entries of the stream for some k, in order; a poll of an up-to-date server returns nothing only when everything has been read.", "quantifier": "all interleavings of appends and polls, all poll sizes, all lags of read replicas", "why_tests_cant": "schedules and unbounded streams", "anchors": ["core/internal/statestore/redis/redis.go: GetUpdates"]}
{"id": "C23", "title": "Instances converge", "statement": "Any two instances that have applied the same updates hold identical tickets, active states and assignments, whatever their batch boundaries; an instance that restarts with an empty cache and replays the stream reaches the same state.", "quantifier": "all update histories, all batch splits, all crash points", "why_tests_cant": "histories and crash points", "anchors": ["core/internal/statestore/cache/replicatedticketcache.go: IncomingReplicationQueue", "core/internal/statestore/redis/redis.go: GetUpdates, New"]}
{"id": "C24", "title": "The cache implements the ticket life cycle", "statement": "After any history of creations, activations, deactivations and assignments, a ticket is in the pools' candidate set exactly when it was created and the last creation/activation/deactivation naming its id was an activation; its content is that of its last creation; its assignment is the last one made.", "quantifier": "all update histories", "why_tests_cant": "unbounded histories", "anchors": ["core/internal/statestore/cache/replicatedticketcache.go: IncomingReplicationQueue", "core/main.go: setDifference"]}
{"id": "C25", "title": "A ticket never reaches a pool before it is activated", "statement": "No InvokeMatchmakingFunctions call ever puts in a pool a ticket that has not been activated since it was created, however the call interleaves with replication.", "quantifier": "all histories and all interleavings of the cache snapshot with the replication goroutine", "why_tests_cant": "memory-level interleavings", "anchors": ["core/main.go: setDifference, CreateTicket (doc comment)", "core/internal/statestore/cache/replicatedticketcache.go: IncomingReplicationQueue"]}
{"id": "C26", "title": "A deactivated ticket stays out of pools until re-activated", "statement": "Once a deactivation has been applied to an instance's cache, no later pool on that instance contains the ticket until an activation for it is applied, whatever else is applied, expires, or is concurrently snapshotted.", "quantifier": "all later histories without an activation of the ticket", "why_tests_cant": "unbounded histories, interleavings", "anchors": ["core/internal/statestore/cache/replicatedticketcache.go: IncomingReplicationQueue", "core/main.go: setDifference"]}
{"id": "C27", "title": "An active, unexpired ticket is in every pool whose filters it meets", "statement": "Once a ticket's activation has been applied, every later snapshot contains it until a deactivation or re-creation for it is applied or its expiration time passes at an expiration cycle; snapshots concurrent with unrelated updates still contain it.", "quantifier": "all histories, all interleavings", "why_tests_cant": "unbounded histories, interleavings", "anchors": ["core/internal/statestore/cache/replicatedticketcache.go: IncomingReplicationQueue", "core/main.go: setDifference"]}
{"id": "C28", "title": "Concurrent snapshots are explainable", "statement": "Every ticket a snapshot returns was active at some moment during the snapshot or was created during it, and every ticket active throughout the snapshot is returned.", "quantifier": "all interleavings of the two-pass snapshot with cache writes", "why_tests_cant": "memory-level interleavings", "anchors": ["core/main.go: setDifference, syncMapDump"]}
{"id": "C29", "title": "Expiration never re-activates a ticket", "statement": "Removing an aged-out id from the inactive set never makes its ticket a pool candidate, at any intermediate point and under any interleaving with snapshots: the ticket is removed first.", "quantifier": "all cache states, clocks, interleavings", "why_tests_cant": "the hazardous window is between two map operations", "anchors": ["core/internal/statestore/cache/replicatedticketcache.go: IncomingReplicationQueue (expiration closure)"]}
{"id": "C30", "title": "After an expiration cycle nothing expired remains", "statement": "After an expiration cycle started at time T on an in-memory instance, no ticket whose expiration time is before T, no inactive id issued more than TTL seconds before T together with its ticket, and no assignment whose id was issued more than TTL + additional TTL seconds before T remains.", "quantifier": "all cache states and clocks", "why_tests_cant": "all states", "anchors": ["core/internal/statestore/cache/replicatedticketcache.go: IncomingReplicationQueue (expiration closure)"]}
{"id": "C31", "title": "Expiration removes nothing else", "statement": "An expiration cycle that ends at time T keeps every ticket whose expiration time is not before T and whose id is not both inactive and issued more than TTL seconds before T, keeps every inactive id not older than TTL, and every assignment not older than TTL + additional TTL; contents are unchanged.", "quantifier": "all cache states and clocks", "why_tests_cant": "all states", "anchors": ["core/internal/statestore/cache/replicatedticketcache.go: IncomingReplicationQueue (expiration closure)"]}
{"id": "C32", "title": "Ids, tickets and assignments age out when Redis assigns the ids", "statement": "On a Redis-backed instance an inactive ticket id and an assignment are removed from the cache after the configured TTLs have elapsed since their creation.", "quantifier": "all creation times and TTLs", "why_tests_cant": "needs real elapsed time; the fault is one of units", "anchors": ["core/internal/statestore/cache/replicatedticketcache.go: IncomingReplicationQueue (expiration closure)", "core/internal/statestore/redis/redis.go: SendUpdates"]}
{"id": "C33", "title": "Redis stream entries older than the TTL are trimmed", "statement": "Each batch of updates ends by trimming from the Redis stream exactly the entries older than OM_CACHE_TICKET_TTL_SECS, so the stream does not grow without bound.", "quantifier": "all streams, all times", "why_tests_cant": "needs real elapsed time", "anchors": ["core/internal/statestore/redis/redis.go: SendUpdates"]}
{"id": "C34", "title": "Unrecognised stream entries are ignored", "statement": "A stream entry of a type this version of om-core does not know changes no ticket, active state or assignment.", "quantifier": "all entries", "why_tests_cant": "all strings", "anchors": ["core/internal/statestore/redis/redis.go: GetUpdates", "core/internal/statestore/cache/replicatedticketcache.go: IncomingReplicationQueue"]}
{"id": "C35", "title": "Replication keeps running for the lifetime of the server", "statement": "On a Redis-backed instance, however many batches have been written and polls made, the next batch can be written and the next poll made (given a reachable Redis).", "quantifier": "all run lengths, all connection-pool sizes", "why_tests_cant": "the failure appears only after as many calls as the pool has connections", "anchors": ["core/internal/statestore/redis/redis.go: New, SendUpdates, GetUpdates"]}
{"id": "C36", "title": "Expired tickets do not appear in pools", "statement": "No pool contains a ticket whose expiration time has passed when the pool is filled.", "quantifier": "all times, all cache states", "why_tests_cant": "timing between cycles", "anchors": ["core/internal/statestore/cache/replicatedticketcache.go: IncomingReplicationQueue", "core/main.go: InvokeMatchmakingFunctions"]}
{"id": "C37", "title": "Expiration cycles are not starved by updates", "statement": "An expiration cycle runs after a bounded amount of work even when updates keep arriving.", "quantifier": "all arrival schedules", "why_tests_cant": "unbounded schedules", "anchors": ["core/internal/statestore/cache/replicatedticketcache.go: IncomingReplicationQueue (updateTimeout)"]}
{"id": "C38", "title": "The MMF receives exactly the matching active tickets", "statement": "The profile an MMF reassembles with GetChunkedRequest contains, for every valid pool of the request that has at least one matching ticket, exactly the snapshot's active tickets that meet that pool's filters, each once, in snapshot order; and no other pool.", "quantifier": "all snapshots, profiles, ticket sizes, and all map iteration orders", "why_tests_cant": "all chunk boundaries and iteration orders", "anchors": ["core/main.go: InvokeMatchmakingFunctions", "mmf/server/server.go: GetChunkedRequest"]}
{"id": "C39", "title": "Chunk framing is sound", "statement": "Every MMF request consists of at least one chunk, every chunk carries the total number of chunks and the profile's name and extensions, and GetChunkedRequest consumes exactly those chunks and then returns; if the stream ends early it returns an error and no profile.", "quantifier": "all requests, all prefixes of the chunk stream", "why_tests_cant": "all truncation points", "anchors": ["core/main.go: InvokeMatchmakingFunctions", "mmf/server/server.go: GetChunkedRequest"]}
{"id": "C40", "title": "Chunks respect the 4,000,000-byte budget", "statement": "In each chunk, the size of the empty request plus the sizes of the chunk's tickets is below 4,000,000 bytes unless the chunk holds a single ticket that is too big on its own; consecutive chunks are not split needlessly.", "quantifier": "all ticket-size sequences", "why_tests_cant": "all size sequences", "anchors": ["core/main.go: InvokeMatchmakingFunctions"]}
{"id": "C41", "title": "Chunks fit the default gRPC message limit", "statement": "If every single ticket fits, each encoded chunk message is at most 4 MiB, gRPC's default limit, so MMFs with default settings can receive it.", "quantifier": "all ticket-size sequences", "why_tests_cant": "needs the exact wire overhead for every mix of ticket sizes", "anchors": ["core/main.go: InvokeMatchmakingFunctions"]}
{"id": "C42", "title": "Profile and pool data are passed through to the MMF", "statement": "The profile's name and extensions, and each pool's name, filters and extensions, reach the MMF unchanged.", "quantifier": "all profiles", "why_tests_cant": "all field combinations", "anchors": ["core/main.go: InvokeMatchmakingFunctions", "proto/v2/messages.proto"]}
{"id": "C43", "title": "Matches are relayed faithfully and at most once", "statement": "Every match streamed to the matchmaker was returned by one of the invoked MMFs during this call, unchanged, and is streamed at most once; no two sends on the stream overlap.", "quantifier": "all MMF behaviours, all schedules of the relay goroutines", "why_tests_cant": "schedules", "anchors": ["core/main.go: InvokeMatchmakingFunctions"]}
{"id": "C44", "title": "Tickets of a match are deactivated before the match is returned", "statement": "Before a match is streamed to the matchmaker, a deactivation update for every ticket in every roster of the match has been submitted to state storage and answered.", "quantifier": "all matches, all schedules", "why_tests_cant": "schedules", "anchors": ["core/main.go: InvokeMatchmakingFunctions, updateTicketsActiveState"]}
{"id": "C45", "title": "All matches are delivered before the call returns", "statement": "When InvokeMatchmakingFunctions returns, every match returned by every MMF that finished its stream normally has been sent to the matchmaker.", "quantifier": "all MMF behaviours, all schedules", "why_tests_cant": "schedules", "anchors": ["core/main.go: InvokeMatchmakingFunctions"]}
{"id": "C46", "title": "An MMF cannot crash om-core", "statement": "Whatever matches an MMF returns and however its stream ends, om-core does not panic.", "quantifier": "all MMF behaviours, all schedules", "why_tests_cant": "schedules and adversarial MMF output", "anchors": ["core/main.go: InvokeMatchmakingFunctions"]}
{"id": "C47", "title": "OM_MATCH_TICKET_DEACTIVATION_WAIT delays the match until deactivation is replicated", "statement": "With the wait option on, a match is returned only once the deactivation of its tickets has been applied to the local cache (or the one-minute timeout has elapsed).", "quantifier": "all replication delays", "why_tests_cant": "timing", "anchors": ["core/main.go: InvokeMatchmakingFunctions (deactivationCheck)", "core/internal/config/config.go"]}
{"id": "C48", "title": "Matched tickets leave the pools", "statement": "After the updates queued for a returned match have been applied, no ticket of the match is a pool candidate on that instance until it is re-activated.", "quantifier": "all matches, all later histories", "why_tests_cant": "histories", "anchors": ["core/main.go: InvokeMatchmakingFunctions", "core/internal/statestore/cache/replicatedticketcache.go: IncomingReplicationQueue"]}
{"id": "C49", "title": "MMF failures are reported to the matchmaker", "statement": "If an MMF of the request cannot be invoked or fails, InvokeMatchmakingFunctions returns an error.", "quantifier": "all MMF outcomes", "why_tests_cant": "all outcome combinations", "anchors": ["core/main.go: InvokeMatchmakingFunctions"]}
{"id": "C50", "title": "The 1v1 function partitions its tickets into pairs", "statement": "soloduel returns floor(n/2) matches for n tickets; each has one roster of exactly two tickets, tickets are consumed in pool order, at most one ticket is left over, and no ticket outside the request's pools appears.", "quantifier": "all profiles, all pool iteration orders", "why_tests_cant": "all sizes", "anchors": ["functions/golang/soloduel/soloduel.go: Run"]}
{"id": "C51", "title": "No match of the 1v1 function contains the same ticket twice", "statement": "No ticket appears twice in the matches of one soloduel run.", "quantifier": "all profiles", "why_tests_cant": "all overlaps between pools", "anchors": ["functions/golang/soloduel/soloduel.go: Run"]}
{"id": "C52", "title": "The battle-royale function forms full matches only", "statement": "battleroyale returns floor(n/100) matches for the n tickets of the pool 'competitive'; each has one roster of exactly 100 tickets, in pool order, no ticket position used twice.", "quantifier": "all profiles", "why_tests_cant": "all sizes", "anchors": ["functions/golang/battleroyale/battleroyale.go: Run"]}
{"id": "C53", "title": "The team-shooter function forms complete teams only", "statement": "Every match teamshooter returns has exactly the two rosters team01 and team02, each with one ticket of pool 'tank', one of 'healer' and three of 'dps'; the number of matches is min(100000, tanks/2, healers/2, dps/6); no ticket position of a pool is used twice.", "quantifier": "all profiles", "why_tests_cant": "all pool sizes", "anchors": ["functions/golang/teamshooter/teamshooter.go: Run"]}
{"id": "C54", "title": "Match ids and roster names are unique within one MMF run", "statement": "Two different matches of one run of an example MMF have different match ids.", "quantifier": "all run lengths", "why_tests_cant": "decimal formatting of every counter value", "anchors": ["functions/golang/soloduel/soloduel.go: Run", "functions/golang/battleroyale/battleroyale.go: Run", "functions/golang/teamshooter/teamshooter.go: Run"]}
{"id": "C55", "title": "An MMF that cannot read its request returns no matches", "statement": "If the chunk stream fails before it is complete, none of the example MMFs sends any match, and none panics.", "quantifier": "all truncation points", "why_tests_cant": "all truncation points", "anchors": ["mmf/server/server.go: GetChunkedRequest", "functions/golang/soloduel/soloduel.go: Run", "functions/golang/battleroyale/battleroyale.go: Run", "functions/golang/teamshooter/teamshooter.go: Run"]}
{"id": "C56", "title": "CreateAssignments queues one assignment per named ticket", "statement": "An accepted CreateAssignments call queues, in order, exactly one assignment update for each roster ticket with a non-empty id, all carrying the roster's assignment, and nothing for the others; a request without roster or assignment is refused with InvalidArgument and queues nothing.", "quantifier": "all rosters", "why_tests_cant": "all rosters", "anchors": ["core/main.go: CreateAssignments"]}
{"id": "C57", "title": "CreateAssignments reports failures", "statement": "CreateAssignments returns an error when a ticket id is empty, when an assignment could not be stored, or when the roster is larger than OM_MAX_STATE_UPDATES_PER_CALL.", "quantifier": "all requests and storage outcomes", "why_tests_cant": "all outcome combinations", "anchors": ["core/main.go: CreateAssignments", "core/internal/config/config.go: OM_MAX_STATE_UPDATES_PER_CALL"]}
{"id": "C58", "title": "WatchAssignments streams each requested assignment exactly once", "statement": "WatchAssignments sends at most one response per requested id occurrence, each response pairs an id with an assignment that was in the cache for that id during the call, and when it returns before its timeout it has sent exactly one response per requested occurrence; as soon as that many responses were sent it returns.", "quantifier": "all schedules, all id lists", "why_tests_cant": "schedules", "anchors": ["core/main.go: WatchAssignments"]}
{"id": "C59", "title": "WatchAssignments never crashes the server", "statement": "Whatever assignments arrive and whenever the watch times out, om-core does not panic.", "quantifier": "all schedules", "why_tests_cant": "schedules", "anchors": ["core/main.go: WatchAssignments"]}
{"id": "C60", "title": "Assignments are retained at least until ticket TTL plus the additional TTL", "statement": "An assignment applied to an in-memory instance's cache remains readable, and is the last one made for the id, until TTL + additional TTL seconds after the id was issued.", "quantifier": "all histories and clocks", "why_tests_cant": "histories", "anchors": ["core/internal/statestore/cache/replicatedticketcache.go: IncomingReplicationQueue (expiration closure)"]}
{"id": "C61", "title": "The watch gauge returns to its baseline", "statement": "After every WatchAssignments call has returned, the assignment-watch gauge has the value it had before.", "quantifier": "all schedules", "why_tests_cant": "timeouts at every position", "anchors": ["core/main.go: WatchAssignments (AssignmentWatches)"]}
{"id": "C62", "title": "Cache gauges report the cache", "statement": "The inactive, assignment and ticket counts reported after an expiration cycle are the number of inactive ids, assignments and tickets the cycle started with, and the active gauge is the number of active tickets.", "quantifier": "all cache states", "why_tests_cant": "all states", "anchors": ["core/internal/statestore/cache/replicatedticketcache.go: expiration closure", "core/internal/statestore/cache/metrics.go: RegisterMetrics"]}
{"id": "C63", "title": "The example matchmaker activates every queued ticket exactly once in legal batches", "statement": "activateTickets partitions the queued ids, in order, into ActivateTickets calls of at most 500 ids, none empty, and terminates.", "quantifier": "all queue contents", "why_tests_cant": "all queue lengths", "anchors": ["matchmaker-example/main.go: activateTickets"]}
{"id": "C64", "title": "activateTickets returns only after all its calls completed", "statement": "When activateTickets returns, every ActivateTickets call it started has completed.", "quantifier": "all schedules", "why_tests_cant": "schedules", "anchors": ["matchmaker-example/main.go: activateTickets (activationWg)"]}
{"id": "C65", "title": "The example matchmaker decodes streamed HTTP results", "statement": "For every JSON text without whitespace, the matchmaker extracts exactly that text from the gateway's {\"result\":...} envelope.", "quantifier": "all JSON texts", "why_tests_cant": "all strings", "anchors": ["matchmaker-example/main.go: main"]}
{"id": "C66", "title": "Re-queueing rejected tickets never blocks the matchmaking loop", "statement": "However many matches are rejected in one cycle, the example matchmaker's main loop reaches activateTickets.", "quantifier": "all numbers of rejected tickets", "why_tests_cant": "only very large cycles fail", "anchors": ["matchmaker-example/main.go: main (ticketIdsToActivate)"]}
{"id": "C67", "title": "The example matchmaker stops after three consecutive empty cycles", "statement": "Without -ignoreempty the matchmaking loop exits exactly after the third consecutive cycle without matches, and never otherwise before its cycle budget is used up.", "quantifier": "all histories of cycle results", "why_tests_cant": "histories", "anchors": ["matchmaker-example/main.go: main (emptyCycles)"]}
{"id": "C68", "title": "Log level and format parsing is total and case-insensitive", "statement": "Every OM_LOGGING_LEVEL and OM_LOGGING_FORMAT string selects a level and formatter depending only on its lower-cased text, unknown values select info and text, and debug mode is on exactly for debug and trace. The log then has exactly the records of the configured severity and above, in order.", "quantifier": "all strings", "why_tests_cant": "all strings", "anchors": ["core/internal/logging/logging.go: toLevel, newFormatter, isDebugLevel"]}
{"id": "C69", "title": "End-to-end: create, activate, pool", "statement": "In a system of any number of om-core instances sharing one Redis stream, if CreateTicket returned an id at one instance, then an activation of that id was accepted at any instance, and no deactivation followed, then on every instance that has consumed the stream (and not expired the ticket) a pool whose filters match contains the ticket with the client's content, and no instance serves it before consuming the activation.", "quantifier": "all system histories: clients, instances, batches, polls, crashes and restarts, reads from replicas lagging by any amount", "why_tests_cant": "distributed histories", "anchors": ["core/main.go", "core/internal/statestore/cache/replicatedticketcache.go", "core/internal/statestore/redis/redis.go"]}
{"id": "C70", "title": "Acknowledged updates survive instance crashes", "statement": "An update whose caller received a success response is in the stream forever after, and every instance that consumes the stream applies it, whatever instances crash or restart at any point.", "quantifier": "all system histories with crashes, reads from replicas lagging by any amount", "why_tests_cant": "crash points", "anchors": ["core/internal/statestore/cache/replicatedticketcache.go", "core/internal/statestore/redis/redis.go"]}
{"id": "C71", "title": "The match metric counts the matches", "statement": "When InvokeMatchmakingFunctions has returned, the Matches counter has been increased by exactly the number of matches returned by the MMFs that finished their stream normally.", "quantifier": "all MMF behaviours, all schedules", "why_tests_cant": "schedules, numbers of matches", "anchors": ["core/main.go: InvokeMatchmakingFunctions (Matches.Add)"]}
{"id": "C72", "title": "InvokeMatchmakingFunctions returns", "statement": "If every invoked MMF ends its stream and the state storage queue answers, InvokeMatchmakingFunctions returns (or the process panics, C46): the goroutines it starts never deadlock and no schedule goes on forever.", "quantifier": "all MMF behaviours, all schedules", "why_tests_cant": "absence of deadlocks over all schedules", "anchors": ["core/main.go: InvokeMatchmakingFunctions"]}
{"id": "C73", "title": "WatchAssignments waits for the ticket TTL", "statement": "A WatchAssignments call that gives up has waited at least the ticket TTL from its start, and until the TTL of every requested ticket has passed.", "quantifier": "all id lists of the in-memory replicator, clocks, schedules", "why_tests_cant": "takes ten minutes per run; all clocks", "anchors": ["core/main.go: WatchAssignments (timeout)"]}
{"id": "C74", "title": "WatchAssignments gives up in time", "statement": "For tickets issued before the call, the watch timer fires no later than the ticket TTL after it is set.", "quantifier": "all id lists, both replicators' id formats, clocks", "why_tests_cant": "all clocks and id formats", "anchors": ["core/main.go: WatchAssignments (ctime from ID)", "core/internal/statestore/redis/redis.go", "core/internal/statestore/memory/main.go"]}
{"id": "C75", "title": "No goroutine of a watch outlives the call", "statement": "When WatchAssignments has returned, none of the goroutines it started is still running.", "quantifier": "all schedules", "why_tests_cant": "schedules", "anchors": ["core/main.go: WatchAssignments"]}
{"id": "C76", "title": "The example matchmaker reads every streamed HTTP result", "statement": "Every single-line JSON result streamed by the gateway is handed to the JSON decoder unchanged, including texts with blanks.", "quantifier": "all sequences of JSON texts", "why_tests_cant": "all strings", "anchors": ["matchmaker-example/main.go: main (fmt.Fscanf, trimmedMsg)"]}
{"id": "C77", "title": "IsDebugEnabled reflects the configured log level", "statement": "logging.IsDebugEnabled answers yes exactly when OM_LOGGING_LEVEL selects debug or trace.", "quantifier": "all environments", "why_tests_cant": "all configurations", "anchors": ["core/internal/logging/logging.go: IsDebugEnabled", "core/internal/config/config.go: Read"]}
{"id": "C78", "title": "Every finished RPC is measured once, under its method name", "statement": "Each RPC records one duration under the last path element of its full method name when it ends, and one error count iff it failed; other events record nothing.", "quantifier": "all event sequences, all method names and durations", "why_tests_cant": "all event sequences", "anchors": ["core/server.go: HandleRPC, TagRPC"]}
{"id": "C79", "title": "Replication never crashes an instance", "statement": "In a system of any number of om-core instances sharing one Redis stream, no sequence of client calls (whatever their content), batches, partial failures, polls, expirations, crashes and restarts makes the batching or polling goroutine of an instance panic.", "quantifier": "all system histories, reads from replicas lagging by any amount", "why_tests_cant": "distributed histories and adversarial payloads; a slice index or type assertion fails only for particular combinations", "anchors": ["core/internal/statestore/cache/replicatedticketcache.go: OutgoingReplicationQueue, IncomingReplicationQueue", "core/internal/statestore/redis/redis.go: SendUpdates, GetUpdates"]}
{"id": "C80", "title": "No deadlock between handlers, queues and cache", "statement": "While calls to the storage return (with Redis, the pool of connections can run dry: C35, C126), and however CreateTicket, ActivateTickets, DeactivateTickets and CreateAssignments calls and the replication goroutines are interleaved, no result is ever sent on a closed channel, no set of goroutines waits for each other, and every call begun returns with one response per update it submitted.", "quantifier": "all schedules of any number of concurrent calls of any size, all batch thresholds and buffer sizes, both replicators", "why_tests_cant": "a deadlock or a send on a closed channel shows only under particular interleavings and batch sizes", "anchors": ["core/main.go: CreateTicket, updateTicketsActiveState, CreateAssignments", "core/internal/statestore/cache/replicatedticketcache.go: OutgoingReplicationQueue, IncomingReplicationQueue", "core/internal/statestore/memory/main.go: SendUpdates, GetUpdates"]}
{"id": "C81", "title": "Results channels keep the order of a call's own updates", "statement": "At every moment the j-th result a call has received from its results channel is the replicator's answer to the j-th update that call submitted, even while other calls' updates share its batches.", "quantifier": "all schedules, calls and batch thresholds; every j", "why_tests_cant": "all interleavings", "anchors": ["core/internal/statestore/cache/replicatedticketcache.go: OutgoingReplicationQueue", "core/main.go: updateTicketsActiveState"]}
{"id": "C82", "title": "In-memory replication applies every acknowledged update once and in order", "statement": "With OM_STATE_STORAGE_TYPE=memory the updates applied to the ticket cache are at all times a prefix of the acknowledged ones, in acknowledgement order and unchanged except that a new ticket is keyed by the id returned to its creator; once the process comes to rest all of them have been applied.", "quantifier": "all schedules of the process", "why_tests_cant": "all schedules of four goroutines and two channels", "anchors": ["core/internal/statestore/memory/main.go: SendUpdates, GetUpdates", "core/internal/statestore/cache/replicatedticketcache.go: IncomingReplicationQueue"]}
{"id": "C83", "title": "Clients never receive the same ticket id twice, and later creations get later ids", "statement": "With Redis as the state store, no two CreateTicket calls, made at any instances, ever return the same ticket id; a call begun after another returned gets a numerically later id; and every id returned (by Redis or by the in-memory store) has the documented form and is acted on by ActivateTickets and DeactivateTickets.", "quantifier": "all executions of any number of instances, calls, batches, crashes, Redis errors, lost connections and clock readings", "why_tests_cant": "unbounded executions with crashes and clocks that step back", "anchors": ["core/main.go: CreateTicket", "core/main.go: validateTicketIds", "core/internal/statestore/redis/redis.go: SendUpdates, GetReplIdValidationRegex", "core/internal/statestore/memory/main.go: SendUpdates, GetReplIdValidationRegex"]}
{"id": "C84", "title": "A whole matchmaking round yields only legal matches of eligible players", "statement": "With the example MMFs, every match a matchmaker receives from InvokeMatchmakingFunctions has the MMF's shape (1v1: two tickets; battle royale: 100 tickets of pool competitive; 5v5: two teams of a tank, a healer and three dps), every ticket in it was in the snapshot the call took and is admitted by the filters of the pool it stands for, and has the content of a CreateTicket request; if no ticket fits two pools, the matches of one 1v1 function never contain a ticket twice.", "quantifier": "all cache histories, snapshots, profiles, chunk boundaries, map iteration orders, clocks, failing sends, broken streams, numbers of invoked MMFs and schedules of the relay goroutines", "why_tests_cant": "the composition of unbounded pools, chunking, streams and goroutine schedules", "anchors": ["core/main.go: InvokeMatchmakingFunctions", "mmf/server/server.go: GetChunkedRequest", "functions/golang/soloduel/soloduel.go: Run", "functions/golang/battleroyale/battleroyale.go: Run", "functions/golang/teamshooter/teamshooter.go: Run"]}
{"id": "C85", "title": "Requests and matches survive the wire between om-core and the MMFs", "statement": "Whatever snapshot of tickets and whatever profile an instance invokes MMFs with, om-core can marshal every chunk of the request (no string in it is invalid UTF-8, no map key is doubled, no number is out of range), and the MMF unmarshals exactly that chunk from the bytes, with the same filters, pools, tickets, extensions and chunk count. Every match the example MMFs stream can be marshalled, and om-core unmarshals exactly that match. So everything promised of a round (C38, C84) holds of the bytes on the wire. (Messages above gRPC's size limit are C41.)", "quantifier": "for all executions of any number of instances, clients and faults, all snapshots, all profiles that themselves came off the wire, all iteration orders of maps in pool filling and in marshalling, all clocks and failing sends, all schedules of the relay", "why_tests_cant": "The bytes depend on message contents, nesting and map order, all unbounded; a test marshals a few messages, and the Go tests of this repository marshal none.", "anchors": ["core/main.go: InvokeMatchmakingFunctions", "mmf/server/server.go: GetChunkedRequest", "proto/v2/messages.proto: ChunkedMmfRunRequest, Profile, Pool, Roster, Match, StreamedMmfResponse", "functions/golang/soloduel/soloduel.go: Run", "functions/golang/battleroyale/battleroyale.go: Run", "functions/golang/teamshooter/teamshooter.go: Run"]}
{"id": "C86", "title": "Configuration variables mean what they say", "statement": "A numeric configuration variable that holds a number has that value everywhere it is used, including in the arguments sent to Redis; one that is unset or empty has its documented default; text settings and addresses likewise; a setting influences nothing but itself; and whatever the environment, Redis and om-core never act on different values of the same setting. A value that is not a number is refused, or ignored in favour of the default. The ticket lifetime is set by the variable the API documentation names.", "quantifier": "for all environments, all settings and all int64 values", "why_tests_cant": "Environments are arbitrary maps of arbitrary text read by three different conversions (number, text, and Redis' own parser); a test sets a few variables to well-formed values.", "anchors": ["core/internal/config/config.go: Read", "core/internal/statestore/redis/redis.go: New, GetUpdates, SendUpdates", "core/internal/statestore/cache/replicatedticketcache.go: IncomingReplicationQueue, OutgoingReplicationQueue", "core/main.go: main, CreateTicket", "proto/v2/messages.proto: Ticket.expiration_time", "proto/v2/api.proto: CreateTicket"]}
{"id": "C87", "title": "om-core starts exactly with a known storage type and a possible poll size", "statement": "With OM_STATE_STORAGE_TYPE unset or 'redis' om-core replicates through Redis, with 'memory' through memory; with any other value, or with a negative or impossible OM_CACHE_IN_MAX_UPDATES_PER_POLL, the process ends immediately. It never serves clients for long without a replicator.", "quantifier": "for all environments and all memory limits", "why_tests_cant": "The starting sequence is in main() and its failures are panics of background goroutines; environments are unbounded.", "anchors": ["core/main.go: main", "core/internal/statestore/cache/replicatedticketcache.go: IncomingReplicationQueue", "core/internal/config/config.go: Read"]}
{"id": "C88", "title": "Players of a rejected match return to the pools", "statement": "When the example matchmaker rejects a match, every player of it is queued, activated in a call om-core does not refuse for its size, and afterwards in every snapshot of every instance that has caught up, with the content it was created with, even though the match had deactivated it. Matches are rejected at the intended rate of one in a hundred.", "quantifier": "for all matches received, random draws, roster orders, schedules of activateTickets, and all executions of any number of instances up to lost connections", "why_tests_cant": "Involves the matchmaker's queue, several om-core instances and the replication order of a deactivation and a later activation, under all schedules.", "anchors": ["matchmaker-example/main.go: main, activateTickets", "core/main.go: ActivateTickets, InvokeMatchmakingFunctions", "core/internal/statestore/cache/replicatedticketcache.go: IncomingReplicationQueue"]}
{"id": "C89", "title": "Every mock player is in exactly one pool and used once per function", "statement": "A ticket made by the mock frontend fits the pool of its class in the example profile and no other pool, in every snapshot of every instance; hence each of the three matchmaking functions, on its own, never puts a player into two places.", "quantifier": "for all random choices, clocks, executions, snapshots, chunkings and schedules", "why_tests_cant": "Needs all stored forms of the ticket after the wire and all interleavings of snapshot, chunking and relay.", "anchors": ["matchmaker-example/main.go: generateMockClientRequest, main", "core/internal/filter/filter.go: In", "functions/golang/soloduel/soloduel.go: Run", "functions/golang/teamshooter/teamshooter.go: Run"]}
{"id": "C90", "title": "Players of an accepted match are not put back into the pools", "statement": "In one cycle of the example matchmaker no player of an accepted match is re-activated.", "quantifier": "for all populations of players with one class each, all runs of the invoked functions, all schedules and all random draws", "why_tests_cant": "Depends on the overlap of matches from several functions, on schedules and on random rejection.", "anchors": ["matchmaker-example/main.go: main"]}
{"id": "C91", "title": "Every function the example invokes can make matches", "statement": "For each of the three functions that the example invokes with its profile there is a population of mock players from which it makes a match.", "quantifier": "for each of the three functions; refuted for battleroyale over all populations and schedules", "why_tests_cant": "That no population at all gives a match is a statement about all populations.", "anchors": ["matchmaker-example/main.go: main", "functions/golang/battleroyale/battleroyale.go: Run"]}
{"id": "C92", "title": "Failed creations do not hinder the activation of others", "statement": "When the mock frontend batches ids of created tickets together with the empty ids of failed creations, an activation call that om-core accepts activates exactly the created ones, in order.", "quantifier": "for all executions of any number of instances with any faults, and all batches of outcomes of creations", "why_tests_cant": "All mixtures of failures, including lost connections, would have to be injected.", "anchors": ["matchmaker-example/main.go: proxyCreateTicket, Run, activateTickets", "core/main.go: validateTicketIds, ActivateTickets"]}
{"id": "C93", "title": "Messages are refused exactly for strings that are not text", "statement": "CreateTicket fails before anything is queued exactly when some tag, argument name, string argument, extension name or type URL in the ticket is not valid UTF-8 (the encoding of a sequence of Unicode characters); CreateAssignments with an assignment likewise, for its connection string and extensions. No timestamp, number, id, length or nesting makes either fail. The same holds of the chunks om-core sends to MMFs and of the matches MMFs send back: they can be sent exactly when all their strings are text.", "quantifier": "for all ticket, assignment, profile and match messages, all byte strings in them, all clocks within the legal dates, all TTL settings", "why_tests_cant": "all byte strings: the boundary runs between well-formed and ill-formed sequences of up to four bytes (overlong forms, surrogates, code points above U+10FFFF)", "anchors": ["core/main.go: CreateTicket, CreateAssignments, InvokeMatchmakingFunctions (stream.Send)", "mmf/server/server.go: GetChunkedRequest"]}
{"id": "C94", "title": "Ids sent by a client do not prolong its watch", "statement": "Whatever ids a WatchAssignments request contains, the watch's timer fires no later than the ticket TTL after it is set: made-up ids cannot keep the call and its goroutines alive.", "quantifier": "all lists of arbitrary byte strings as ids, all clocks, ticket TTLs of up to 292 years", "why_tests_cant": "all strings, including every integer syntax and overflow", "anchors": ["core/main.go: WatchAssignments (ctime from ID, timeout)"]}
{"id": "C95", "title": "A deactivated or matched ticket stays out of every instance's pools", "statement": "Once DeactivateTickets has said OK for a ticket, or a match containing it has been handed out, no snapshot taken by any om-core instance that has read the updates up to then contains it, unless somebody asks to activate it again.", "quantifier": "for all executions of any number of instances, with crashes, restarts, lagging replicas, arbitrary scheduling and concurrent calls", "why_tests_cant": "all interleavings of clients, instances, batches and faults", "anchors": ["core/main.go: DeactivateTickets, InvokeMatchmakingFunctions, updateTicketsActiveState", "core/internal/statestore/redis/redis.go: SendUpdates, GetUpdates", "core/internal/statestore/cache/replicatedticketcache.go: OutgoingReplicationQueue, IncomingReplicationQueue"]}
{"id": "C96", "title": "Assignments reach every instance and its watchers unchanged, and only those that were made", "statement": "Whatever an instance holds or a watcher is sent as the assignment of a ticket was asked for by a CreateAssignments call naming that ticket. Conversely, once CreateAssignments has said OK, every instance that has read the updates up to then holds that assignment until another one is made or it ages out, and a waiting watcher can be sent it.", "quantifier": "for all executions of any number of instances, with crashes, restarts, lagging replicas, arbitrary scheduling and concurrent calls; all watches", "why_tests_cant": "all interleavings of clients, instances, watchers, batches and faults", "anchors": ["core/main.go: CreateAssignments, WatchAssignments", "core/internal/statestore/redis/redis.go: SendUpdates, GetUpdates", "core/internal/statestore/cache/replicatedticketcache.go: IncomingReplicationQueue"]}
{"id": "C97", "title": "No ticket is taken out of the pools for a match nobody gets", "statement": "When InvokeMatchmakingFunctions has returned, every ticket it asked to deactivate is in a match that the matchmaker received.", "quantifier": "for all MMF behaviours, all schedules of the goroutines, and all moments at which the matchmaker disconnects", "why_tests_cant": "all interleavings of goroutines with the end of the client's stream", "anchors": ["core/main.go: InvokeMatchmakingFunctions (fan-in goroutine, match goroutines)"]}
{"id": "C98", "title": "Every REST request reaches exactly the RPC the interface names", "statement": "An HTTP request is passed to an RPC exactly when its method and path are those proto/v2/api.yaml gives for that RPC (POST forms with X-HTTP-Method-Override counting as the method named there); a path of the interface with another method is answered 501, any other path 404. The URLs used by the example matchmaker reach the calls it means. A request without a body is refused with status 400 before anything is queued, except a watch, which ends at once without results.", "quantifier": "for all methods, content types, override headers and paths; for all configurations, clocks, caches and schedules for the requests without body", "why_tests_cant": "all paths and methods: tests try the documented ones and a few wrong ones; overlaps between literal segments and verbs, trailing slashes and bare verbs are endless", "anchors": ["core/pkg/api/v2/api.pb.gw.go: RegisterOpenMatchServiceHandlerClient, request_OpenMatchService_*, pattern_OpenMatchService_*", "core/server.go: start", "proto/v2/api.yaml", "matchmaker-example/main.go: restfulGrpcPost"]}
{"id": "C99", "title": "Every function a request names is called at its place", "statement": "For every function spec in an InvokeMatchmakingFunctions request, om-core calls Run at host:port (at host, when no port is given) and relays what that function answers. Two specs with ports are called at the same address only if they name the same host and port.", "quantifier": "for all requests, hosts, ports and types, and all behaviours of the functions at all addresses", "why_tests_cant": "tests use specs with all fields filled in; the default of an enum and the text of an address matter for the specs nobody wrote a test for", "anchors": ["core/main.go: InvokeMatchmakingFunctions", "proto/v2/messages.proto: MatchmakingFunctionSpec", "matchmaker-example/main.go: main", "mmf/server/server.go: StartServer"]}
{"id": "C100", "title": "Every match says who made it, for which profile, with which score and when", "statement": "Every match of the three example functions carries the extensions score (an Int32Value of 100), mmfName (a StringValue with the function's name) and profileName (a StringValue with the name of the profile in the request), and the time it was made as a Timestamp: in the roster's extension CreationTime (1v1, battle royale) or in the match's extension creationTime (team shooter).", "quantifier": "for all profiles, orders of the pools, clocks and failing sends, and every match sent", "why_tests_cant": "the wrapped bytes depend on names of any length and on any time; a test decodes a few of them", "anchors": ["functions/golang/soloduel/soloduel.go: Run", "functions/golang/battleroyale/battleroyale.go: Run", "functions/golang/teamshooter/teamshooter.go: Run"]}
{"id": "C101", "title": "Match ids identify matches across calls", "statement": "Two different matches sent by the example functions, in the same or in different calls, have different ids, so that a match can be found in logs and traces by its id.", "quantifier": "for all pairs of runs of the three functions, all profiles and all clocks", "why_tests_cant": "collisions need two runs at nearly the same time, which a test meets by chance", "anchors": ["functions/golang/soloduel/soloduel.go: Run", "functions/golang/battleroyale/battleroyale.go: Run", "functions/golang/teamshooter/teamshooter.go: Run", "proto/v2/messages.proto: Match"]}
{"id": "C102", "title": "The function server listens on the configured port", "statement": "The stand-alone MMF server serves the port that the environment variable PORT names; without the variable, or when it is no number, it serves 8081; when the number is no port, it ends with an error.", "quantifier": "for all values of PORT, including signs, leading zeros and numbers of any length", "why_tests_cant": "all texts: overflow only shows for particular long numbers", "anchors": ["mmf/main.go: main", "mmf/server/server.go: StartServer"]}
{"id": "C103", "title": "The per-call metrics count the tickets that were updated", "statement": "Each ActivateTickets, DeactivateTickets or CreateAssignments call that is not refused records once in its histogram the number of tickets it activated, deactivated or assigned; a refused call records nothing.", "quantifier": "for all configurations, id lists, rosters and results of replication", "why_tests_cant": "depends on which updates fail", "anchors": ["core/main.go: ActivateTickets, DeactivateTickets, CreateAssignments", "core/metrics.go: registerMetrics"]}
{"id": "C104", "title": "A player in a match is not matched again by a later round", "statement": "Once a match has been handed to the matchmaker, after its tickets were deactivated without an error, no match of a later round has one of its players, unless somebody activates that player again.", "quantifier": "for all executions of any number of instances and clients, snapshots, profiles, mixes of the example functions, schedules and settings of OM_MATCH_TICKET_DEACTIVATION_WAIT", "why_tests_cant": "depends on how far each instance has read the replication stream when the later round takes its snapshot", "anchors": ["core/main.go: InvokeMatchmakingFunctions, updateTicketsActiveState", "core/internal/statestore/cache/replicatedticketcache.go: IncomingReplicationQueue", "core/internal/config/config.go: OM_MATCH_TICKET_DEACTIVATION_WAIT"]}
{"id": "C105", "title": "Expiration cycles are measured", "statement": "Every expiration cycle records its duration to the microsecond and the numbers of tickets, inactive ids and assignments it removed.", "quantifier": "for all caches, configurations, clocks and visiting orders of the maps", "why_tests_cant": "the counts depend on everything in the cache and on the clock at each entry", "anchors": ["core/internal/statestore/cache/replicatedticketcache.go: IncomingReplicationQueue", "core/internal/statestore/cache/metrics.go"]}
{"id": "C106", "title": "The API is served where it is configured to be", "statement": "If nobody else uses those ports, om-core serves gRPC at PORT and REST at 58081, and REST requests reach its own gRPC server; otherwise it does not come up.", "quantifier": "for all values of PORT, sets of ports in use, and ports the system may pick", "why_tests_cant": "quantifies over the environment and over what else runs on the machine", "anchors": ["core/server.go: start", "core/internal/config/config.go: PORT"]}
{"id": "C107", "title": "The API speaks the published message formats", "statement": "Whatever bytes encode a request under proto/v2/messages.proto, whoever wrote them and in whatever order, with repeated fields (the last one counts) and messages in several pieces, om-core reads exactly that request from them, refuses it exactly if some string in it is not text, and refuses all bytes that encode no such request, however deep in a nested message the defect is; the same holds for the matches of an MMF, the chunks an MMF gets and the answers a client gets, and the same reading for tickets and assignments kept in Redis. Everything om-core, the MMFs and the example matchmaker write encodes the message they mean under the same file, and they refuse to write exactly what contains a string that is not text.", "quantifier": "for all byte strings, messages, orders of fields and map entries, lengths of varints (up to ten bytes), omitted, explicit or repeated values and map keys, messages in pieces, and fields the file does not declare (groups excepted)", "why_tests_cant": "quantifies over all encoders and all messages; round trips within one program cannot see a wrong field number", "anchors": ["proto/v2/messages.proto", "core/pkg/pb/v2/messages.pb.go", "core/pkg/pb/v2/api_grpc.pb.go", "core/internal/statestore/redis/redis.go"]}
{"id": "C108", "title": "A server that fails ends the process", "statement": "When om-core's gRPC or REST server stops serving with an error, the process ends, so that its supervisor can start it anew; it never stays up without one of its servers.", "quantifier": "for all moments at which either server fails, results of registering the gateway, and interleavings of start with the goroutines of the two servers", "why_tests_cant": "depends on the interleaving of three goroutines that share one variable", "anchors": ["core/server.go: start"]}
{"id": "C109", "title": "A REST request means what its JSON says", "statement": "A REST call is made with exactly the message that its body is JSON for, under protobuf's JSON mapping of proto/v2/messages.proto: members in any order, under either name, defaults written, left out or null. An empty body is the empty message and what follows the first JSON value is ignored; every other body is answered with status 400. The message reaches om-core's gRPC server unchanged, and every ticket that can be created over gRPC can be created over REST.", "quantifier": "for all bodies (all byte strings), messages, and sets of extension types known to om-core", "why_tests_cant": "quantifies over every text that is or is not JSON for a message; tests show a few bodies", "anchors": ["core/server.go: start", "core/pkg/api/v2/api.pb.gw.go: request_OpenMatchService_CreateTicket_0", "core/pkg/pb/v2/messages.pb.go", "proto/v2/messages.proto"]}
{"id": "C110", "title": "REST answers carry the message", "statement": "Every response over REST is JSON for the response of the gRPC server, and a client gets the same stream of matches and of assignments over REST as over gRPC.", "quantifier": "for all responses and all streams of responses, including strings, times, doubles and extensions of any value", "why_tests_cant": "quantifies over all matches an MMF may return, including ones with values that JSON cannot hold", "anchors": ["core/pkg/api/v2/api.pb.gw.go: RegisterOpenMatchServiceHandlerClient", "core/server.go: start", "functions/golang/soloduel/soloduel.go: Run"]}
{"id": "C111", "title": "The example matchmaker gets the same over REST as it was sent", "statement": "Requests that the example matchmaker posts over REST are read by om-core as the requests it meant; the ticket ids and the matches it reads from the answers are those om-core sent.", "quantifier": "for all tickets, ids, profiles, MMF specs and streams of matches, and all ways in which protojson spaces its output", "why_tests_cant": "depends on every character that can occur in a match, because the stream is split by fmt.Fscanf at white space", "anchors": ["matchmaker-example/main.go: restfulGrpcPost", "matchmaker-example/main.go: activateTickets", "matchmaker-example/main.go: proxyCreateTicket", "core/pkg/api/v2/api.pb.gw.go"]}
{"id": "C112", "title": "The example activates every ticket it creates", "statement": "In the example's frontend a creation that fails, over gRPC or REST, costs only its own ticket: every ticket that om-core created is named in exactly one activation call, om-core takes every such call (as long as its limit on updates per call is at least the 500 the example sends) and activates exactly the created tickets in it.", "quantifier": "for all answers to the creations, orders in which they return, schedules of the two goroutines and of the activation calls, and any number of rounds", "why_tests_cant": "quantifies over interleavings of unboundedly many goroutines with failures at any point", "anchors": ["matchmaker-example/main.go: Run", "matchmaker-example/main.go: proxyCreateTicket", "matchmaker-example/main.go: restfulGrpcPost", "matchmaker-example/main.go: activateTickets", "core/main.go: ActivateTickets"]}
{"id": "C113", "title": "The example talks to the om-core it is told to", "statement": "The example matchmaker sends its calls to the host and port of the -omhost flag, with either type of connection; if neither side is configured, it finds an om-core on the same machine.", "quantifier": "for all values of the flags", "why_tests_cant": "a test names one host, and passes if om-core happens to run where the address is hard-coded", "anchors": ["matchmaker-example/main.go: main", "matchmaker-example/main.go: restfulGrpcPost", "core/server.go: start"]}
{"id": "C114", "title": "The example survives whatever om-core answers", "statement": "Whatever becomes of a call to InvokeMatchmakingFunctions (om-core is not there, refuses the call, or ends the stream of matches with or without an error), the example goes on to the next cycle with exactly the matches that om-core sent, over gRPC and over REST.", "quantifier": "for all outcomes of the call, all matches in the stream and all errors at its end, with any message", "why_tests_cant": "quantifies over every match and every error message; what a line of the body is split into depends on each character", "anchors": ["matchmaker-example/main.go: main", "core/pkg/api/v2/api.pb.gw.go: RegisterOpenMatchServiceHandlerClient"]}
{"id": "C115", "title": "The example's loop re-activates exactly the players of rejected matches, and ends", "statement": "Over any number of cycles every match received is either accepted or rejected and counted once; the players of the rejected matches, and nobody else, are named in activation calls that om-core takes, in order, each as often as it was rejected. The loop never gets stuck without having ended, it ends after a bounded number of steps, and only for the reasons it documents or when an answer cannot be read or a cycle rejects more than 10000 players.", "quantifier": "for all answers of om-core, random draws, iteration orders of rosters, flags, and schedules of the goroutines that make the activation calls", "why_tests_cant": "quantifies over unboundedly many cycles with arbitrary answers and over interleavings", "anchors": ["matchmaker-example/main.go: main", "matchmaker-example/main.go: activateTickets", "core/main.go: ActivateTickets"]}
{"id": "C116", "title": "The idle timeout of the Redis pools only concerns idle connections", "statement": "Whatever OM_REDIS_POOL_IDLE_TIMEOUT says (config.go: it 'directly maps to the redigo library pool configuration'), updates are stored and read as without it. A value is read as Go documents durations: \"5m\" is five minutes; and no value ever makes an instance miss an update.", "quantifier": "for all texts of the setting, batches, streams and positions in them, all times that connecting and answering take, and all ways of rounding fractions", "why_tests_cant": "quantifies over all texts of the setting and over the timing of an external server", "anchors": ["core/internal/statestore/redis/redis.go: New", "core/internal/config/config.go: Read", "core/internal/statestore/redis/redis.go: SendUpdates", "core/internal/statestore/redis/redis.go: GetUpdates"]}
{"id": "C117", "title": "Times configured in seconds or milliseconds last that long", "statement": "An OM_MMF_TIMEOUT_SECS of n lets a matchmaking function run for anything below n seconds and no longer; the ticket TTL and the waits of the cache are the configured number of seconds or milliseconds.", "quantifier": "for all environments and all numbers they may set", "why_tests_cant": "quantifies over all 64-bit numbers, including those whose product with the unit leaves the range", "anchors": ["core/main.go: InvokeMatchmakingFunctions", "core/main.go: CreateTicket", "core/main.go: WatchAssignments", "core/internal/statestore/cache/replicatedticketcache.go: OutgoingReplicationQueue", "core/internal/statestore/cache/replicatedticketcache.go: IncomingReplicationQueue"]}
{"id": "C118", "title": "The example's default set-up delivers every match over REST", "statement": "With players from the mock frontend, the example profile and the matchmaking functions of this repository, the example, talking to om-core over REST as it does by default, gets exactly the matches that om-core handed out in a round, in order, and goes on; more generally this holds for any tickets and profile name that JSON can hold and that have no blanks (a blank ends the example, see C114).", "quantifier": "for all executions that created the players, snapshots, iteration orders, chunkings, clocks, numbers of MMFs and schedules of the relay", "why_tests_cant": "quantifies over all populations, schedules and clocks, across om-core, gateway, MMF and example", "anchors": ["matchmaker-example/main.go: main", "matchmaker-example/main.go: generateMockClientRequest", "functions/golang/soloduel/soloduel.go: Run", "functions/golang/battleroyale/battleroyale.go: Run", "functions/golang/teamshooter/teamshooter.go: Run", "core/main.go: InvokeMatchmakingFunctions"]}
{"id": "C119", "title": "A failed call says so", "statement": "Whatever error a handler returns, clients get it: over gRPC the same status code, the same message (bytes that are not UTF-8 replaced by U+FFFD, each) and the same field violations; over REST the HTTP status that belongs to the code (never 200) and a JSON body with code, message and violations, and at the end of a stream the same under \"error\". In particular a creation that storage fails is reported as UNKNOWN / HTTP 500 with the storage error's text, a (de)activation error as INVALID_ARGUMENT / 400 with all its violations, and refusals with their message unchanged.", "quantifier": "for all errors (any code, message bytes and violations), all storage responses, requests and separators of JSON", "why_tests_cant": "quantifies over all message bytes, including percent signs, control characters, quotes and invalid UTF-8, through two encodings", "anchors": ["core/main.go: CreateTicket", "core/main.go: ActivateTickets", "core/main.go: DeactivateTickets", "core/main.go: CreateAssignments", "core/main.go: InvokeMatchmakingFunctions", "core/main.go: addStateUpdateErrorDetails", "core/server.go: start", "core/pkg/api/v2/api.pb.gw.go: RegisterOpenMatchServiceHandlerClient"]}
{"id": "C120", "title": "Whatever clients send is data to Redis, never commands", "statement": "Whatever bytes ticket ids, tickets and assignments hold (line ends, Redis protocol text such as \"*1\\r\\n$8\\r\\nFLUSHALL\\r\\n\", anything), what Redis takes out of the bytes that om-core writes are exactly the XADD commands that store the updates of the batch, in their order and with their exact bytes, and the trimming command at the end; if only part of the bytes arrives, a prefix of these commands. A poll is exactly one XREAD with the configured COUNT and BLOCK.", "quantifier": "for all batches of updates (texts of up to 512 MiB), clocks, TTLs and positions in the bytes; for all environments and positions in the stream", "why_tests_cant": "quantifies over all byte strings, including those that imitate the protocol, and over every place where the data can be cut", "anchors": ["core/internal/statestore/redis/redis.go: SendUpdates", "core/internal/statestore/redis/redis.go: GetUpdates"]}
{"id": "C121", "title": "A connection to Redis that breaks loses whole updates, never halves", "statement": "Wherever the connection breaks (after any byte of the log-in, the batch or the replies), the replication stream holds afterwards only entries that it held before and whole updates of the batch; the call sees either all replies or a failure as a whole. A poll that breaks, is refused or cannot log in returns nothing and leaves the reading position, so that the next poll reads the same updates. Updates written over a connection that holds are read back, through another, with the same bytes and in the same order.", "quantifier": "for all batches, streams, environments, error replies and cuts in either direction", "why_tests_cant": "quantifies over every byte at which a connection can break and all contents of updates and replies", "anchors": ["core/internal/statestore/redis/redis.go: SendUpdates", "core/internal/statestore/redis/redis.go: GetUpdates"]}
{"id": "C122", "title": "om-core logs in to Redis as configured", "statement": "A connection for writing starts with AUTH for exactly the user and the password of OM_REDIS_WRITE_USER and OM_REDIS_WRITE_PASSWORD, one for reading with those of OM_REDIS_READ_USER and OM_REDIS_READ_PASSWORD; unset or empty variables mean \"default\" and \"om-redis\". With a Redis that knows one user, updates are stored exactly if that user and password are the configured ones. If the log-in is refused or does not get through, nothing is written and a poll returns nothing.", "quantifier": "for all environments, users, passwords, streams and updates", "why_tests_cant": "quantifies over all environments and all answers of Redis", "anchors": ["core/internal/statestore/redis/redis.go: New", "core/internal/config/config.go: Read", "core/internal/statestore/redis/redis.go: SendUpdates", "core/internal/statestore/redis/redis.go: GetUpdates"]}
{"id": "C123", "title": "A scrape of the metrics shows one expiration cycle", "statement": "The gauges for active tickets, inactive tickets and assignments that a scrape reports are those of one finished expiration cycle, never of a count under way. (What holds: every number read is one of a finished cycle, and they are at most as far apart as the number of cycles that end during the scrape; a scrape that no cycle ends during shows the last cycle.)", "quantifier": "for all sequences of expiration cycles and all interleavings of their writes with the reads of a scrape", "why_tests_cant": "quantifies over all interleavings of two goroutines; a test runs one, and the window is a few instructions wide", "anchors": ["core/internal/statestore/cache/metrics.go: RegisterMetrics", "core/internal/statestore/cache/replicatedticketcache.go: IncomingReplicationQueue"]}
{"id": "C124", "title": "Clients cannot grow om-core's metrics", "statement": "The number of time series that om-core keeps for calls and their errors is bounded whatever clients send. (What holds: it is at most six, one per method, for calls that succeed, and at most the methods times one more than the different texts of errors; the texts of refused activations are as many as there are sizes of requests.)", "quantifier": "for all configurations and all histories of calls", "why_tests_cant": "quantifies over unbounded histories of calls", "anchors": ["core/server.go: HandleRPC", "core/main.go: ActivateTickets", "core/main.go: DeactivateTickets", "core/pkg/pb/v2/api_grpc.pb.go: OpenMatchService_ServiceDesc"]}
{"id": "C125", "title": "Activating tickets never crashes the example matchmaker", "statement": "However many tickets await activation and however the goroutines that activate them are scheduled, activateTickets ends without a panic. (What holds: no schedule makes it panic unless more than 500 ids have been put in the channel; with more than 500 ids some schedule does, since the WaitGroup's Add runs inside the goroutines.)", "quantifier": "for all contents of the channel of tickets awaiting activation, all ids put in it meanwhile, and all schedules", "why_tests_cant": "quantifies over all interleavings of the goroutines; the panic needs a goroutine to start between two instructions of another", "anchors": ["matchmaker-example/main.go: activateTickets"]}
{"id": "C126", "title": "An instance goes on serving for as long as it runs", "statement": "Among any number of Redis-backed instances, whatever has happened: an instance that is up can, without a restart, come to apply everything in the stream, and a call at an instance that is up can come to an end. (What holds: always if OM_REDIS_POOL_MAX_ACTIVE is 0 or less, and otherwise in executions of at most that many steps. By default, after 500 polls an instance never learns anything any more, and after 500 batches no new call that has to be stored ever returns.)", "quantifier": "for all executions of any number of instances, with failures, crashes and restarts, all codecs, settings and limits", "why_tests_cant": "quantifies over all executions and all their continuations; the failure needs an instance to have run for minutes", "anchors": ["core/internal/statestore/redis/redis.go: New, SendUpdates, GetUpdates", "core/internal/statestore/cache/replicatedticketcache.go: OutgoingReplicationQueue, IncomingReplicationQueue", "core/internal/config/config.go: OM_REDIS_POOL_MAX_ACTIVE"]}
{"id": "C127", "title": "A ticket that om-core accepts does not keep other players from being matched", "statement": "If the bundled 1v1 function can make a match out of some accepted tickets, it still can when one more accepted ticket joins the snapshot. (What holds: whenever tickets have at least 64 bytes and leave room for the profile in a 4,000,000-byte chunk, and pool names are not excessively many or long, every chunk arrives and the function has exactly the tickets that fit. But CreateTicket accepts up to 4 MiB, and a stored ticket near that makes a chunk that no function can receive: for every profile that admits it none of the bundled functions makes any match, and the matchmaker just gets none.)", "quantifier": "for all profiles, snapshots of accepted tickets, iteration orders, clocks, and schedules of the relay", "why_tests_cant": "quantifies over all tickets and profiles; the failure needs a message at a limit that is set nowhere in the code", "anchors": ["core/main.go: CreateTicket, InvokeMatchmakingFunctions", "core/server.go: start", "mmf/server/server.go: StartServer, GetChunkedRequest", "functions/golang/soloduel/soloduel.go: Run", "functions/golang/battleroyale/battleroyale.go: Run", "functions/golang/teamshooter/teamshooter.go: Run"]}
{"id": "C128", "title": "Every match a function sends reaches om-core", "statement": "om-core receives all the matches that a bundled function sends for a request that reached it. (What holds: when no ticket is longer than 41,000 bytes and neither the profile's name nor the matches' ids are longer than 10,000. In general om-core gets the matches before the first one that is longer than 4 MiB, and then an error.)", "quantifier": "for all profiles, snapshots of accepted tickets, iteration orders, clocks and failing sends, for each of the three functions", "why_tests_cant": "quantifies over all tickets; the failure needs several large but legal tickets in one match", "anchors": ["core/main.go: InvokeMatchmakingFunctions", "functions/golang/soloduel/soloduel.go: Run", "functions/golang/battleroyale/battleroyale.go: Run", "functions/golang/teamshooter/teamshooter.go: Run", "proto/v2/messages.proto: StreamedMmfResponse"]}
{"id": "C129", "title": "Metrics can be scraped as long as om-core runs", "statement": "As long as om-core runs, every client that can reach port 2223 gets its metrics at /metrics.", "quantifier": "for all values of PORT, sets of ports in use, and orders in which om-core's servers ask for their ports", "why_tests_cant": "quantifies over what else runs on the machine and over races between four goroutines", "anchors": ["core/metrics.go: initializeOtel", "core/server.go: start", "core/main.go: main"]}
{"id": "C130", "title": "Profiles are for clients on the same machine", "statement": "The profiling pages, which main serves at localhost only, are not available to clients on other machines at any port of om-core's.", "quantifier": "for all configurations, ports, and paths requested", "why_tests_cant": "a test would have to try all paths at all ports; the exposure comes from two servers sharing a global of net/http", "anchors": ["core/main.go: main", "core/metrics.go: initializeOtel"]}
{"id": "C131", "title": "An update is answered in bounded time", "statement": "While calls to the storage return (with Redis, an instance's connections run out after a while: C126): a handler that has an update for the replication queue while k others are waiting before it gets its result within the wait timeout plus the time of k/threshold + 2 calls of the storage, whatever arrives before and afterwards; updates are taken each once and in order, and the queue is never stuck.", "quantifier": "for all arrivals and schedules, all thresholds (also those of 0 or less), all positive wait timeouts, all bounds on the time of one call of the storage", "why_tests_cant": "a latency bound is about the worst schedule of arrivals against two timers and a batch in flight; tests see some schedules", "anchors": ["core/internal/statestore/cache/replicatedticketcache.go: OutgoingReplicationQueue", "core/main.go: main (UpRequests)"]}
{"id": "C132", "title": "A replicated update is applied in bounded time", "statement": "While reads from and writes to the storage succeed (with Redis, an instance's connections run out after a while: C126): an update that comes into the stream while an instance has k others still to apply is shown by that instance's cache within the time of one read and one cycle plus k/N + 1 cycles with their sleeps (N: the most updates per poll), whatever else arrives; updates are applied each once and in order, and neither goroutine is ever stuck. The bound is reached, and needs reads to be faster than the sleep.", "quantifier": "for all arrivals and schedules of the two goroutines, all positive limits per poll, all wait timeouts longer than a read, all bounds on the time of a cycle", "why_tests_cant": "two goroutines race over a channel that is drained only at intervals; which updates miss a cycle depends on the schedule, and the worst one needs exact timing", "anchors": ["core/internal/statestore/cache/replicatedticketcache.go: IncomingReplicationQueue", "core/internal/statestore/redis/redis.go: GetUpdates"]}
{"id": "C133", "title": "A player is in at most one match of a call", "statement": "The matches a matchmaker receives from one call of InvokeMatchmakingFunctions never contain the same player twice. (False of the code as soon as two functions are invoked; it holds for each one of the example's functions alone. What holds in general: when all functions end normally, each player is in exactly as many of the matches received as the functions put them in.)", "quantifier": "for all populations in which each player plays one class, all map orders, chunkings, failing sends, schedules; for the exact count, all functions and matches", "why_tests_cant": "needs several functions to run on the same tickets and the matches to be counted over all interleavings of their relay goroutines", "anchors": ["core/main.go: InvokeMatchmakingFunctions", "functions/golang/soloduel/soloduel.go: Run", "functions/golang/teamshooter/teamshooter.go: Run"]}
{"id": "C134", "title": "Waiting players are served eventually", "statement": "With rounds of soloduel in which nothing goes wrong, there is a number of rounds after which every player that has been waiting is matched. (False of the code: the order of the tickets comes from ranging over a sync.Map, so of an odd number of players any one can be left over, round after round, while everybody who came later is served. What holds: at most one player who fits a pool is left over in a round.)", "quantifier": "for all numbers of rounds, all odd numbers of waiting players, all players; for the partial claim all profiles, also with overlapping pools, and all tickets", "why_tests_cant": "starvation shows only over unboundedly many rounds, in orders that the runtime may but need not choose", "anchors": ["core/main.go: setDifference", "core/main.go: InvokeMatchmakingFunctions", "functions/golang/soloduel/soloduel.go: Run"]}
{"id": "C135", "title": "A function can read its request to the end", "statement": "A matchmaking function that receives chunks until its stream ends and then sends its matches is served: the call ends, and om-core receives exactly its matches. (False of the code, for every request: om-core never closes its side of the stream, so such a function waits until the deadline and its matches are lost. What holds: a function that counts chunks with GetChunkedRequest, as those of the repository do, gets the whole request and om-core gets all its matches, whatever the flow control; and with CloseSend the claim would hold.)", "quantifier": "for all requests, functions of this shape, schedules, and flow control behaviours", "why_tests_cant": "the test would have to tell a function that waits for ever from a slow one, for all requests and schedules of the two sides", "anchors": ["core/main.go: InvokeMatchmakingFunctions", "mmf/server/server.go: GetChunkedRequest"]}
{"id": "C136", "title": "A function can answer before it has read everything", "statement": "A matchmaking function that receives all chunks of its request may send matches in between. (False of the code: om-core receives nothing before it has sent all chunks, so however much the connection holds there is such a function that hangs together with om-core until the deadline, without one match received. What holds: it is served if the connection has room for the matches sent before the last chunk is received.)", "quantifier": "for all bounded flow control behaviours, numbers of chunks, sequences of receives and sends, and schedules", "why_tests_cant": "the deadlock needs a request of several chunks and more early matches than the connection buffers, which depends on window sizes and timing", "anchors": ["core/main.go: InvokeMatchmakingFunctions"]}
{"id": "C137", "title": "A starting instance offers nobody who was matched before", "statement": "An om-core instance that is started (or restarted) after a player was matched never puts that player into a pool, unless they are activated again. (False of the code: it answers calls from the first moment on, while it replays the stream from its beginning, and shows every past state of the pools on the way, from an empty cache to the present one. What holds: it is true as soon as the instance has applied what was in the stream when it was started.)", "quantifier": "for all executions of any number of instances with crashes and starts, all tickets, matches, and moments at which the new instance is asked", "why_tests_cant": "the window depends on how much of the stream the new instance has replayed when it is first called; tests start with an empty stream", "anchors": ["core/main.go: main", "core/internal/statestore/redis/redis.go: New, GetUpdates", "core/internal/statestore/cache/replicatedticketcache.go: IncomingReplicationQueue"]}
{"id": "C138", "title": "A call may be repeated when its answer was lost", "statement": "A client whose call got no answer, because the instance or the connection died, may make the same call again: the effect is as if it had been made once. (False of ActivateTickets: if the lost call had taken effect and the ticket was matched in the meantime, the repetition puts a matched player back into the pools. What holds: repeated changes of state and assignments change nothing unless something that undoes them came in between; a ticket created twice is in no pool under the id that nobody was told.)", "quantifier": "for all histories of updates, all executions with crashes, all tickets", "why_tests_cant": "needs an instance that dies between writing to Redis and answering, and a match between the two calls", "anchors": ["core/main.go: ActivateTickets, DeactivateTickets, CreateAssignments, CreateTicket", "core/internal/statestore/cache/replicatedticketcache.go: IncomingReplicationQueue"]}
{"id": "C139", "title": "What a call changes is seen by all instances in bounded time", "statement": "While reads from and writes to the storage succeed (with Redis, an instance's connections run out after a while: C126): a ticket that is created, activated, deactivated or assigned at one om-core instance is so at every instance within a time that follows from the settings: the outgoing wait timeout and two batches (more if there is a queue), one read and one cycle, and one incoming wait timeout and cycle for every OM_CACHE_IN_MAX_UPDATES_PER_POLL updates that instance is behind, and one more. From the answer of the call on, the incoming part of that time. Every instance sees all updates of all instances once, in one order.", "quantifier": "for all numbers of instances, settings, executions, interleavings of the queues and of the commands of different instances in Redis, and positions of the update", "why_tests_cant": "the bound is reached only in particular phases of two timers of different processes and of the batches before it; tests see one phase", "anchors": ["core/internal/statestore/cache/replicatedticketcache.go: OutgoingReplicationQueue, IncomingReplicationQueue", "core/internal/statestore/redis/redis.go: SendUpdates, GetUpdates", "core/internal/config/config.go: Read"]}
{"id": "C140", "title": "Under bounded load the instances keep up", "statement": "While reads from and writes to the storage succeed (with Redis, an instance's connections run out after a while: C126): as long as the calls to all instances together cause no more than B updates in any stretch of time of a length W that follows from B and the settings, every update is answered and seen by every instance within W; nothing else need be assumed about how far an instance is behind. Any load of A updates per U for which A updates take less than U to be sent in full batches and applied in full polls is sustained for ever, whatever the bursts: there is a time within which every instance has every update. One instance sustains any load of fewer than OM_CACHE_IN_MAX_UPDATES_PER_POLL updates per incoming wait timeout and cycle, whatever the bursts, with a bounded number of updates still to apply; with one update more per cycle it may fall behind without end.", "quantifier": "for all settings, loads, bursts, numbers of instances, executions and interleavings", "why_tests_cant": "that a queue stays bounded for ever is a statement about all executions of all lengths; a load test shows one of them for a while", "anchors": ["core/internal/statestore/cache/replicatedticketcache.go: OutgoingReplicationQueue, IncomingReplicationQueue", "core/internal/statestore/redis/redis.go: SendUpdates, GetUpdates", "core/internal/config/config.go: Read"]}
{"id": "C141", "title": "When an instance is told to stop", "statement": "After SIGTERM or SIGINT an instance ends; it takes no further calls and leaves no client waiting; nothing that was confirmed to a client is lost, and nothing is stored twice. A call in progress is either carried out and confirmed, or not carried out.", "quantifier": "for every moment at which the signal comes, every number of calls in progress with any number of updates each, and every state of the outgoing queue and of the batch that Redis is executing", "why_tests_cant": "The outcome depends on where each of any number of calls, the queue and Redis are when the signal comes; a test stops the server at a few chosen moments.", "anchors": ["core/server.go: start", "core/main.go: main, CreateTicket, updateTicketsActiveState", "core/internal/statestore/cache/replicatedticketcache.go: OutgoingReplicationQueue"]}
{"id": "C142", "title": "Within a bounded time the pools of every instance show what was done", "statement": "While reads from and writes to the storage succeed (with Redis, an instance's connections run out after a while: C126): a ticket whose CreateTicket was answered is activated through some om-core instance. If the instances together have at most B updates in any stretch of time of a length W that follows from the settings (the waits and sizes of the queues) and from the longest times of a batch, a read and a cycle, then every InvokeMatchmakingFunctions call that looks at the pools of any instance later than W after the activation came to its queue finds the ticket, with the content it was created with, unless the ticket expired or a deactivation was requested in the meantime. In the same way, later than W after a deactivation (by a call, or because the ticket was in a returned match) came to a queue, no instance offers the ticket, unless it is activated again.", "quantifier": "for every number of instances, all settings with a positive timeout and size, all executions of the queues, Redis and the incoming goroutines of all instances, every ticket, every pair of instances, and every snapshot that is taken while the cache changes", "why_tests_cant": "The delay depends on the interleaving of the queues of all instances with Redis and with the reader, and on what else happens to the cache while it is read; a test sees one timing on one or two instances.", "anchors": ["core/internal/statestore/cache/replicatedticketcache.go: OutgoingReplicationQueue, IncomingReplicationQueue", "core/internal/statestore/redis/redis.go: SendUpdates, GetUpdates", "core/main.go: ActivateTickets, DeactivateTickets, InvokeMatchmakingFunctions"]}
{"id": "C143", "title": "Whoever watches a ticket is told of its assignment within a bounded time", "statement": "While reads from and writes to the storage succeed (C126) and a client takes each response within S: from the moment the assignment of a requested ticket is in an instance's cache, a WatchAssignments call at that instance sends a response for it within one second and S for each id of the call. Hence, under the load of C142, within W, a tick of the clock, a second and S for each id after a handler of any instance has the assignment, a call at any instance has sent its response (for a call that begins later than W: within the second and S for each id after it began). What is sent is an assignment that a handler had for that ticket. A call ends no later than its timer (with the default settings and ids created before the call, ten minutes after it began) and S for each id. Exceptions: the call gives up before (C60, C73, C74), or the assignment has expired (C32).", "quantifier": "for every number of instances, all settings with a positive timeout and size, all executions of the queues, Redis, the incoming goroutines and the call's own goroutines, every list of ids, every moment at which the call begins, and every pair of instances", "why_tests_cant": "The delay is made of the queues of all instances, Redis, the reader, the cycle of the cache and a goroutine for each id with its own second of sleep, in any interleaving; a test sees one of them.", "anchors": ["core/main.go: WatchAssignments, CreateAssignments", "core/internal/statestore/cache/replicatedticketcache.go: OutgoingReplicationQueue, IncomingReplicationQueue", "core/internal/statestore/redis/redis.go: SendUpdates, GetUpdates"]}
{"id": "C144", "title": "What an instance keeps in memory depends on what was done lately", "statement": "After an expiration cycle, an instance keeps in memory no ticket, no inactive id and no assignment other than of tickets that were created within the times for which tickets and assignments are to be kept (OM_TICKET_TTL_SECS and, for assignments, OM_ASSIGNMENT_ADDITIONAL_TTL_SECS). So its memory does not grow with the time it runs, or with the length of the history a starting instance reads.", "quantifier": "for every history of updates and expiration cycles, every codec and all settings", "why_tests_cant": "A leak shows after many tickets and long times; a test runs for seconds, with few tickets, and mostly with made-up ids.", "anchors": ["core/internal/statestore/cache/replicatedticketcache.go: IncomingReplicationQueue", "core/internal/statestore/redis/redis.go: GetUpdates"]}
{"id": "C145", "title": "A matchmaker is told when a pool of its profile is refused", "statement": "If a pool of the profile in a call of InvokeMatchmakingFunctions is refused because its creation-time filter has an illegal timestamp, the call does not end with OK. (What holds: the refusal is only logged. Whatever the matchmaker and the functions are given is what they would be given had the pool been legal and without players: the same tickets under every pool name, and the pool's own name missing.)", "quantifier": "all profiles with a refused pool, all snapshots of the ticket cache, all iteration orders, all matchmaking functions and schedules", "why_tests_cant": "that nothing in any answer tells a refused pool from an empty one is a claim about all profiles, tickets and executions", "anchors": ["core/main.go: InvokeMatchmakingFunctions", "core/internal/filter/filter.go: ValidatePoolFilters", "mmf/server/server.go: GetChunkedRequest"]}
{"id": "C146", "title": "A call is carried out in full although its client has given up", "statement": "When the client of a call that changes tickets (CreateTicket, ActivateTickets, DeactivateTickets, CreateAssignments) gives up waiting, or its deadline passes, the instance does exactly what it would have done had the client waited: the same updates are sent, stored and confirmed, for that call and for all others, and as long as the instance is not stopped all of the call can be stored. What is stored at the moment of giving up may be all, some or none of it.", "quantifier": "all sequences of calls with any number of updates, all moments at which any clients give up, all schedules of handlers, queue and Redis, with and without a signal to stop", "why_tests_cant": "a test gives up at one moment of one schedule; the claim is that no moment in any schedule makes a difference", "anchors": ["core/main.go: CreateTicket", "core/main.go: updateTicketsActiveState", "core/main.go: CreateAssignments", "core/internal/statestore/cache/replicatedticketcache.go: OutgoingReplicationQueue"]}
{"id": "C147", "title": "Failed calls of the example are reported with their reason and repeated", "statement": "A CreateTicket or ActivateTickets call of the example matchmaker that om-core answers with an error leaves an error in the example's log, and none otherwise; the line carries om-core's code and message; and the tickets of an activation call that failed are named in a later call.", "quantifier": "for all answers of om-core (success, every status code and message, answers that cannot be read), both connection types, and all executions of the mock frontend", "why_tests_cant": "A test provokes one error over one connection type; that every error is reported and which reasons get lost depends on all bodies the gateway can write, and that nothing is repeated is about every later execution.", "anchors": ["matchmaker-example/main.go: activateTickets", "matchmaker-example/main.go: proxyCreateTicket", "matchmaker-example/main.go: restfulGrpcPost"]}
{"id": "C148", "title": "After an outage of Redis an instance catches up in bounded time", "statement": "As long as an instance's connections do not run out (C126): while Redis cannot be read, an instance misses nothing for good: when it can be read again, the updates written meanwhile are applied once each and in order, number q of those still to apply within one read, one cycle and q/N + 1 further cycles with their sleeps, and later updates as if there had been no outage. During the outage the instance sees nothing of what is written.", "quantifier": "for all numbers, lengths and moments of outages, all interleavings of writers, the reading and the applying goroutine and the clock, all settings with reads faster than the sleep", "why_tests_cant": "A test can cut one connection once; that nothing is lost or repeated and how long catching up takes depends on where the goroutines are when reading fails and when it succeeds again.", "anchors": ["core/internal/statestore/redis/redis.go: GetUpdates", "core/internal/statestore/cache/replicatedticketcache.go: IncomingReplicationQueue"]}
{"id": "C149", "title": "The generated code declares what the published files declare", "statement": "The code generated from proto/v2 that the programs are built with declares exactly the messages, fields, types, numbers, JSON names and enum values of messages.proto, with nothing more to a field (no oneof, default or option); the Go structs and the tables that resolve types agree with it. So a program in any language generated from the published files and these programs read the same bytes the same way: bytes can be read as a type exactly if they are a message of that type as declared, at any depth.", "quantifier": "for all messages and fields declared, and for all byte strings and all types", "why_tests_cant": "Tests are compiled against the same generated code, so a descriptor that is out of date agrees with itself; bytes from other programs are not among their inputs.", "anchors": ["core/pkg/pb/v2/messages.pb.go: file_messages_proto_rawDesc", "core/pkg/pb/v2/messages.pb.go: file_messages_proto_depIdxs", "core/pkg/pb/v2/messages.pb.go: Ticket", "proto/v2/messages.proto: Ticket"]}
{"id": "C150", "title": "gRPC calls reach the function of their name", "statement": "The generated code declares the published services, with their requests, responses and streams. A call that a client makes reaches the function of the method's name and no other; a call of any other path is answered with the code Unimplemented and runs nothing. The path that om-core calls at a matchmaking function is the one that its server runs Run for.", "quantifier": "for all paths and all methods", "why_tests_cant": "A test calls the methods there are; that every other path runs nothing is about all texts, and a table entry with the wrong handler of the same types (ActivateTickets and DeactivateTickets look alike) passes tests that only look at the answer.", "anchors": ["core/pkg/pb/v2/api_grpc.pb.go: OpenMatchService_ServiceDesc", "core/pkg/pb/v2/api_grpc.pb.go: _OpenMatchService_CreateTicket_Handler", "core/pkg/pb/v2/mmf_grpc.pb.go: MatchMakingFunctionService_ServiceDesc", "core/server.go: start", "proto/v2/api.proto: OpenMatchService"]}
{"id": "C151", "title": "Passwords stay out of the log", "statement": "What reading the configuration writes to the log does not depend on OM_REDIS_WRITE_PASSWORD and OM_REDIS_READ_PASSWORD: nobody who can read the log learns anything about them.", "quantifier": "for all environments, all values of the two passwords, all log levels and all orders in which the settings are listed", "why_tests_cant": "That nothing about a secret can be learnt from an output is a statement about pairs of runs with different secrets, for all other settings; a test looks at one output and one secret.", "anchors": ["core/internal/config/config.go: Read", "core/internal/logging/logging.go: ConfigureLogging"]}
{"id": "C152", "title": "Every record of the log is one line that says what happened, and clients cannot forge any", "statement": "Whatever bytes clients, matchmaking functions or Redis put into what is logged, the log has exactly one line for each record, in order; the line shows exactly the record's level, time, message and fields, and cannot be read as that of another level, time or message. In particular no ticket id that a client sends makes a line of its own.", "quantifier": "for all sequences of records with arbitrary bytes in messages and fields, for the JSON format, the text format and the text format on a terminal", "why_tests_cant": "Forging a line takes particular bytes (newlines, quotation marks, halves of characters); that none of all byte strings does it cannot be sampled.", "anchors": ["core/internal/logging/logging.go: ConfigureLogging", "core/main.go: CreateTicket"]}
{"id": "C153", "title": "Whoever asks for debug logging finds the configuration in effect in the log", "statement": "With OM_LOGGING_LEVEL debug or trace, in any mixture of cases (which is how the level is read), the log shows every setting with the value in effect, whether set or default; with other levels no setting is shown.", "quantifier": "for all environments, all spellings of the level, all settings and values", "why_tests_cant": "A test tries one spelling of the level and one environment; the dump and the level are decided by two different comparisons that agree on that spelling.", "anchors": ["core/internal/config/config.go: Read", "core/internal/logging/logging.go: ConfigureLogging, toLevel"]}
{"id": "C154", "title": "The closing line tells what the instance held", "statement": "When an instance stops it logs how many tickets, active tickets, inactive tickets and assignments its cache holds. The numbers are those of the cache (up to what is still applied while they are taken), a ticket counts as active exactly if it could appear in a pool, and active and inactive tickets add up to the tickets.", "quantifier": "for all histories of updates and expirations, all moments, and all interleavings of the four counts with the goroutine that goes on writing", "why_tests_cant": "The counts are taken one after the other while another goroutine writes the maps; a test sees one interleaving, and it needs a particular history (an inactive id without ticket) to see that the sum is wrong.", "anchors": ["core/main.go: main, syncMapDump, setDifference"]}
{"id": "C155", "title": "The example says after each cycle what came of it", "statement": "After every cycle the example matchmaker logs the number of the cycle and of all cycles, how many matches om-core sent, how many of them it approved and rejected, and the error that om-core ended the call with; and after a cycle with matches, how many tickets of rejected matches it queued to be activated again. The approvals and rejections logged add up to its two counters, and its last words say whether it stopped for lack of matches.", "quantifier": "for all executions of the loop, all answers of om-core over gRPC and REST, all random draws, all settings of -cycles and -ignoreEmpty", "why_tests_cant": "The variable that the line prints is not the one the call sets; a test sees a nil error in every successful run. Over REST the count is wrong only for streams that end with an error.", "anchors": ["matchmaker-example/main.go: main"]}
