import Verif.Model.Outgoing
/-!
# The channels between handlers, queues and cache

`Verif/Model/Outgoing.lean` runs a batch in one step.  Here every channel operation is a
step of its own, so that blocking is visible: the handlers' sends on `tc.UpRequests`
(unbuffered, core/main.go:101) and receives on their results channels, the outgoing
queue (core/internal/statestore/cache/replicatedticketcache.go:74-127), the in-memory
replicator's `replChan` (unbuffered, core/internal/statestore/memory/main.go:33), the
polling goroutine (replicatedticketcache.go:145-154) and the drain loop (:157-222).

A step that would block is not enabled (`none`); a Go panic sets `panicked`, after which
nothing runs.  The scheduler is the list of labels.
-/
namespace OM.Pipe

/-- The three shapes of handler code that use the outgoing queue. -/
inductive Kind where
  /-- CreateTicket: one update, unbuffered results channel, never closed (core/main.go:201-220). -/
  | create (u : StateUpdate)
  /-- updateTicketsActiveState: one update per id, a channel with room for all of them,
  closed on return (core/main.go:238-274). -/
  | states (us : List StateUpdate)
  /-- CreateAssignments: room for the whole roster of `n` tickets, an update for each
  ticket with an id (core/main.go:750-780). -/
  | assigns (us : List StateUpdate) (n : Nat)

/-- One running call: its results channel (capacity, buffer, whether return closes it),
the updates it has still to send on `UpRequests`, the results received, how many its
receive loop still wants, and whether it has returned.  `ups` are all its updates. -/
structure Call where
  ups : List StateUpdate
  cap : Nat
  closes : Bool
  todo : List StateUpdate
  buf : List StateResponse
  got : List StateResponse
  need : Nat
  done : Bool

/-- core/main.go:201, :238-239, :750: the channels made. -/
def Call.start : Kind → Call
  | .create u => ⟨[u], 0, false, [u], [], [], 1, false⟩
  | .states us => ⟨us, us.length, true, us, [], [], us.length, false⟩
  | .assigns us n => ⟨us, n, false, us, [], [], us.length, false⟩

/-- Where the outgoing goroutine is: collecting (:94-112), inside `SendUpdates` with the
requests not yet written and the results so far, or delivering (:121-124). -/
inductive Out where
  | collect (pending : List Req)
  | send (rest : List Req) (acc : List (Nat × StateResponse))
  | deliver (rest : List (Nat × StateResponse))

/-- Where the polling goroutine is: inside `GetUpdates` with what it has read so far, or
copying the result to `replStream` (:150-152). -/
inductive Inp where
  | reading (got : List StateUpdate)
  | pushing (rest : List StateUpdate)

/-- The process.  `log` records every request answered by the replicator; `applied`
every update the drain loop took. -/
structure St where
  calls : List Call
  out : Out
  mem : MemRepl
  inp : Inp
  stream : List StateUpdate
  applied : List StateUpdate
  log : List (Nat × StateUpdate × StateResponse)
  panicked : Bool

def St.init (m : MemRepl) : St := ⟨[], .collect [], m, .reading [], [], [], [], false⟩

/-- The steps. -/
inductive Lab where
  /-- a call begins -/
  | call (k : Kind)
  /-- call `i` hands its next update to the outgoing queue -/
  | submit (i : Nat)
  /-- OM_CACHE_OUT_WAIT_TIMEOUT_MS elapses -/
  | tick
  /-- the in-memory SendUpdates hands one update to GetUpdates, with the clock readings
  of its getReplId -/
  | publish (now1 now2 : Int)
  /-- some other replicator's SendUpdates returns these responses -/
  | sent (rs : List StateResponse)
  /-- some other replicator's GetUpdates returns these updates -/
  | polled (us : List StateUpdate)
  /-- the in-memory GetUpdates times out -/
  | getTick
  /-- the polling goroutine puts an update on `replStream` -/
  | push
  /-- the drain loop takes an update -/
  | drain
  /-- the outgoing queue puts the next result on its results channel -/
  | deliver
  /-- call `i` takes a result from its channel -/
  | recv (i : Nat)
  /-- call `i` returns -/
  | ret (i : Nat)

/-- Which replicator is plugged in (core/main.go:102-116). -/
inductive Backend where
  | memory
  | other
  deriving DecidableEq

/-- :114-118: start `SendUpdates` unless there is nothing to send. -/
def Out.flush : List Req → Out
  | [] => .collect []
  | q :: qs => .send (q :: qs) []

/-- :98-105: send at the threshold, else go on collecting. -/
def Out.afterReceive (thr : Int) (p : List Req) : Out :=
  if (p.length : Int) ≥ thr then .flush p else .collect p

/-- After the last delivery the loop starts over (:88-91). -/
def Out.afterDeliver : List (Nat × StateResponse) → Out
  | [] => .collect []
  | d :: ds => .deliver (d :: ds)

/-- After the last write `SendUpdates` returns and delivery begins. -/
def Out.afterSend : List Req → List (Nat × StateResponse) → Out
  | [], acc => .afterDeliver acc
  | q :: qs, acc => .send (q :: qs) acc

/-- After the last push the goroutine polls again. -/
def Inp.afterPush : List StateUpdate → Inp
  | [] => .reading []
  | u :: us => .pushing (u :: us)

/-- core/main.go:205-212 / :256-268 / :755-767 with replicatedticketcache.go:96-105: the
rendezvous on `UpRequests`; at the threshold the batch is sent. -/
def submitStep (thr : Int) (s : St) (i : Nat) : Option St :=
  match s.out, s.calls[i]? with
  | .collect p, some c =>
    match c.todo with
    | [] => none
    | u :: us =>
      some { s with
        calls := s.calls.set i { c with todo := us }
        out := .afterReceive thr (p ++ [⟨i, u⟩]) }
  | _, _ => none

/-- memory/main.go:81-90: one iteration of `SendUpdates`, meeting the receive of
`GetUpdates` (:59-62). -/
def publishStep (s : St) (now1 now2 : Int) : Option St :=
  match s.out, s.inp with
  | .send (q :: qs) acc, .reading g =>
    let (replId, m) := s.mem.getReplId now1 now2
    let r : StateResponse := ⟨replId, none⟩
    some { s with
      out := .afterSend qs (acc ++ [(q.caller, r)])
      mem := m
      inp := .reading (g ++ [memPublished q.update replId])
      log := s.log ++ [(q.caller, q.update, r)] }
  | _, _ => none

/-- Another replicator answers the whole batch at once, one response per update
(`redisSend` does, theorem `C80_redis_answers`). -/
def sentStep (s : St) (rs : List StateResponse) : Option St :=
  match s.out with
  | .send (q :: qs) acc =>
    if rs.length = (q :: qs).length then
      some { s with
        out := .afterDeliver (acc ++ List.zipWith (fun q r => (q.caller, r)) (q :: qs) rs)
        log := s.log ++ List.zipWith (fun q r => (q.caller, q.update, r)) (q :: qs) rs }
    else none
  | _ => none

/-- replicatedticketcache.go:121-124: a send on a results channel.  It goes to the buffer
if there is room, else to a receiver that is waiting, else it blocks; on a closed
channel it panics. -/
def deliverStep (s : St) : Option St :=
  match s.out with
  | .deliver ((i, r) :: ds) =>
    match s.calls[i]? with
    | none => none
    | some c =>
      if c.done && c.closes then some { s with panicked := true }
      else if c.buf.length < c.cap then
        some { s with
          calls := s.calls.set i { c with buf := c.buf ++ [r] }
          out := .afterDeliver ds }
      else if c.buf.isEmpty && c.todo.isEmpty && !c.done && decide (0 < c.need) then
        some { s with
          calls := s.calls.set i { c with got := c.got ++ [r], need := c.need - 1 }
          out := .afterDeliver ds }
      else none
  | _ => none

/-- core/main.go:220, :273-274, :777-780: a receive, which happens only after all sends. -/
def recvStep (s : St) (i : Nat) : Option St :=
  match s.calls[i]? with
  | none => none
  | some c =>
    match c.todo, c.buf with
    | [], r :: rs =>
      if c.need = 0 then none
      else some { s with
        calls := s.calls.set i { c with buf := rs, got := c.got ++ [r], need := c.need - 1 } }
    | _, _ => none

/-- core/main.go:222, :283, :794: return, once everything was sent and received. -/
def retStep (s : St) (i : Nat) : Option St :=
  match s.calls[i]? with
  | none => none
  | some c =>
    if c.todo.isEmpty && decide (c.need = 0) && !c.done then
      some { s with calls := s.calls.set i { c with done := true } }
    else none

/-- replicatedticketcache.go:150-152: `replStream <- *curUpdate`, with capacity
OM_CACHE_IN_MAX_UPDATES_PER_POLL (:144). -/
def pushStep (inMax : Nat) (s : St) : Option St :=
  match s.inp with
  | .pushing (u :: us) =>
    if s.stream.length < inMax then
      some { s with stream := s.stream ++ [u], inp := .afterPush us }
    else none
  | _ => none

/-- replicatedticketcache.go:171-172: the drain loop's receive; on an unbuffered channel
it meets the sender directly. -/
def drainStep (inMax : Nat) (s : St) : Option St :=
  match s.stream, s.inp with
  | u :: us, _ => some { s with stream := us, applied := s.applied ++ [u] }
  | [], .pushing (u :: us) =>
    if inMax = 0 then some { s with inp := .afterPush us, applied := s.applied ++ [u] } else none
  | [], _ => none

/-- One step of the process; `none`: not enabled. -/
def step (b : Backend) (thr : Int) (inMax : Nat) (s : St) (l : Lab) : Option St :=
  if s.panicked then none else
  match l with
  | .call k => some { s with calls := s.calls ++ [Call.start k] }
  | .submit i => submitStep thr s i
  | .tick => match s.out with | .collect p => some { s with out := .flush p } | _ => none
  | .publish n1 n2 => if b = .memory then publishStep s n1 n2 else none
  | .sent rs => if b = .other then sentStep s rs else none
  | .polled us =>
    if b = .other then
      match s.inp with | .reading [] => some { s with inp := .afterPush us } | _ => none
    else none
  | .getTick =>
    if b = .memory then
      match s.inp with | .reading g => some { s with inp := .afterPush g } | _ => none
    else none
  | .push => pushStep inMax s
  | .drain => drainStep inMax s
  | .deliver => deliverStep s
  | .recv i => recvStep s i
  | .ret i => retStep s i

/-- A schedule, every label of which is enabled when its turn comes. -/
def run (b : Backend) (thr : Int) (inMax : Nat) : St → List Lab → Option St
  | s, [] => some s
  | s, l :: ls => (step b thr inMax s l).bind fun s' => run b thr inMax s' ls

/-- Roster sizes are at least the number of tickets with an id (core/main.go:750-754). -/
def Kind.Ok : Kind → Prop
  | .create _ => True
  | .states _ => True
  | .assigns us n => us.length ≤ n

end OM.Pipe
