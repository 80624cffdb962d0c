import Verif.Model.Go
/-!
# An instance is told to stop

core/server.go:28-77 and core/main.go:79-135: `start` listens, serves and waits for a signal; when there is one it stops the gRPC
server and returns, and with `main` the process ends.  With it: the calls in progress and the outgoing queue
(replicatedticketcache.go:74-127), which go on until the process ends.

`grpc.Server.Stop` (grpc v1.62.1, without `WaitForHandlers`) closes the listener and all connections and does not wait for
handlers; the clients of the calls in progress get `Unavailable`.  The context of :89-91, which an interrupt cancels, is ignored by the
queues; so are the contexts of the calls by their handlers.

Simplifications: an update of a call is a number; calls that have no update (InvokeMatchmakingFunctions, WatchAssignments) are calls
with none; the REST gateway is a client like any other; writes succeed.
-/
namespace OM.Stop

/-- What the client of a call has got. -/
inductive Outcome where
  | none
  | ok
  | unavailable
  /-- it has given up waiting, or its deadline has passed -/
  | gone
  deriving DecidableEq, Repr

/-- A call that was accepted.  `want`: its updates; `sent`: those that the queue has taken from it (core/main.go:205, :256);
`stored`: those in Redis; `back`: results that it has got (:220). -/
structure Call where
  want : Nat
  sent : Nat
  stored : Nat
  back : Nat
  outcome : Outcome
  deriving DecidableEq, Repr

/-- Where `start` is: before :49; at :75; after :76; and the process is no more. -/
inductive Phase where
  | starting
  | serving
  | stopping
  | ended
  deriving DecidableEq, Repr

/-- `signal`: `signalChan` (:33) holds one.  `held`: the updates in the batch, by call; `sending`: the batch is being written
and Redis has executed so many of it. -/
structure St where
  phase : Phase
  signal : Bool
  calls : List Call
  held : List Nat
  sending : Option Nat
  deriving DecidableEq, Repr

/-- :33-37. -/
def St.init : St := ⟨.starting, false, [], [], none⟩

inductive Lbl where
  /-- SIGTERM or SIGINT -/
  | signal
  /-- the server listens and serves (:41-53) -/
  | serve
  /-- a call comes, with so many updates -/
  | call (want : Nat)
  /-- the queue takes an update of a call (replicatedticketcache.go:96) -/
  | take (c : Nat)
  /-- it sends its batch (:118) -/
  | send
  /-- Redis executes the next command of the batch -/
  | exec
  /-- the results are handed out (:121-124) -/
  | done
  /-- a handler returns to its client -/
  | answer (c : Nat)
  /-- a client gives up; its handler does not look at the context that says so (core/main.go:144, :230, :733) -/
  | giveUp (c : Nat)
  /-- :75-76 -/
  | stop
  /-- :77, core/main.go:125-135 -/
  | exit
  deriving DecidableEq, Repr

/-- Its connection is closed. -/
def Call.cut (c : Call) : Call := if c.outcome = .none then { c with outcome := .unavailable } else c

def Call.result (c : Call) : Call := { c with back := c.back + 1 }

/-- Each update of the batch has a result for its call. -/
def results (held : List Nat) (calls : List Call) : List Call := held.foldl (fun cs c => cs.modify c Call.result) calls

def St.step (s : St) : Lbl → Option St
  | .signal => if s.phase = .ended then none else some { s with signal := true }
  | .serve => if s.phase = .starting then some { s with phase := .serving } else none
  | .call w => if s.phase = .serving then some { s with calls := s.calls ++ [⟨w, 0, 0, 0, .none⟩] } else none
  | .take i =>
    if s.phase = .ended then none else
    match s.sending, s.calls[i]? with
    | none, some c =>
      if c.sent < c.want then some { s with calls := s.calls.set i { c with sent := c.sent + 1 }, held := s.held ++ [i] } else none
    | _, _ => none
  | .send =>
    if s.phase = .ended then none else
    if s.sending = none ∧ s.held ≠ [] then some { s with sending := some 0 } else none
  | .exec =>
    -- Redis executes what it has got, also when the process that sent it is no more
    match s.sending with
    | some k =>
      match s.held[k]? with
      | some i => some { s with calls := s.calls.modify i fun c => { c with stored := c.stored + 1 }, sending := some (k + 1) }
      | none => none
    | none => none
  | .done =>
    if s.phase = .ended then none else
    if s.sending = some s.held.length then some { s with calls := results s.held s.calls, held := [], sending := none } else none
  | .answer i =>
    match s.phase, s.calls[i]? with
    | .serving, some c =>
      if c.back = c.want ∧ c.outcome = .none then some { s with calls := s.calls.set i { c with outcome := .ok } } else none
    | _, _ => none
  | .giveUp i =>
    match s.phase, s.calls[i]? with
    | .serving, some c => if c.outcome = .none then some { s with calls := s.calls.set i { c with outcome := .gone } } else none
    | _, _ => none
  | .stop => if s.phase = .serving ∧ s.signal = true then some { s with phase := .stopping, calls := s.calls.map Call.cut } else none
  | .exit => if s.phase = .stopping then some { s with phase := .ended } else none

def St.run : St → List Lbl → Option St
  | s, [] => some s
  | s, l :: ls => (s.step l).bind fun s => s.run ls

end OM.Stop
