import Verif.Model.Store
/-!
# The outgoing replication queue

core/internal/statestore/cache/replicatedticketcache.go:74-127, run as a fold over
the events its `select` (:95-112) can take.  `S` is the state of the replicator (and
of the clocks it reads); `send` is `tc.Replicator.SendUpdates`.
-/
namespace OM

/-- replicatedticketcache.go:37-44 `UpdateRequest`; `caller` names the results channel. -/
structure Req where
  caller : Nat
  update : StateUpdate
  deriving DecidableEq, Repr

/-- What the select of :95 can take: a request from `UpRequests`, or the timeout. -/
inductive OutEv where
  | recv (r : Req)
  | timeout
  deriving DecidableEq, Repr

/-- State of the goroutine: the replicator, `pipelineRequests`, and (as logs) the
batches handed to `SendUpdates` and the results put on results channels. -/
structure OutSt (S : Type) where
  store : S
  pending : List Req
  batches : List (List StateUpdate)
  delivered : List (Nat × StateResponse)

def OutSt.init {S : Type} (s : S) : OutSt S := ⟨s, [], [], []⟩

/-- :121-124: `pipelineRequests[index].ResultsChan <- result`; panics when there are
more results than requests. -/
def deliver : List Req → List StateResponse → Go (List (Nat × StateResponse))
  | _, [] => some []
  | [], _ :: _ => Go.panic
  | q :: qs, r :: rs => (deliver qs rs).map ((q.caller, r) :: ·)

variable {S : Type}

/-- :114-125 then :88-91: run the batch if there is one, and start over. -/
def OutSt.flush (send : S → List StateUpdate → S × List StateResponse) (st : OutSt S) : Go (OutSt S) :=
  if st.pending.length > 0 then
    let batch := st.pending.map (·.update)
    let res := send st.store batch
    (deliver st.pending res.2).map fun ds =>
      ⟨res.1, [], st.batches ++ [batch], st.delivered ++ ds⟩
  else some st

/-- :94-112 one event. -/
def outStep (thr : Int) (send : S → List StateUpdate → S × List StateResponse)
    (st : OutSt S) : OutEv → Go (OutSt S)
  | .recv r =>
    let st' : OutSt S := { st with pending := st.pending ++ [r] }
    if (st'.pending.length : Int) ≥ thr then st'.flush send else some st'
  | .timeout => st.flush send

def outRun (thr : Int) (send : S → List StateUpdate → S × List StateResponse) :
    OutSt S → List OutEv → Go (OutSt S)
  | st, [] => some st
  | st, e :: es => (outStep thr send st e).bind fun st' => outRun thr send st' es

/-- The requests taken from `UpRequests`, in order. -/
def received (evs : List OutEv) : List Req :=
  evs.filterMap fun e => match e with | .recv r => some r | .timeout => none

end OM
