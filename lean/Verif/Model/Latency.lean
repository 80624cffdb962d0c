import Verif.Model.Outgoing
/-!
# How long updates wait to be sent

replicatedticketcache.go:74-127 again (`Model/Outgoing.lean`), with time and with the handlers that wait for their turn:
`UpRequests` has no buffer (core/main.go:101), so that a handler that has an update waits until the queue takes it,
while a batch is being sent for instance.  Go serves waiting senders in the order in which they came.

Simplifications: the queue's own work takes no time, and neither does putting results on the results channels
(:121-124; the handlers are waiting for them or there is room for all); a timer fires at its time.  Time is in ticks of
any length.
-/
namespace OM.Latency

/-- Where the queue is: in the `select` of :95, with a timer that fires at `deadline`; or in `SendUpdates` (:118) since
`since`. -/
inductive Mode where
  | collect (deadline : Nat)
  | sending (since : Nat)
  deriving DecidableEq, Repr

/-- Updates are numbered as handlers come to have them.  `waiting`: those of handlers that wait at `UpRequests`;
`held`: `pipelineRequests`; `answered`: those whose results have been handed out, and when. -/
structure St where
  now : Nat
  next : Nat
  waiting : List Nat
  held : List Nat
  mode : Mode
  answered : List (Nat × Nat)
  deriving DecidableEq, Repr

/-- :83-91; `T`: OM_CACHE_OUT_WAIT_TIMEOUT_MS. -/
def St.init (T : Nat) : St := ⟨0, 0, [], [], .collect T, []⟩

inductive Lbl where
  /-- a handler has an update -/
  | arrive
  /-- :96 -/
  | take
  /-- :107 -/
  | fire
  /-- `SendUpdates` returns -/
  | done
  /-- a tick -/
  | tick
  deriving DecidableEq, Repr

/-- One step.  `thr`: OM_CACHE_OUT_MAX_QUEUE_THRESHOLD; `D`: the longest that `SendUpdates` takes.  When a handler waits
and the queue is in its `select`, something happens before time passes: the update is taken, or (:107) the timer fires,
if it is due. -/
def St.step (T D : Nat) (thr : Int) (s : St) : Lbl → Option St
  | .arrive => some { s with waiting := s.waiting ++ [s.next], next := s.next + 1 }
  | .take =>
    match s.mode, s.waiting with
    | .collect _, r :: w =>
      if ((s.held.length + 1 : Nat) : Int) ≥ thr then                   -- 101-105
        some { s with waiting := w, held := s.held ++ [r], mode := .sending s.now }
      else some { s with waiting := w, held := s.held ++ [r] }
    | _, _ => none
  | .fire =>
    match s.mode with
    | .collect dl =>
      if dl ≤ s.now then
        if s.held = [] then some { s with mode := .collect (s.now + T) } -- 115, 88-91
        else some { s with mode := .sending s.now }
      else none
    | .sending _ => none
  | .done =>
    match s.mode with
    | .sending _ =>
      some { s with held := [], mode := .collect (s.now + T), answered := s.answered ++ s.held.map fun r => (r, s.now) }
    | .collect _ => none
  | .tick =>
    match s.mode with
    | .collect dl => if s.waiting = [] ∧ s.now < dl then some { s with now := s.now + 1 } else none
    | .sending since => if s.now < since + D then some { s with now := s.now + 1 } else none

def St.run (T D : Nat) (thr : Int) : St → List Lbl → Option St
  | s, [] => some s
  | s, l :: ls => (s.step T D thr l).bind fun s => s.run T D thr ls

end OM.Latency
