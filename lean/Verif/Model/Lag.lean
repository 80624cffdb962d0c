import Verif.Model.Go
/-!
# How long it takes an instance to apply what is in the stream

replicatedticketcache.go:134-359 with Redis as the storage (redis.go:232-309), with time: one goroutine reads the stream
and fills `replStream` (:145-154), another sleeps, applies what is there, and removes what has expired (:157-357).

Simplifications: reads succeed; the goroutines' own work takes no time, except where it is bounded by `R` and `E` below;
the 500 ms timer of :166, made anew for each update, does not fire (`Model/Incoming.lean`).  Time is in ticks of any
length.
-/
namespace OM.Lag

/-- The goroutine that reads: in `GetUpdates`, and if there is anything to read it will have it by `due`; or handing over
what it has read. -/
inductive Poll where
  | reading (due : Nat)
  | pushing (r : Nat) (rs : List Nat)
  deriving DecidableEq, Repr

def Poll.held : Poll → List Nat
  | .reading _ => []
  | .pushing r rs => r :: rs

/-- The goroutine that applies: asleep (:160), in the loop of :163-228, or removing what has expired (:230-357); the last two
together take at most `E`. -/
inductive Mode where
  | sleep (till : Nat)
  | drain (since : Nat)
  | expire (since : Nat)
  deriving DecidableEq, Repr

/-- Updates are numbered as they come into the stream.  `stream`: those not read yet; `chan`: `replStream`; `applied`: those
that the cache shows, and since when. -/
structure St where
  now : Nat
  next : Nat
  stream : List Nat
  poll : Poll
  chan : List Nat
  mode : Mode
  applied : List (Nat × Nat)
  deriving DecidableEq, Repr

/-- `T`: OM_CACHE_IN_WAIT_TIMEOUT_MS. -/
def St.init (T R : Nat) : St := ⟨0, 0, [], .reading R, [], .sleep T, []⟩

inductive Lbl where
  /-- somebody adds an update to the stream -/
  | arrive
  /-- `GetUpdates` returns with what it has (redis.go:254-308) -/
  | read
  /-- :151 -/
  | push
  /-- the sleep of :160 ends -/
  | wake
  /-- :172 -/
  | take
  /-- :223-226 -/
  | empty
  /-- the cycle is over (:357), and the next one starts with a sleep (:160) -/
  | slept
  | tick
  deriving DecidableEq, Repr

/-- Time may pass: the sleep is not over, or the cycle need not be. -/
def Mode.mayWait (now E : Nat) : Mode → Bool
  | .sleep till => now < till
  | .drain since => now < since + E
  | .expire since => now < since + E

/-- Time may pass: there is nothing to read, or it takes time to read it, or the channel is full (:151). -/
def Poll.mayWait (now N : Nat) (stream chan : List Nat) : Poll → Bool
  | .reading due => stream = [] || now < due
  | .pushing _ _ => N ≤ chan.length

/-- One step.  `N`: OM_CACHE_IN_MAX_UPDATES_PER_POLL, both the most that one read returns (redis.go:245) and the size of
the channel (:144).  `R`: how long it takes at most to read when there is something to read; XREAD waits while there is
nothing (redis.go:247). -/
def St.step (T R E N : Nat) (s : St) : Lbl → Option St
  | .arrive =>
    some { s with
      stream := s.stream ++ [s.next]
      next := s.next + 1
      poll := match s.poll with
        | .reading due => if s.stream = [] then .reading (s.now + R) else .reading due
        | p => p }
  | .read =>
    match s.poll, s.stream.take N with
    | .reading _, r :: rs => some { s with poll := .pushing r rs, stream := s.stream.drop N }
    | _, _ => none
  | .push =>
    match s.poll with
    | .pushing r rs =>
      if s.chan.length < N then
        some { s with
          chan := s.chan ++ [r]
          poll := match rs with
            | [] => .reading (s.now + R)
            | r' :: rs' => .pushing r' rs' }
      else none
    | .reading _ => none
  | .wake =>
    match s.mode with
    | .sleep till => if till ≤ s.now then some { s with mode := .drain s.now } else none
    | _ => none
  | .take =>
    match s.mode, s.chan with
    | .drain _, r :: c => some { s with chan := c, applied := s.applied ++ [(r, s.now)] }
    | _, _ => none
  | .empty =>
    match s.mode, s.chan with
    | .drain since, [] => some { s with mode := .expire since }
    | _, _ => none
  | .slept =>
    match s.mode with
    | .expire _ => some { s with mode := .sleep (s.now + T) }
    | _ => none
  | .tick =>
    if s.mode.mayWait s.now E && s.poll.mayWait s.now N s.stream s.chan then some { s with now := s.now + 1 } else none

def St.run (T R E N : Nat) : St → List Lbl → Option St
  | s, [] => some s
  | s, l :: ls => (s.step T R E N l).bind fun s => s.run T R E N ls

end OM.Lag
