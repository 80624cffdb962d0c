import Verif.Model.Lag
/-!
# Reading the stream while Redis cannot be read from time to time

`Model/Lag.lean` with outages: `GetUpdates` logs an error and returns nothing (redis.go:254-258, :263, :308), its position in the
stream as it was, and the goroutine of replicatedticketcache.go:145-154 calls it again at once.  Everything else goes on: updates
come into the stream (they are written over other connections, redis.go:68-91), those read before are applied, tickets expire.

Simplifications: those of `Model/Lag.lean`; an outage ends when the first attempt begins that will succeed, so one that is still
to fail at its time-out counts as part of it.
-/
namespace OM.Outage

structure St where
  up : Bool
  lag : Lag.St
  deriving DecidableEq, Repr

inductive Lbl where
  /-- from now on reads fail -/
  | break_
  /-- from now on they succeed -/
  | repair
  /-- a read fails, and the next one begins -/
  | fail
  | go (l : Lag.Lbl)
  deriving DecidableEq, Repr

def St.init (T R : Nat) : St := ⟨true, Lag.St.init T R⟩

/-- Time may pass during an outage: reads take any time. -/
def mayWait (E N : Nat) (s : Lag.St) : Bool :=
  s.mode.mayWait s.now E && match s.poll with
    | .reading _ => true
    | .pushing _ _ => N ≤ s.chan.length

/-- A step of the goroutines, of writers or of time during an outage. -/
def downStep (T R E N : Nat) (s : Lag.St) : Lag.Lbl → Option Lag.St
  | .read => none
  | .tick => if mayWait E N s then some { s with now := s.now + 1 } else none
  | l => s.step T R E N l

/-- A read that succeeds begins now. -/
def restart (R : Nat) (s : Lag.St) : Lag.St :=
  match s.poll with
  | .reading _ => { s with poll := .reading (s.now + R) }
  | .pushing _ _ => s

def St.step (T R E N : Nat) (s : St) : Lbl → Option St
  | .break_ => some { s with up := false }
  | .repair => if s.up then none else some ⟨true, restart R s.lag⟩
  | .fail =>
    match s.up, s.lag.poll with
    | false, .reading _ => some s
    | _, _ => none
  | .go l => ((if s.up then s.lag.step T R E N l else downStep T R E N s.lag l)).map fun lag => { s with lag }

def St.run (T R E N : Nat) : St → List Lbl → Option St
  | s, [] => some s
  | s, l :: ls => (s.step T R E N l).bind fun s => s.run T R E N ls

end OM.Outage
