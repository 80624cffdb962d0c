import Verif.Model.Latency
import Verif.Model.Lag
/-!
# From a handler to all instances, with time

The outgoing queue of every instance (`Model/Latency.lean`) and its incoming goroutines (`Model/Lag.lean`), with one clock and
one Redis stream: what any queue sends is in the stream of all.  `SendUpdates` (redis.go:101-225) writes a batch with one
XADD for each update; Redis executes them one by one, in their order, with those of other instances in between, before
`SendUpdates` has all answers.

Simplifications: those of the two models; batches are written without errors, so every update of a batch is in the stream
when `SendUpdates` returns; none is trimmed (redis.go:180-182) before it is read.
-/
namespace OM.Delay

/-- The settings and the bounds: `outT`: OM_CACHE_OUT_WAIT_TIMEOUT_MS, `thr`: OM_CACHE_OUT_MAX_QUEUE_THRESHOLD, `inT`:
OM_CACHE_IN_WAIT_TIMEOUT_MS, `max`: OM_CACHE_IN_MAX_UPDATES_PER_POLL (config.go:99-102); `send`, `read` and `cycle`: the longest
that a batch, a read and a cycle take (`D`, `R` and `E` in the two models). -/
structure Par where
  outT : Nat
  send : Nat
  thr : Int
  inT : Nat
  read : Nat
  cycle : Nat
  max : Nat
  deriving DecidableEq, Repr

/-- An instance.  `stored`: how many updates of the batch being sent are in the stream. -/
structure Inst where
  out : Latency.St
  stored : Nat
  inn : Lag.St
  deriving DecidableEq, Repr

/-- `log`: the stream, each entry with its instance and its number in that instance's queue. -/
structure St where
  now : Nat
  insts : List Inst
  log : List (Nat × Nat)
  deriving DecidableEq, Repr

/-- `n` instances start (core/main.go:119-120). -/
def St.init (p : Par) (n : Nat) : St := ⟨0, List.replicate n ⟨Latency.St.init p.outT, 0, Lag.St.init p.inT p.read⟩, []⟩

inductive Lbl where
  /-- a step of the outgoing queue of instance `i` or of a handler there -/
  | out (i : Nat) (l : Latency.Lbl)
  /-- Redis executes the next XADD of instance `i` (redis.go:173, :188) -/
  | store (i : Nat)
  /-- a step of one of the incoming goroutines of instance `i` -/
  | inn (i : Nat) (l : Lag.Lbl)
  | tick
  deriving DecidableEq, Repr

def Par.outStep (p : Par) (s : Latency.St) (l : Latency.Lbl) : Option Latency.St := s.step p.outT p.send p.thr l
def Par.innStep (p : Par) (s : Lag.St) (l : Lag.Lbl) : Option Lag.St := s.step p.inT p.read p.cycle p.max l

/-- The clock of an instance. -/
def Inst.tick (p : Par) (a : Inst) : Option Inst :=
  (p.outStep a.out .tick).bind fun out => (p.innStep a.inn .tick).map fun inn => { a with out, inn }

/-- All clocks are one. -/
def tickAll (p : Par) : List Inst → Option (List Inst)
  | [] => some []
  | a :: as => (a.tick p).bind fun a => (tickAll p as).map (a :: ·)

/-- There is a new entry in the stream. -/
def Inst.entry (p : Par) (a : Inst) : Inst := { a with inn := (p.innStep a.inn .arrive).getD a.inn }

/-- The queue of an instance makes a step.  `SendUpdates` returns when all of its batch is in the stream (redis.go:188). -/
def Inst.outStep (p : Par) (a : Inst) : Latency.Lbl → Option Inst
  | .tick => none
  | .done => if a.stored = a.out.held.length then (p.outStep a.out .done).map fun out => { a with out, stored := 0 } else none
  | l => (p.outStep a.out l).map fun out => { a with out }

def Inst.innStep (p : Par) (a : Inst) : Lag.Lbl → Option Inst
  | .tick | .arrive => none
  | l => (p.innStep a.inn l).map fun inn => { a with inn }

/-- The update that Redis executes next for this instance. -/
def Inst.toStore (a : Inst) : Option Nat :=
  match a.out.mode with
  | .sending _ => a.out.held[a.stored]?
  | .collect _ => none

def St.step (p : Par) (s : St) : Lbl → Option St
  | .out i l => s.insts[i]?.bind fun a => (a.outStep p l).map fun a => { s with insts := s.insts.set i a }
  | .inn i l => s.insts[i]?.bind fun a => (a.innStep p l).map fun a => { s with insts := s.insts.set i a }
  | .store i =>
    s.insts[i]?.bind fun a => a.toStore.map fun r =>
      { s with
        insts := (s.insts.set i { a with stored := a.stored + 1 }).map (Inst.entry p)
        log := s.log ++ [(i, r)] }
  | .tick => (tickAll p s.insts).map fun insts => { s with insts, now := s.now + 1 }

def St.run (p : Par) : St → List Lbl → Option St
  | s, [] => some s
  | s, l :: ls => (s.step p l).bind fun s => s.run p ls

end OM.Delay
