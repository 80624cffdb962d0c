import Verif.Model.Store
/-!
# The replicated ticket cache

core/internal/statestore/cache/replicatedticketcache.go.  The three `sync.Map`s
are written only by the `IncomingReplicationQueue` goroutine; every write is a
micro-operation `MOp`, so that readers can be interleaved between any two.
-/
namespace OM

/-- replicatedticketcache.go:52-56.  `InactiveSet`'s values are always `true`. -/
structure Cache where
  tickets : GoMap Ticket
  inactive : GoMap Unit
  assignments : GoMap Assignment
  deriving DecidableEq

def Cache.empty : Cache := ⟨[], [], []⟩

/-- One write to one of the sync.Maps. -/
inductive MOp where
  | storeInactive (k : Str)
  | delInactive (k : Str)
  | storeTicket (k : Str) (t : Ticket)
  | delTicket (k : Str)
  | storeAsg (k : Str) (a : Assignment)
  | delAsg (k : Str)

def MOp.run (c : Cache) : MOp → Cache
  | .storeInactive k => { c with inactive := c.inactive.store k () }
  | .delInactive k => { c with inactive := c.inactive.delete k }
  | .storeTicket k t => { c with tickets := c.tickets.store k t }
  | .delTicket k => { c with tickets := c.tickets.delete k }
  | .storeAsg k a => { c with assignments := c.assignments.store k a }
  | .delAsg k => { c with assignments := c.assignments.delete k }

def runOps (c : Cache) (ops : List MOp) : Cache := ops.foldl MOp.run c

/-- replicatedticketcache.go:174-218: the writes one update performs, in order. -/
def updateOps (cd : Codec) (u : StateUpdate) : List MOp :=
  match u.cmd with
  | .ticket =>
    [.storeInactive u.key, .storeTicket u.key { cd.decT u.value with id := u.key }]
  | .activate => [.delInactive u.key]
  | .deactivate => [.storeInactive u.key]
  | .assign => [.storeAsg u.key (cd.decA u.value)]
  | .other _ => []

/-- Apply one update completely. -/
def applyUpdate (cd : Codec) (c : Cache) (u : StateUpdate) : Cache := runOps c (updateOps cd u)

/-! ## Expiration (replicatedticketcache.go:268-356) -/

/-- One expiration cycle's environment: the order in which each `Range` visits the
keys and the clock reading at each visit (`inact`, `asg` in unix seconds, `tix` in
nanoseconds). -/
structure Cycle where
  visI : List Str
  visT : List Str
  visA : List Str
  inact : Str → Int
  tix : Str → Int
  asg : Str → Int

/-- :295/:328 the creation second read from an id (0 when unparsable, or the
saturated value on overflow; the error is only logged). -/
def idSecond (id : Str) : Int := (parseInt10 (splitFirst '-' id)).value

/-- :299 -/
def inactiveAged (cfg : Config) (cy : Cycle) (k : Str) : Bool :=
  decide (cy.inact k - idSecond k > cfg.ttl)

/-- :332-333 -/
def asgAged (cfg : Config) (cy : Cycle) (k : Str) : Bool :=
  decide (cy.asg k - idSecond k > cfg.ttl + cfg.addTtl)

/-- :317 -/
def ticketExpired (cy : Cycle) (k : Str) (t : Ticket) : Bool :=
  decide (cy.tix k > asTime t.expirationTime)

/-- :292-312 writes of the inactive pass. -/
def inactivePassOps (cfg : Config) (cy : Cycle) : List MOp :=
  cy.visI.flatMap fun k => if inactiveAged cfg cy k then [.delTicket k, .delInactive k] else []

/-- :315-322 writes of the ticket pass, on the cache left by the inactive pass. -/
def ticketPassOps (cy : Cycle) (c : Cache) : List MOp :=
  cy.visT.flatMap fun k =>
    match c.tickets.load k with
    | none => []
    | some t => if ticketExpired cy k t then [.delTicket k] else []

/-- :325-338 writes of the assignment pass. -/
def asgPassOps (cfg : Config) (cy : Cycle) : List MOp :=
  cy.visA.flatMap fun k => if asgAged cfg cy k then [.delAsg k] else []

/-- All writes of one expiration cycle, in order. -/
def cycleOps (cfg : Config) (cy : Cycle) (c : Cache) : List MOp :=
  let p1 := inactivePassOps cfg cy
  p1 ++ ticketPassOps cy (runOps c p1) ++ asgPassOps cfg cy

/-- The cache after one complete expiration cycle. -/
def expire (cfg : Config) (cy : Cycle) (c : Cache) : Cache := runOps c (cycleOps cfg cy c)

/-- `Range` visits exactly the keys present, each once: nobody else writes. -/
def Cycle.Visits (cfg : Config) (cy : Cycle) (c : Cache) : Prop :=
  cy.visI.Perm c.inactive.keys ∧
  cy.visT.Perm (runOps c (inactivePassOps cfg cy)).tickets.keys ∧
  cy.visA.Perm c.assignments.keys

/-- :281-288, :303-342 counters of a cycle: `numTickets` counts tickets deleted by the
inactive pass plus the tickets visited by the ticket pass. -/
structure Counts where
  assignmentCount : Nat
  ticketCount : Nat
  inactiveCount : Nat
  deriving DecidableEq, Repr

/-- :303: tickets found by `LoadAndDelete` in the inactive pass.  Keys of `visI` are
distinct so each lookup sees the cycle's starting ticket map. -/
def cycleCounts (cfg : Config) (cy : Cycle) (c : Cache) : Counts :=
  { assignmentCount := cy.visA.length
    ticketCount :=
      (cy.visI.filter fun k => inactiveAged cfg cy k && (c.tickets.load k).isSome).length
        + cy.visT.length
    inactiveCount := cy.visI.length }

/-- cache/metrics.go:98 the value observed for the active-tickets gauge. -/
def activeGauge (n : Counts) : Int := (n.ticketCount : Int) - n.inactiveCount

/-! ## The incoming goroutine's life -/

/-- What the incoming goroutine does, in order: apply an update, or run a cycle. -/
inductive Ev where
  | upd (u : StateUpdate)
  | expire (cy : Cycle)

def evOps (cd : Codec) (cfg : Config) (c : Cache) : Ev → List MOp
  | .upd u => updateOps cd u
  | .expire cy => cycleOps cfg cy c

/-- The full sequence of writes for a list of events starting from `c`. -/
def traceOps (cd : Codec) (cfg : Config) : Cache → List Ev → List MOp
  | _, [] => []
  | c, e :: es =>
    let ops := evOps cd cfg c e
    ops ++ traceOps cd cfg (runOps c ops) es

def runEv (cd : Codec) (cfg : Config) (c : Cache) (e : Ev) : Cache := runOps c (evOps cd cfg c e)
def runEvs (cd : Codec) (cfg : Config) (c : Cache) (es : List Ev) : Cache := es.foldl (runEv cd cfg) c

/-- Every cycle of an event list visits the keys that are present when it runs. -/
def ValidEvs (cd : Codec) (cfg : Config) : Cache → List Ev → Prop
  | _, [] => True
  | c, e :: es =>
    (match e with | .expire cy => cy.Visits cfg c | .upd _ => True) ∧
      ValidEvs cd cfg (runEv cd cfg c e) es

/-- The updates of an event list, in order. -/
def updatesOf (es : List Ev) : List StateUpdate :=
  es.filterMap fun e => match e with | .upd u => some u | .expire _ => none

/-- Quiescent snapshot: core/main.go:947-959 `setDifference(&tc.Tickets, &tc.InactiveSet)`
with no concurrent writer, in the tickets' iteration order. -/
def candidates (c : Cache) : GoMap Ticket :=
  c.tickets.filter fun e => decide (c.inactive.load e.1 = none)

end OM
