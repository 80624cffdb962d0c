import Verif.Model.Cache
import Verif.Model.Logging
/-!
# What an expiration cycle measures

core/internal/statestore/cache/replicatedticketcache.go:279-355 and the histograms of
core/internal/statestore/cache/metrics.go:63-88.
-/
namespace OM

/-- replicatedticketcache.go:283, :285, :287. -/
structure Deletions where
  inactive : Nat
  tickets : Nat
  assignments : Nat
  deriving DecidableEq, Repr

/-- replicatedticketcache.go:317-320: whether the ticket pass, on the cache `c`, deletes `k`. -/
def passDeletes (cy : Cycle) (c : Cache) (k : Str) : Bool :=
  match c.tickets.load k with
  | none => false
  | some t => ticketExpired cy k t

/-- replicatedticketcache.go:302-311, :317-320, :332-336: the counters at the end of a cycle.
Keys of each `Range` are distinct, so each lookup sees the map its pass started with. -/
def cycleDeletions (cfg : Config) (cy : Cycle) (c : Cache) : Deletions :=
  { inactive := (cy.visI.filter fun k => inactiveAged cfg cy k).length
    tickets := (cy.visI.filter fun k => inactiveAged cfg cy k && (c.tickets.load k).isSome).length +
      (cy.visT.filter fun k => passDeletes cy (runOps c (inactivePassOps cfg cy)) k).length
    assignments := (cy.visA.filter fun k => asgAged cfg cy k).length }

/-- cache/metrics.go:63-88: the histograms of a cycle. -/
inductive CycleMetric where
  | duration | assignments | tickets | inactives
  deriving DecidableEq, Repr

/-- replicatedticketcache.go:345: `time.Since(startTime).Microseconds()/1000.0`, a division of
integers. -/
def cycleMillis (startNs endNs : Int) : Int := (Log.micros startNs endNs).tdiv 1000

/-- replicatedticketcache.go:340-355: everything a cycle records in a histogram.  The numbers
of deletions are only logged (:347-355). -/
def cycleRecords (startNs endNs : Int) (_ : Deletions) : List (CycleMetric × Int) :=
  [(.duration, cycleMillis startNs endNs)]

end OM
