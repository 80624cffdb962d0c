import Verif.Model.Handlers
import Verif.Model.Logging
/-!
# What a scrape of the metrics sees

cache/metrics.go:93-106 against replicatedticketcache.go:340-343, and the attributes of core/server.go:128-140.
-/
namespace OM.Scrape

/-- A write of replicatedticketcache.go:341-343. -/
inductive Write where
  | assignments (n : Nat)
  | tickets (n : Nat)
  | inactive (n : Nat)

/-- replicatedticketcache.go:341-343: the end of a cycle. -/
def cycleWrites (c : Counts) : List Write := [.assignments c.assignmentCount, .tickets c.ticketCount, .inactive c.inactiveCount]

/-- cache/metrics.go:33-35 are package variables. -/
def Write.apply (g : Counts) : Write → Counts
  | .assignments n => { g with assignmentCount := n }
  | .tickets n => { g with ticketCount := n }
  | .inactive n => { g with inactiveCount := n }

def zero : Counts := ⟨0, 0, 0⟩

/-- The variables after some writes. -/
def after (ws : List Write) : Counts := ws.foldl Write.apply zero

/-- What the three observations report. -/
structure Sample where
  active : Int
  inactive : Int
  assignments : Int
  deriving DecidableEq, Repr

/-- cache/metrics.go:96-102, in another goroutine than the cycles: the writes done before `TicketCount` is read,
between that and `InactiveCount` (:98), before :99 and before :100.  Simplification: nothing orders these accesses
(a data race, for which Go promises little); here each one is atomic and they are seen in order. -/
def scrape (w1 w2 w3 w4 : List Write) : Sample :=
  { active := ((after w1).ticketCount : Int) - (after (w1 ++ w2)).inactiveCount
    inactive := (after (w1 ++ w2 ++ w3)).inactiveCount
    assignments := (after (w1 ++ w2 ++ w3 ++ w4)).assignmentCount }

/-! ## Attributes -/

/-- The attributes of an entry: server.go:128, :140. -/
def attributes : Log.Metric → Bool × Str × Str
  | .duration rpc _ => (false, rpc, [])
  | .error rpc text => (true, rpc, text)

/-- Each combination of attributes is a time series of its own, kept for good. -/
def series (ms : List Log.Metric) : List (Bool × Str × Str) := (ms.map attributes).eraseDups

/-- `codes.Code.String`. -/
def codeName : Code → Str
  | .ok => "OK".toList
  | .unknown => "Unknown".toList
  | .invalidArgument => "InvalidArgument".toList
  | .internal => "Internal".toList

/-- The text of a status error. -/
def errorText (e : RpcErr) : Str := "rpc error: code = ".toList ++ codeName e.code ++ " desc = ".toList ++ e.msg

/-- A call, as gRPC reports its end to server.go:110-143. -/
structure Call where
  method : Str
  beginNs : Int
  endNs : Int
  err : Option RpcErr

def Call.metrics (c : Call) : List Log.Metric := Log.handleRPC (some c.method) (.ended c.beginNs c.endNs (c.err.map errorText))

end OM.Scrape
