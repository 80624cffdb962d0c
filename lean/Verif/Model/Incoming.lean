import Verif.Model.Cache
/-!
# The drain loop of the incoming goroutine

replicatedticketcache.go:161-228.  Each iteration creates a fresh 500 ms timer and
then selects between the update channel, that timer, and `default`.
-/
namespace OM

/-- What one iteration of the loop meets: whether `replStream` has an update, how many
milliseconds pass between creating the timer (:166) and the select (:171), and which
ready case the select picks when both are ready. -/
structure DrainEnv where
  avail : Bool
  stallMs : Int
  pickTimer : Bool

/-- Does this iteration apply an update (`true`) or leave the loop (`false`)? -/
def drainApplies (e : DrainEnv) : Bool :=
  e.avail && !(decide (500 ≤ e.stallMs) && e.pickTimer)

/-- Number of updates applied before the loop is left, or `none` if it is still
looping (no expiration cycle has run) when the environment ends. -/
def drain : List DrainEnv → Option Nat
  | [] => none
  | e :: es => if drainApplies e then (drain es).map (· + 1) else some 0

end OM
