import Verif.Model.Duplex
/-! # What a function may expect of its stream -/
namespace OM.Spec
open OM.Duplex

/-- The invocation works: no schedule goes on for ever, none gets stuck, and whenever om-core
has come to the end of the stream it has received exactly the matches `ms`. -/
def Works (closes : Bool) (R : Rooms) (F : Fn) (chunks : List ChunkedMmfRunRequest) (ms : List Match) : Prop :=
  (∃ n, ∀ ls s, run closes R (init F chunks) ls = some s → ls.length ≤ n) ∧
  ∀ ls s, run closes R (init F chunks) ls = some s →
    (s.done = false → ∃ l s', step closes R s l = some s') ∧ s.got <+: ms ∧ (s.done = true → s.got = ms)

/-- Flow control that holds messages back at some point. -/
def Bounded (n : Nat) (R : Rooms) : Prop :=
  (∀ q c, n ≤ q.length → R.up q c = false) ∧ ∀ q m, n ≤ q.length → R.down q m = false

/-- The matches a script sends. -/
def sendsOf (ops : List Op) : List Match := ops.filterMap fun | .send m => some m | .recv => none

/-- How many chunks a script receives. -/
def recvsOf (ops : List Op) : Nat := (ops.filter (· = .recv)).length

end OM.Spec
