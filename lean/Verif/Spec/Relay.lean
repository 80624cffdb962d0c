import Verif.Model.Relay
/-! # What a caller of InvokeMatchmakingFunctions expects of the relay -/
namespace OM.Relay

/-- The matches sent to the matchmaker, including the one inside `stream.Send` now. -/
def handed (s : St) : List (Option Match) := s.out ++ (match s.fan with | .busy _ m => [m] | _ => [])

end OM.Relay

namespace OM.Spec
open OM.Relay

/-- What the MMFs that could be invoked return. -/
def returned (fs : List Mmf) : List (Option Match) := (fs.filter (·.starts)).flatMap (·.results)

/-- What the MMFs that ended their stream normally return. -/
def finished (fs : List Mmf) : List (Option Match) := (fs.filter fun f => f.starts && f.eof).flatMap (·.results)

/-- `t` is a ticket of a roster of `m`. -/
def InMatch (t : Ticket) (m : Option Match) : Prop :=
  ∃ x, m = some x ∧ ∃ e ∈ x.rosters, t ∈ e.2.tickets

end OM.Spec
