import Verif.Spec.Invoke
import Verif.Spec.Mmf
import Verif.Spec.Relay
/-! # What a matchmaker expects of one whole call of InvokeMatchmakingFunctions -/
namespace OM.Spec

/-- A match as om-core receives it: what the MMF sent, up to the order of map entries. -/
def SameMatch (m : Match) (o : Option Match) : Prop :=
  ∃ x, o = some x ∧ x.id = m.id ∧ x.rosters.Perm m.rosters ∧ x.extensions.Perm m.extensions

/-- `t` is a ticket of the snapshot that the filters of the profile's pool `name` admit. -/
def Fits (p : Profile) (ts : List Ticket) (name : Str) (t : Ticket) : Prop :=
  t ∈ ts ∧ ∃ pool, p.pools.load name = some pool ∧ ¬ BadTimes pool ∧ Filter.In (some pool) (some t) = some true

/-- A 1v1 match: one roster with two tickets, each fit for some pool. -/
def IsDuel (p : Profile) (ts : List Ticket) (o : Option Match) : Prop :=
  ∃ x n ro a b, o = some x ∧ x.rosters = [(n, ro)] ∧ ro.tickets = [a, b] ∧
    (∃ name, Fits p ts name a) ∧ ∃ name, Fits p ts name b

/-- A battle royale: one roster of 100 tickets fit for the pool "competitive". -/
def IsRoyale (p : Profile) (ts : List Ticket) (o : Option Match) : Prop :=
  ∃ x n ro, o = some x ∧ x.rosters = [(n, ro)] ∧ ro.tickets.length = 100 ∧
    ∀ t ∈ ro.tickets, Fits p ts "competitive".toList t

/-- A team: a tank, a healer and three dps, in this order. -/
def IsTeam (p : Profile) (ts : List Ticket) (l : List Ticket) : Prop :=
  ∃ a b c d e, l = [a, b, c, d, e] ∧ Fits p ts "tank".toList a ∧ Fits p ts "healer".toList b ∧
    Fits p ts "dps".toList c ∧ Fits p ts "dps".toList d ∧ Fits p ts "dps".toList e

/-- A 5v5 match: the rosters team01 and team02, each a team. -/
def IsFiveVFive (p : Profile) (ts : List Ticket) (o : Option Match) : Prop :=
  ∃ x a b, o = some x ∧ x.rosters.Perm [("team01".toList, a), ("team02".toList, b)] ∧
    IsTeam p ts a.tickets ∧ IsTeam p ts b.tickets

/-- The tickets of a match as received. -/
def players : Option Match → List Ticket
  | none => []
  | some m => matchTickets m

end OM.Spec
