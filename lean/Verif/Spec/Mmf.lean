import Verif.Model.Proto
/-!
# What the example MMFs are expected to produce
-/
namespace OM.Spec

/-- All tickets of a match, roster by roster. -/
def matchTickets (m : Match) : List Ticket := m.rosters.flatMap fun e => e.2.tickets

/-- The tickets a profile has in a pool. -/
def poolTickets (p : Profile) (name : Str) : List Ticket :=
  match p.pools.load name with
  | none => []
  | some q =>
    match q.participants with
    | none => []
    | some r => r.tickets

/-- The tickets of all pools, in the order `ord` of the pools. -/
def allTickets (ord : GoMap Pool) : List Ticket :=
  ord.flatMap fun e =>
    match e.2.participants with
    | none => []
    | some r => r.tickets

/-- The tickets in `b` roster places from place `a` on, roster by roster. -/
def places (a b : Nat) (m : Match) : List Ticket := m.rosters.flatMap fun e => (e.2.tickets.drop a).take b

/-- A run over a stream whose `n`-th send works iff `ok n`: `total` matches get sent
unless a send fails, and the run fails at the first failing send only. -/
def StopsAtFailure (ok : Nat → Bool) (total : Nat) (sent : Nat) (err : Bool) : Prop :=
  (∀ i < sent, ok i = true) ∧
    ((err = false ∧ sent = total) ∨ (err = true ∧ sent < total ∧ ok sent = false))

end OM.Spec
