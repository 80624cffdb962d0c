import Verif.Model.Matchmaker
import Verif.Model.Mmf
import Verif.Model.System
/-!
# The example matchmaker's set-up

matchmaker-example/main.go: the players its mock frontend makes up, the profile it asks
for, and what one matchmaking cycle does with the matches it receives.
-/
namespace OM.Mm

/-- The classes, matchmaker-example/main.go:203, 209, 215. -/
def tank : Str := "tank".toList
def dps : Str := "dps".toList
def healer : Str := "healer".toList
/-- matchmaker-example/main.go:205, 211, 217, 561. -/
def classArg : Str := "class".toList

/-- matchmaker-example/main.go:551-560; `d` is `rand.Intn(5) + 1`. -/
def mockClass (d : Nat) : Str := if d = 1 then tank else if d = 2 then healer else dps

/-- matchmaker-example/main.go:537-564, `generateMockClientRequest`: `cr` is the clock, `s` the text of its
nanoseconds (541), `f` their float (546). -/
def mockTicket (s : Str) (f : F64) (cr : Timestamp) (d : Nat) : Ticket :=
  { id := [], expirationTime := none, extensions := []
    attributes := some { tags := [s], stringArgs := [(classArg, mockClass d)], doubleArgs := [(s, f)], creationTime := some cr } }

/-- matchmaker-example/main.go:203-207 and alike. -/
def classPool (c : Str) : Pool :=
  { name := c, tagPresentFilters := [], stringEqualsFilters := [⟨classArg, c⟩], doubleRangeFilters := [],
    creationTimeRangeFilter := none, participants := none, extensions := [] }

/-- matchmaker-example/main.go:199-222. -/
def exampleProfile : Profile :=
  { name := "example_profile".toList
    pools := [(tank, classPool tank), (dps, classPool dps), (healer, classPool healer)]
    extensions := [] }

/-- matchmaker-example/main.go:251, 329; `r` is `rand.Intn(100)`. -/
def rejects (r : Nat) : Bool := r ≤ 1

/-- matchmaker-example/main.go:232-258, 289-338: the matches of one cycle, accepted and rejected; `r n` is the
random number drawn for the `n`-th. -/
def judge (r : Nat → Nat) : Nat → List (Option Match) → List (Option Match) × List (Option Match)
  | _, [] => ([], [])
  | n, m :: ms =>
    let rest := judge r (n + 1) ms
    if rejects (r n) then (rest.1, m :: rest.2) else (m :: rest.1, rest.2)

/-- matchmaker-example/main.go:362-369: the ids put in the channel; `ord` is the iteration order of a match's
rosters. -/
def rejectedIds (ord : GoMap Roster → GoMap Roster) (rejected : List (Option Match)) : List Str :=
  rejected.flatMap fun m =>
    match m with
    | none => []
    | some m => (ord m.rosters).flatMap fun e => e.2.tickets.map (·.id)

/-- matchmaker-example/main.go:635-693, `proxyCreateTicket`: the id, or "" when the call failed. -/
def proxyCreate : Sys.Outcome → Str
  | .id k => k
  | _ => []

end OM.Mm
