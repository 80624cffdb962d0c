import Verif.Model.Gateway
/-!
# The REST interface

proto/v2/api.yaml: method and path of each RPC.
-/
namespace OM.Spec
open OM.Gw

def api : List (Str × Str × Rpc) :=
  [ ("POST".toList, "/v2/tickets".toList, .createTicket),
    ("DELETE".toList, "/v2/tickets:deactivate".toList, .deactivateTickets),
    ("POST".toList, "/v2/tickets:activate".toList, .activateTickets),
    ("POST".toList, "/v2/matches:fetch".toList, .invokeMmfs),
    ("POST".toList, "/v2/assignments:create".toList, .createAssignments),
    ("POST".toList, "/v2/assignments:watch".toList, .watchAssignments) ]

/-- The method asked for: forms may name another one in X-HTTP-Method-Override. -/
def method (m contentType override : Str) : Str :=
  if m = "POST".toList ∧ contentType = "application/x-www-form-urlencoded".toList ∧ override ≠ [] then override else m

end OM.Spec
