import Verif.Model.Handlers
import Verif.Model.Relay
import Verif.Model.Watch
/-!
# The REST gateway

core/server.go:56-72 and core/pkg/api/v2/api.pb.gw.go, with the routing of grpc-gateway
2.19.0 (`ServeMux.ServeHTTP`, `Pattern.MatchAndEscape`).  Decoding JSON is a
parameter here, and so is forwarding (both in Model/ProtoJson.lean); headers other than those
routing looks at are left out.
-/
namespace OM.Gw

/-- The service's methods, api_grpc.pb.go. -/
inductive Rpc where
  | createTicket | deactivateTickets | activateTickets | invokeMmfs | createAssignments | watchAssignments
  deriving DecidableEq, Repr

/-- `runtime.Pattern` as all patterns of this service are: two literals and a verb. -/
structure Pattern where
  lits : List Str
  verb : Str

def post : Str := "POST".toList
def delete : Str := "DELETE".toList
def v2 : Str := "v2".toList
def ticketsSeg : Str := "tickets".toList
def matchesSeg : Str := "matches".toList
def assignmentsSeg : Str := "assignments".toList

structure Handler where
  method : Str
  pat : Pattern
  rpc : Rpc

/-- The registrations, api.pb.gw.go:342-452, with the patterns of :478-488. -/
def registered : List Handler :=
  [ ⟨post, ⟨[v2, ticketsSeg], []⟩, .createTicket⟩,
    ⟨delete, ⟨[v2, ticketsSeg], "deactivate".toList⟩, .deactivateTickets⟩,
    ⟨post, ⟨[v2, ticketsSeg], "activate".toList⟩, .activateTickets⟩,
    ⟨post, ⟨[v2, matchesSeg], "fetch".toList⟩, .invokeMmfs⟩,
    ⟨post, ⟨[v2, assignmentsSeg], "create".toList⟩, .createAssignments⟩,
    ⟨post, ⟨[v2, assignmentsSeg], "watch".toList⟩, .watchAssignments⟩ ]

/-- `mux.Handle` puts a handler in front of the others (api.pb.gw.go:342). -/
def handlers : List Handler := registered.foldl (fun hs h => h :: hs) []

/-- What the pattern's verb makes of the last path component: its index, if the component
ends in a colon and the verb. -/
def verbIdx (p : Pattern) (last : Str) : Option Nat :=
  if p.verb ≠ [] ∧ (':' :: p.verb) <:+ last then some (last.length - p.verb.length - 1) else none

/-- `MatchAndEscape` for two literals: the verb must be the pattern's, the components its
literals. -/
def matchPattern (p : Pattern) (comps : List Str) (verb : Str) : Bool := p.verb = verb ∧ comps = p.lits

/-- The components and the verb a handler is tried with. -/
def tryHandler (h : Handler) (comps : List Str) : Bool :=
  let last := comps.getLast?.getD []
  match verbIdx h.pat last with
  | some (i + 1) => matchPattern h.pat (comps.dropLast ++ [last.take (i + 1)]) (last.drop (i + 2))
  | _ => matchPattern h.pat comps []

/-- What happens to a request; `refused` carries the HTTP status. -/
inductive Answer where
  | rpc (r : Rpc)
  | refused (status : Nat)
  deriving DecidableEq

/-- The handlers of the request's method, in turn; a component that is only a verb ends the
search. -/
def dispatch (comps : List Str) : List Handler → Option Answer
  | [] => none
  | h :: hs =>
    if verbIdx h.pat (comps.getLast?.getD []) = some 0 then some (.refused 404)
    else if tryHandler h comps then some (.rpc h.rpc)
    else dispatch comps hs

/-- `isPathLengthFallback` with X-HTTP-Method-Override: a form posted with this header is
treated as the other method (given here in capitals). -/
def effectiveMethod (method contentType override : Str) : Str :=
  if override ≠ [] ∧ method = post ∧ contentType = "application/x-www-form-urlencoded".toList then override
  else method

/-- `ServeHTTP`: `path` is the unescaped path.  A known path with another method is
"unimplemented", which is HTTP status 501. -/
def serve (method contentType override path : Str) : Answer :=
  match path with
  | '/' :: rest =>
    let comps := split '/' rest
    let m := effectiveMethod method contentType override
    match dispatch comps (handlers.filter fun h => h.method = m) with
    | some a => a
    | none =>
      if (handlers.filter fun h => h.method ≠ m).any fun h => tryHandler h comps then .refused 501
      else .refused 404
  | _ => .refused 400

/-- What `marshaler.NewDecoder(req.Body).Decode` finds: nothing (io.EOF), a message, or an
error. -/
inductive Body (α : Type) where
  | eof | msg (a : α) | bad

/-- api.pb.gw.go:35-187, `request_OpenMatchService_…_0`: the message sent on to the gRPC
server; `zero` is the empty message. -/
def requestOf {α : Type} (zero : α) : Body α → Except Nat α
  | .eof => .ok zero
  | .msg a => .ok a
  | .bad => .error 400

/-- `runtime.HTTPStatusFromCode` for the codes of this service. -/
def httpStatus : Code → Nat
  | .ok => 200
  | .invalidArgument => 400
  | _ => 500

/-- matchmaker-example/main.go:271, :487-488: the URLs the example uses, from the path on. -/
def examplePath (urlpath : Str) : Str := "/v2/".toList ++ urlpath

end OM.Gw
