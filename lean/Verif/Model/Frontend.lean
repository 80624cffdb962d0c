import Verif.Model.ProtoJson
/-!
# The example's mock frontend

matchmaker-example/main.go:590-626 (`Run`), :637-695 (`proxyCreateTicket`) and :483-513
(`restfulGrpcPost`): tickets are created concurrently, and a second goroutine calls
`activateTickets` again and again on the channel that their ids are put in.  Left out: the pauses
of one second and the number of tickets per second (how often creations finish is up to the
schedule); log output.
-/
namespace OM.Front
open OM.PJ

/-- The error of a call as a client sees it: code and message (Model/Errors.lean says how it gets there). -/
structure Status where
  code : Nat
  msg : Str
  deriving DecidableEq

/-- `status.Status` as JSON (google/rpc/status.proto); om-core adds no details to errors of CreateTicket. -/
def statusJson (s : Status) : Json :=
  .obj [("code".toList, .num (fmtInt s.code)), ("message".toList, .str s.msg), ("details".toList, .arr [])]

/-- `DefaultHTTPErrorHandler`'s body for an error that cannot be written itself. -/
def fallback : Str := "{\"code\": 13, \"message\": \"failed to marshal error message\"}".toList

/-- The body of the gateway's answer to CreateTicket (api.pb.gw.go:353-357, :381-386): the response, or
the error (`fallback` stands for any error if the id is not text); the status line is not looked at
(:483-513). -/
def restBody (e : Env) (sep : Str) : Except Status Str → Str
  | .ok id => (marshal (createdJson e) false sep id).getD fallback
  | .error s => (marshal (fun s => some (statusJson s)) false sep s).getD fallback

/-- How `CreateTicket` came back: over gRPC, or what `restfulGrpcPost` returned. -/
inductive Reply where
  | grpc (r : Except Status Str)
  | rest (body : Option Str)

/-- `proxyCreateTicket`, lines 662-695: the id, or the empty string if the call failed or the response
could not be read.  (A message read in part is left out: om-core's error bodies begin with a member
that the response does not have.) -/
def ticketId (e : Env) : Reply → Str
  | .grpc (.ok id) => id
  | .grpc (.error _) => []
  | .rest none => []
  | .rest (some b) => (unmarshal (asCreated e) b).getD []

/-- The two goroutines of `Run`: the current call of `activateTickets`, and the requests of the goroutines
that earlier calls started. -/
structure St where
  cur : Mm.St
  past : List (List Str)

/-- Line 593. -/
def St.init : St := ⟨Mm.St.init [], []⟩

/-- `created`: a creation returned and its id is put in the channel (line 608).  `inner`: a step of
`activateTickets` or of its goroutines.  `again`: `activateTickets` returned and is called again (:619-623). -/
inductive Lbl where
  | created (r : Reply)
  | inner (l : Mm.Lbl)
  | again

def St.step (e : Env) (s : St) : Lbl → Option St
  | .created r => (s.cur.step (.push (ticketId e r))).map fun c => { s with cur := c }
  | .inner (.push _) => none
  | .inner l => (s.cur.step l).map fun c => { s with cur := c }
  | .again => if s.cur.pc = .returned then some ⟨Mm.St.init s.cur.queue, s.past ++ s.cur.calls⟩ else none

def St.run (e : Env) (s : St) : List Lbl → Option St
  | [] => some s
  | l :: ls => (s.step e l).bind fun s => s.run e ls

/-- The requests of all activation calls so far. -/
def St.calls (s : St) : List (List Str) := s.past ++ s.cur.calls

end OM.Front
