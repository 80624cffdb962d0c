import Verif.Model.Frontend
/-!
# What the example logs when a call fails

matchmaker-example/main.go:438-472 (`activateTickets`), :650-686 (`proxyCreateTicket`) and :483-512
(`restfulGrpcPost`): the lines of level error for each way a call can come back.  Left out: failures of
`protojson.Marshal` (Props/Json.lean says which requests can be written) and the other fields of a line.
-/
namespace OM.Front
open OM.PJ

/-- What an error is about: the status om-core answered with (gRPC), a request that could not be made or
whose answer could not be read to its end (restfulGrpcPost, :491-510), or a body that is not the response's JSON. -/
inductive Why where
  | status (s : Status)
  | transport
  | syntax
  deriving DecidableEq

/-- The lines of level error. -/
inductive Line where
  | cannotPost               -- restfulGrpcPost, :492, :500, :508
  | cannotUnmarshal          -- :463, :680
  | failed (why : Why)       -- :471, :685
  deriving DecidableEq

/-- `ActivateTicketsResponse` (messages.proto:218-219) has no fields. -/
def asActivated (e : Env) (j : Json) : Option Unit := (message e.opts [] j).map fun _ => ()

/-- The body of the gateway's answer to ActivateTickets (api.pb.gw.go: as in `restBody`). -/
def activatedBody (sep : Str) : Except Status Unit → Str
  | .ok _ => (marshal (fun _ : Unit => some (Json.obj [])) false sep ()).getD fallback
  | .error s => (marshal (fun s => some (statusJson s)) false sep s).getD fallback

/-- How `ActivateTickets` came back. -/
inductive ActReply where
  | grpc (r : Except Status Unit)
  | rest (body : Option Str)

/-- `activateTickets`, lines 438-472.  Over REST the `err` of lines 445-466 is another variable than that of
line 468, which is nil there. -/
def activationLog (e : Env) : ActReply → List Line
  | .grpc (.ok _) => []
  | .grpc (.error s) => [.failed (.status s)]
  | .rest none => [.cannotPost]
  | .rest (some b) => if (unmarshal (asActivated e) b).isSome then [] else [.cannotUnmarshal]

/-- `proxyCreateTicket`, lines 662-686. -/
def creationLog (e : Env) : Reply → List Line
  | .grpc (.ok _) => []
  | .grpc (.error s) => [.failed (.status s)]
  | .rest none => [.cannotPost, .failed .transport]
  | .rest (some b) => if (unmarshal (asCreated e) b).isSome then [] else [.cannotUnmarshal, .failed .syntax]

end OM.Front
