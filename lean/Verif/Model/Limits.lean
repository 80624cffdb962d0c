import Verif.Model.Mmf
import Verif.Model.Messages
import Verif.Model.Relay
/-!
# The limit on received gRPC messages

Nothing in /repo sets a limit: om-core's server (core/server.go:45-47), the functions' servers (mmf/server/server.go:60-61)
and om-core as the functions' client (core/main.go:506-511) all take grpc-go's default.  That this is 4 MiB, that a message
longer than that makes `Recv` fail, that this ends the call with an error on both sides and that sending has no such limit
is grpc-go's behaviour (not in /repo).
-/
namespace OM.Limits

def recvLimit : Nat := 4194304

/-- What the receiver gets of a stream of messages of these sizes, and whether it gets to the end of it. -/
def arriving {α : Type} (size : α → Nat) : List α → List α × Bool
  | [] => ([], true)
  | m :: ms => if recvLimit < size m then ([], false) else ((arriving size ms).map (m :: ·) id)

/-- `CreateTicketRequest`: messages.proto:200. -/
def requestSize (t : Ticket) : Nat := (Wire.ser (Wire.msgField 1 (some (Wire.ticketF t)))).length

/-- A chunk (messages.proto:192-197) and a `StreamedMmfResponse` (:228). -/
def chunkSize (r : ChunkedMmfRunRequest) : Nat := (Wire.ser (Wire.chunkF r)).length
def responseSize (m : Match) : Nat := (Wire.ser (Wire.responseF (some m))).length

/-- What om-core makes of a function it reaches (core/main.go:576-603): the matches that arrive, and whether the stream ends
normally; `whole`: the function could receive all chunks of the request (mmf/server/server.go:76-80).  Simplified: map
entries in the order sent. -/
def seen (whole : Bool) (r : Mmf.RunRes) : Relay.Mmf :=
  { starts := true
    results := (arriving responseSize r.sent).1.map some
    eof := whole && (arriving responseSize r.sent).2 && !r.err }

end OM.Limits
