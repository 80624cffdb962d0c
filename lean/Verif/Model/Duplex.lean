import Verif.Model.Invoke
/-!
# The stream between om-core and a matchmaking function

core/main.go:556-603 (the goroutine that invokes one function): om-core first sends all
chunks of the request (576-579, errors of `Send` are dropped), and only then receives
matches (590-603) until the stream ends.  It never calls `CloseSend`, so the function never
sees the end of the request.  The function (`Run`, e.g. mmf/server/server.go:74-111 and
functions/golang/soloduel/soloduel.go) may receive and send as it likes.

gRPC's flow control holds back messages that the other side does not read: each direction is
a queue that takes a message only if there is room, or if it is empty and the other side is
waiting in `Recv`.  What "room" is, is left open (in grpc-go it depends on windows, the size
of the messages and write quotas).

Simplified: the deadline of the call (OM_MMF_TIMEOUT_SECS, main.go:562) is no step; a state
without a step lasts until it, when `Recv` fails with DeadlineExceeded (600-603) and what is
still under way is lost.  The connection is taken to work.
-/
namespace OM.Duplex

/-- What a function does next; `recv` goes on with the chunk, or with `none` at the end of
the request. -/
inductive Act (σ : Type) where
  | recv (k : Option ChunkedMmfRunRequest → σ)
  | send (m : Match) (k : σ)
  | ret

/-- A matchmaking function's `Run`. -/
structure Fn where
  σ : Type
  start : σ
  next : σ → Act σ

/-- Flow control: is there room for the message in a queue with these messages? -/
structure Rooms where
  up : List ChunkedMmfRunRequest → ChunkedMmfRunRequest → Bool
  down : List Match → Match → Bool

structure St (F : Fn) where
  /-- chunks om-core has yet to send -/
  toSend : List ChunkedMmfRunRequest
  /-- om-core has called `CloseSend` -/
  closed : Bool
  /-- chunks on the way to the function -/
  up : List ChunkedMmfRunRequest
  fn : F.σ
  /-- the function has returned -/
  returned : Bool
  /-- matches on the way to om-core -/
  down : List Match
  /-- matches om-core has received -/
  got : List Match
  /-- om-core's `Recv` has returned `io.EOF` -/
  done : Bool

inductive Label where
  /-- om-core: `mmfStream.Send(chunk)` returns -/
  | send
  /-- om-core: `CloseSend` (not in the code) -/
  | close
  /-- om-core: `mmfStream.Recv()` returns -/
  | recv
  /-- the function's next action -/
  | fn
  deriving DecidableEq

/-- core/main.go:565-579 -/
def init (F : Fn) (chunks : List ChunkedMmfRunRequest) : St F := ⟨chunks, false, [], F.start, false, [], [], false⟩

variable {F : Fn}

/-- om-core is in `mmfStream.Recv()` (main.go:593). -/
def reading (closes : Bool) (s : St F) : Bool := s.toSend.isEmpty && (!closes || s.closed) && !s.done

/-- The function is in `stream.Recv()`. -/
def waiting (s : St F) : Bool :=
  !s.returned && match F.next s.fn with | .recv _ => true | _ => false

/-- `closes` is whether om-core calls `CloseSend` after the last chunk; the code does not. -/
def step (closes : Bool) (R : Rooms) (s : St F) : Label → Option (St F)
  | .send =>
    match s.toSend with
    | [] => none
    | c :: cs =>
      -- once the function has returned, Send fails at once; the error is dropped (main.go:577)
      if s.returned then some { s with toSend := cs }
      else if R.up s.up c || (s.up.isEmpty && waiting s) then some { s with toSend := cs, up := s.up ++ [c] }
      else none
  | .close => if closes && s.toSend.isEmpty && !s.closed then some { s with closed := true } else none
  | .recv =>
    if reading closes s then
      match s.down with
      | m :: ms => some { s with down := ms, got := s.got ++ [m] }
      | [] => if s.returned then some { s with done := true } else none
    else none
  | .fn =>
    if s.returned then none
    else
      match F.next s.fn with
      | .recv k =>
        match s.up with
        | c :: cs => some { s with up := cs, fn := k (some c) }
        | [] => if s.closed then some { s with fn := k none } else none
      | .send m k =>
        if R.down s.down m || (s.down.isEmpty && reading closes s) then some { s with down := s.down ++ [m], fn := k } else none
      | .ret => some { s with returned := true }

def run (closes : Bool) (R : Rooms) : St F → List Label → Option (St F)
  | s, [] => some s
  | s, l :: ls => (step closes R s l).bind fun s' => run closes R s' ls

/-! ## Functions -/

inductive RSt where
  | asking (acc : List ChunkedMmfRunRequest)
  | answering (ms : List Match)

/-- What a reading function does with what `Recv` returns. -/
def afterRecv (enough : List ChunkedMmfRunRequest → Bool) (result : List ChunkedMmfRunRequest → List Match)
    (acc : List ChunkedMmfRunRequest) : Option ChunkedMmfRunRequest → RSt
  | none => .answering (result acc)
  | some c => if enough (acc ++ [c]) then .answering (result (acc ++ [c])) else .asking (acc ++ [c])

/-- A function that first receives chunks, until it has enough or the request ends, and then
sends its matches. -/
def reader (enough : List ChunkedMmfRunRequest → Bool) (result : List ChunkedMmfRunRequest → List Match) : Fn where
  σ := RSt
  start := .asking []
  next
    | .asking acc => .recv (afterRecv enough result acc)
    | .answering (m :: ms) => .send m (.answering ms)
    | .answering [] => .ret

/-- mmf/server/server.go:74-111 `GetChunkedRequest` (used by the functions of the repository)
goes on receiving as long as it has not found the last chunk. -/
def countsChunks (acc : List ChunkedMmfRunRequest) : Bool := getChunkedRequest acc != some (.err, [])

/-- Reads up to the end of the stream, like `for { c, err := stream.Recv(); if err == io.EOF { break } … }`. -/
def toTheEnd (_ : List ChunkedMmfRunRequest) : Bool := false

inductive Op where
  | recv
  | send (m : Match)
  deriving DecidableEq

/-- A function that receives and sends as the list says. -/
def script (ops : List Op) : Fn where
  σ := List Op
  start := ops
  next
    | [] => .ret
    | .recv :: r => .recv fun _ => r
    | .send m :: r => .send m r

end OM.Duplex
