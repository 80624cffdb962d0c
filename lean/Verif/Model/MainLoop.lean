import Verif.Model.Example
import Verif.Model.Frontend
/-!
# The example's main loop

matchmaker-example/main.go:84-100 (flags) and :186-379 (`main`, from the loop on): how the answer of
om-core to a cycle's call is taken, over gRPC and over REST, and what the loop does with it.  What
grpc-go, net/http and the gateway do is modelled from general knowledge of them; their source is not
in /repo.  Left out: log output, the pause of two seconds after an empty cycle, and the MMF servers that `main` starts.
-/
namespace OM.Loop
open OM.PJ

/-! ## Flags -/

/-- matchmaker-example/main.go:85-93, those that the loop looks at. -/
structure Flags where
  conn : Str
  omhost : Str
  cycles : Int
  ignoreEmpty : Bool
  deriving DecidableEq

/-- matchmaker-example/main.go:85-87, :92; `math.MaxInt32` cycles. -/
def Flags.default : Flags := ⟨"http".toList, "localhost:8080".toList, 2147483647, false⟩

/-- matchmaker-example/main.go:226, :441, :660: any other text means HTTP. -/
def Flags.isGrpc (f : Flags) : Bool := decide (f.conn = "grpc".toList)

/-- The address that calls go to: matchmaker-example/main.go:165 for gRPC, :271 and :488 for HTTP. -/
def Flags.target (f : Flags) : Str := if f.isGrpc then f.omhost else "localhost:58081".toList

/-! ## One call of InvokeMatchmakingFunctions -/

/-- What the call gives the example.  `grpc none`: `InvokeMatchmakingFunctions` returns an error;
`grpc (some ms)`: the messages before `Recv` returns io.EOF or another error.  `rest none`: `Do` fails;
`rest (some (status, body))`: the body in code points. -/
inductive Invoked where
  | grpc (r : Option (List (Option Match)))
  | rest (r : Option (Nat × Str))

/-- The matches of a cycle; `none`: the process ends.  gRPC, matchmaker-example/main.go:227-259: `Fatalf` at
:229; any error of `Recv` only ends the stream.  REST, :276-338: the nil `resp` is dereferenced at :284 if
`Do` failed; `Fatalf` at :285 and :301, a panic at :312 (both in `Mm.readStream`).  A line that cannot be
read is logged and counted all the same (:316-337); `junk` is the match that is left in the message. -/
def received (e : Env) (junk : Str → Option Match) : Invoked → Option (List (Option Match))
  | .grpc r => r
  | .rest none => none
  | .rest (some (status, body)) =>
    if status = 200 then
      (Mm.readStream (body.length + 1) body).map fun ts =>
        ts.map fun t => (unmarshal (asMmfResponse e) (t.flatMap fun c => Json.appendRune c.toNat)).getD (junk t)
    else none

/-! ## What om-core does with the call -/

/-- `unreachable`: there is no om-core at the address.  `refused`: an error before the first match.
`streamed`: matches, and then the end of the stream or an error. -/
inductive Served where
  | unreachable
  | refused (s : Front.Status)
  | streamed (ms : List (Option Match)) (err : Option Front.Status)

/-- Over gRPC: a call to an address with no server fails when it is made, the errors of a server come with
`Recv`. -/
def overGrpc : Served → Invoked
  | .unreachable => .grpc none
  | .refused _ => .grpc (some [])
  | .streamed ms _ => .grpc (some ms)

/-- `errorChunk`, as `PJ.errorLine` for any error. -/
def errLine (s : Front.Status) : Str := Json.write true [] (.obj [("error".toList, Front.statusJson s)])

/-- The bytes of the gateway's body for a stream (`runtime.ForwardResponseStream`, api.pb.gw.go:426), if all its
messages can be written (C110; for others see C111). -/
def bodyBytes (e : Env) (ms : List (Option Match)) (err : Option Front.Status) : Str :=
  (streamed (mmfResponseJson e) ms).1.flatMap Mm.envelope ++ (match err with | none => [] | some s => errLine s)

/-! ## The loop -/

/-- Why the loop, or the process, ended: the number of cycles is used up (:191), the `break` of :352, the
process ended while it read an answer, the send at :366 blocks for ever. -/
inductive End where
  | budget | empty | crash | blocked
  deriving DecidableEq

/-- `idle`: at the head of the loop.  `activating`: in `activateTickets` (:375). -/
inductive Phase where
  | idle
  | activating (a : Mm.St)
  | ended (x : End)

structure St where
  left : Nat                -- `i`, :191
  emptyCycles : Nat         -- :188
  queue : List Str          -- `ticketIdsToActivate`, :189
  accepted : Nat            -- `acceptedMatchesCounter`
  rejected : Nat            -- `rejectedMatchesCounter`
  past : List (List Str)    -- the requests of the goroutines that earlier calls of `activateTickets` started
  phase : Phase

/-- Lines 188-191; a negative number of cycles is none. -/
def St.init (f : Flags) : St := ⟨f.cycles.toNat, 0, [], 0, 0, [], .idle⟩

/-- A cycle: the answer, the random numbers, and the order in which the rosters of a match are visited. -/
structure Cycle where
  answer : Invoked
  draws : Nat → Nat
  ord : GoMap Roster → GoMap Roster

/-- `cycle`: lines 191-374, up to the call of `activateTickets`.  `inner`: a step of `activateTickets` or of
its goroutines.  `back`: it has returned (:375-376).  `stop`: the loop's condition fails. -/
inductive Lbl where
  | cycle (c : Cycle)
  | inner (l : Mm.Lbl)
  | back
  | stop

/-- Lines 192-374. -/
def St.cycle (e : Env) (junk : Str → Option Match) (ignoreEmpty : Bool) (s : St) (c : Cycle) : St :=
  match received e junk c.answer with
  | none => { s with phase := .ended .crash }
  | some ms =>
    let j := Mm.judge c.draws 0 ms
    let s := { s with accepted := s.accepted + j.1.length, rejected := s.rejected + j.2.length }
    if j.1.length + j.2.length = 0 then
      if !ignoreEmpty && decide (s.emptyCycles ≥ 3) then { s with phase := .ended .empty }
      else { s with left := s.left - 1, emptyCycles := s.emptyCycles + 1 }
    else
      match Mm.requeue s.queue (Mm.rejectedIds c.ord j.2) with
      | none => { s with emptyCycles := 0, phase := .ended .blocked }
      | some q => { s with emptyCycles := 0, queue := [], phase := .activating (Mm.St.init q) }

/-- `none`: the step is not possible.  Nobody else sends on the loop's channel. -/
def St.step (e : Env) (junk : Str → Option Match) (ignoreEmpty : Bool) (s : St) (l : Lbl) : Option St :=
  match s.phase, l with
  | .idle, .cycle c => if 0 < s.left then some (s.cycle e junk ignoreEmpty c) else none
  | .idle, .stop => if 0 < s.left then none else some { s with phase := .ended .budget }
  | .activating a, .inner l =>
    match l with
    | .push _ => none
    | l => (a.step l).map fun a => { s with phase := .activating a }
  | .activating a, .back =>
    if a.pc = .returned then some { s with left := s.left - 1, queue := a.queue, past := s.past ++ a.calls, phase := .idle }
    else none
  | _, _ => none

def St.run (e : Env) (junk : Str → Option Match) (ignoreEmpty : Bool) (s : St) : List Lbl → Option St
  | [] => some s
  | l :: ls => (s.step e junk ignoreEmpty l).bind fun s => s.run e junk ignoreEmpty ls

/-- The requests of all activation calls so far. -/
def St.calls (s : St) : List (List Str) :=
  s.past ++ (match s.phase with | .activating a => a.calls | _ => [])

end OM.Loop
