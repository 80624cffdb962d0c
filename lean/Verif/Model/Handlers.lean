import Verif.Model.Cache
import Verif.Model.Wire
/-!
# The unary RPC handlers of core/main.go

Each handler is split at its two communication points: what it queues on
`tc.UpRequests`, and what it returns once it has received the responses (in the
order of its own updates, Props/Outgoing C19).
-/
namespace OM

/-- A gRPC error as the handlers build it: a code, a message and (for
`addStateUpdateErrorDetails`) field violations `(Field, Description)`. -/
structure RpcErr where
  code : Code
  msg : Str
  violations : List (Str × Str)
  deriving DecidableEq, Repr

def RpcErr.simple (c : Code) (m : String) : RpcErr := ⟨c, m.toList, []⟩

/-! ## CreateTicket (core/main.go:144-223) -/

/-- core/main.go:159 `req.GetTicket().GetAttributes().GetCreationTime()`. -/
def Ticket.creationTime (t : Ticket) : Option Timestamp := t.attributes.bind (·.creationTime)

/-- core/main.go:159-166: the creation time that is stored; `now` is `timestamppb.Now()`. -/
def storedCreation (now : Int) (t : Ticket) : Timestamp :=
  if Timestamp.isValid t.creationTime then t.creationTime.getD ⟨0, 0⟩ else newTimestamp now

/-- core/main.go:170 `crTime.AsTime().Add(time.Second * TTL)`. -/
def defaultExpiration (cfg : Config) (cr : Timestamp) : Int := asTime (some cr) + goSecs cfg.ttl

/-- core/main.go:175-179. -/
def storedExpiration (cfg : Config) (cr : Timestamp) (ex : Option Timestamp) : Timestamp :=
  if !Timestamp.isValid ex || decide (asTime ex > defaultExpiration cfg cr) then
    newTimestamp (defaultExpiration cfg cr)
  else ex.getD ⟨0, 0⟩

/-- core/main.go:182-191: the message that is marshalled. -/
def builtTicket (cfg : Config) (now : Int) (t : Ticket) : Ticket :=
  let cr := storedCreation now t
  { id := []
    expirationTime := some (storedExpiration cfg cr t.expirationTime)
    attributes := some
      { tags := (t.attributes.map (·.tags)).getD []
        stringArgs := (t.attributes.map (·.stringArgs)).getD []
        doubleArgs := (t.attributes.map (·.doubleArgs)).getD []
        creationTime := some cr }
    extensions := t.extensions }

/-- core/main.go:150-217: refuse, or queue one update.  The marshalled bytes are never nil
for the non-nil message of :182, so only `err != nil` matters at :194. -/
def createTicketQueue (cd : Codec) (cfg : Config) (now : Int) (ticket : Option Ticket) :
    Except RpcErr StateUpdate :=
  match ticket with
  | none => .error (.simple .invalidArgument "ticket is required")
  | some t =>
    match cd.encT (builtTicket cfg now t) with
    | none => .error (.simple .unknown "failed to marshal the ticket protobuf")
    | some b => .ok ⟨.ticket, [], b⟩

/-- core/main.go:220-222: what the caller sees: a response with a ticket id, or an error. -/
def createTicketReturn (r : StateResponse) : Except RpcErr Str :=
  match r.err with
  | none => .ok r.result
  | some e => .error ⟨.unknown, e, []⟩

/-! ## Id validation (core/main.go:876-893, redis.go:314-316, memory/main.go:42-44) -/

/-- Does the regexp `\d*-\d*` match at the beginning of `s`?  (`\d*` is greedy; `-`
is not a digit so no backtracking is needed.) -/
def matchHere (s : Str) : Bool :=
  match s.dropWhile Char.isDigit with
  | '-' :: _ => true
  | _ => false

/-- `regexp.MatchString`: a match anywhere. -/
def matchString : Str → Bool
  | [] => matchHere []
  | c :: cs => matchHere (c :: cs) || matchString cs

/-- core/main.go:876-893. -/
def validateTicketIds (ids : List Str) : List Str × List Str :=
  ids.foldl (fun acc id => if matchString id then (acc.1 ++ [id], acc.2) else (acc.1, acc.2 ++ [id])) ([], [])

/-! ## ActivateTickets / DeactivateTickets (core/main.go:230-353) -/

/-- core/main.go:241-249: the requested state in words. -/
def stateWord : Cmd → Str
  | .deactivate => "inactive".toList
  | .activate => "active".toList
  | _ => []

/-- core/main.go:251-270: the updates queued by `updateTicketsActiveState`. -/
def stateUpdatesFor (cmd : Cmd) (ids : List Str) : List StateUpdate := ids.map fun id => ⟨cmd, id, []⟩

/-- core/main.go:279. -/
def updateErrMsg (cmd : Cmd) (id e : Str) : Str :=
  "Unable to update ticket ".toList ++ id ++ " state to ".toList ++ stateWord cmd ++ " : ".toList ++ e

/-- core/main.go:272-283: the loop over `i < len(ticketIds)` receiving one response each;
`none` when a response is missing (the loop would block). -/
def collectErrs (cmd : Cmd) : List Str → List StateResponse → GoMap Str → Option (GoMap Str)
  | [], _, errs => some errs
  | _ :: _, [], _ => none
  | id :: ids, r :: rs, errs =>
    collectErrs cmd ids rs
      (match r.err with
       | none => errs
       | some e => errs.store r.result (updateErrMsg cmd id e))

/-- core/main.go:902-924; map iteration order `order` is any permutation of `errs`.
`WithDetails` marshals the details.  If one of the texts is not UTF-8 this fails, `st` becomes
nil (:918), and the `Err()` of a nil status is nil. -/
def addStateUpdateErrorDetails (order : GoMap Str) : Option RpcErr :=
  if order.length > 0 then
    let deets := order.map fun e => ("ticketId/".toList ++ e.1, e.2)
    if deets.all fun d => Wire.utf8Valid d.1 && Wire.utf8Valid d.2 then
      some ⟨.invalidArgument, "One or more state update arguments were invalid".toList, deets⟩
    else none
  else none

/-- core/main.go:297-298 / :332-333. -/
def tooMany (cfg : Config) (cmd : Cmd) (n : Nat) : Str :=
  "Too many ticket ".toList ++ (match cmd with | .deactivate => "deactivations".toList | _ => "activations".toList) ++
    " requested in a single call (configured maximum ".toList ++ fmtInt cfg.maxUpdates ++ ", requested ".toList ++ fmtNat n ++ ")".toList

/-- core/main.go:291-306 / :326-340: refuse, or the updates to queue. -/
def activeStateQueue (cfg : Config) (cmd : Cmd) (ids : List Str) : Except RpcErr (List StateUpdate) :=
  if ids.length = 0 then
    .error (.simple .invalidArgument "No Ticket IDs in update request")
  else if (ids.length : Int) > cfg.maxUpdates then
    .error ⟨.invalidArgument, tooMany cfg cmd ids.length, []⟩
  else .ok (stateUpdatesFor cmd (validateTicketIds ids).1)

/-- core/main.go:308-318 / :342-352: what is returned after the responses arrived; `none` as
the error is OK.  `perm` picks the iteration order of the `errs` map. -/
def activeStateReturn (cmd : Cmd) (ids : List Str) (rs : List StateResponse)
    (perm : GoMap Str → GoMap Str) : Option (Option RpcErr) :=
  (collectErrs cmd (validateTicketIds ids).1 rs []).map fun errs =>
    addStateUpdateErrorDetails (perm errs)

/-! ## CreateAssignments (core/main.go:733-795) -/

/-- core/main.go:740-773: refuse, or the updates to queue. -/
def createAssignmentsQueue (cd : Codec) (roster : Option Roster) : Except RpcErr (List StateUpdate) :=
  match roster with
  | none => .error (.simple .invalidArgument "roster with assignment is required")
  | some r =>
    match r.assignment with
    | none => .error (.simple .invalidArgument "roster with assignment is required")
    | some a =>
      match cd.encA a with
      | none => .error (.simple .unknown "failed to marshal the assignment protobuf")
      | some b =>
        .ok (r.tickets.filterMap fun t => if t.id = [] then none else some ⟨.assign, t.id, b⟩)

/-- core/main.go:777-794: the responses are received, errors are only logged (:783-785), and
the final `return` passes a nil error. -/
def createAssignmentsReturn (_rs : List StateResponse) : Option RpcErr := none

end OM
