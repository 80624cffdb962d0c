import Verif.Model.Messages
import Verif.Model.Serve
/-!
# The requests and responses of the API on the wire

`proto.Marshal` and `proto.Unmarshal` for the messages of proto/v2/api.proto, as the gRPC
server and the clients use them.  Unlike the places that decode what replication delivers
(`parse`), the gRPC server and Go clients refuse bytes they cannot read (`receive`).  Simplifications
as in `Model/Wire.lean`, except that `receive` has the limits of Go's decoder; also, Go keeps fields it
does not know and sends them along.  The lenient `unmarshal`, which reads nested messages up to the
first error, is only used for the details of errors (Model/Errors.lean).
-/
namespace OM.Wire

def parseAllF : Nat → Str → Option (List Field)
  | 0, s => if s = [] then some [] else none
  | fuel + 1, s =>
    if s = [] then some []
    else match getField s with
      | none => none
      | some (f, rest) => (parseAllF fuel rest).map (f :: ·)

/-- The fields of a message; `none` at an encoding error. -/
def parseAll (s : Str) : Option (List Field) := parseAllF s.length s

/-- `proto.Unmarshal` of the outermost message: refuses what cannot be read and strings that are not UTF-8. -/
def unmarshal {α : Type} (dec : List Field → α) (ok : α → Bool) (b : Str) : Option α :=
  (parseAll b).bind fun fs => if ok (dec fs) then some (dec fs) else none

/-! ## `proto.Unmarshal` with its refusals

protobuf-go's internal/impl/decode.go (`unmarshalPointerEager`) and encoding/protowire (`ConsumeVarint`,
`ConsumeTag`), in the version of core/go.mod:28: varints have at most ten bytes and 64 bits, field numbers are from 1 to 2^29-1,
nested messages are read the same way, and every string is checked (`consumeStringValueValidateUTF8`). -/

/-- `ConsumeVarint`. -/
def shortVarint (s : Str) : Option (Nat × Str) :=
  (getVarint s).bind fun p => if s.length ≤ p.2.length + 10 ∧ p.1 < 2 ^ 64 then some p else none

/-- The tag and, if there is one, the varint after it are within the limits. -/
def inLimits (s : Str) : Bool :=
  match shortVarint s with
  | none => false
  | some (tag, rest) =>
    decide (8 ≤ tag ∧ tag < 2 ^ 32) && ((tag % 8 != 0 && tag % 8 != 2) || (shortVarint rest).isSome)

def fieldsF : Nat → Str → Option (List Field)
  | 0, s => if s = [] then some [] else none
  | fuel + 1, s =>
    if s = [] then some []
    else if inLimits s then
      match getField s with
      | none => none
      | some (f, rest) => (fieldsF fuel rest).map (f :: ·)
    else none

/-- The fields of a message; `none` at an encoding error. -/
def fields (s : Str) : Option (List Field) := fieldsF s.length s

/-- What a field's content must be, for the fields of wire type 2 that are no `bytes`. -/
abbrev Content := List (Nat × (Str → Bool))

/-- Every string or message among the fields can be read. -/
def readable (subs : Content) (fs : List Field) : Bool :=
  fs.all fun p => match p.2 with
    | .len s => subs.all fun q => q.1 != p.1 || q.2 s
    | _ => true

/-- A message with these contents can be read. -/
def wellFormed (subs : Content) (b : Str) : Bool :=
  match fields b with
  | none => false
  | some fs => readable subs fs

/-- `proto.Unmarshal`. -/
def receive {α : Type} (subs : Content) (dec : List Field → α) (b : Str) : Option α :=
  if wellFormed subs b then some (dec (parse b)) else none

/-- The strings and messages in each message of messages.proto:50-240. -/
def timeC : Content := []
def anyC : Content := [(1, utf8Valid)]
def entryC (value : Str → Bool) : Content := [(1, utf8Valid), (2, value)]
def extC (n : Nat) : Nat × (Str → Bool) := (n, wellFormed (entryC (wellFormed anyC)))
def dataC : Content :=
  [(1, utf8Valid), (2, wellFormed (entryC utf8Valid)), (3, wellFormed (entryC fun _ => true)), (4, wellFormed timeC)]
def ticketC : Content := [(1, utf8Valid), (2, wellFormed timeC), (3, wellFormed dataC), extC 4]
def assignmentC : Content := [(1, utf8Valid), extC 2]
def rosterC : Content := [(1, utf8Valid), (2, wellFormed assignmentC), (3, wellFormed ticketC), extC 4]
def tagFilterC : Content := [(1, utf8Valid)]
def strFilterC : Content := [(1, utf8Valid), (2, utf8Valid)]
def dblFilterC : Content := [(1, utf8Valid)]
def ctFilterC : Content := [(6, wellFormed timeC), (7, wellFormed timeC)]
def poolC : Content :=
  [(1, utf8Valid), (2, wellFormed tagFilterC), (3, wellFormed strFilterC), (4, wellFormed dblFilterC), (5, wellFormed ctFilterC),
    (6, wellFormed rosterC), extC 7]
def profileC : Content := [(1, utf8Valid), (2, wellFormed (entryC (wellFormed poolC))), extC 3]
def matchC : Content := [(1, utf8Valid), (2, wellFormed (entryC (wellFormed rosterC))), extC 3]
def specC : Content := [(1, utf8Valid), (2, utf8Valid)]
def createTicketC : Content := [(1, wellFormed ticketC)]
def createdC : Content := [(1, utf8Valid)]
def idsC : Content := [(1, utf8Valid)]
def mmfRequestC : Content := [(1, wellFormed profileC), (2, wellFormed specC)]
def createAssignmentsC : Content := [(1, wellFormed rosterC)]
def watchC : Content := [(1, wellFormed assignmentC), (2, utf8Valid)]
def responseC : Content := [(1, wellFormed matchC)]
def chunkC : Content := [(1, wellFormed profileC)]

/-- `proto.Marshal`. -/
def marshal {α : Type} (enc : α → List Field) (ok : α → Bool) (v : α) : Option Str :=
  if ok v then some (ser (enc v)) else none

/-- `MatchmakingFunctionSpec`: messages.proto:174-183. -/
def specF (s : Serve.MmfSpec) : List Field :=
  strField 1 s.name ++ strField 2 s.host ++ intField 3 s.port ++ intField 4 s.type
def toSpec (fs : List Field) : Serve.MmfSpec := ⟨getStr 1 fs, getStr 2 fs, getInt32 3 fs, getInt32 4 fs⟩
def specOk (s : Serve.MmfSpec) : Bool := utf8Valid s.name && utf8Valid s.host && int32Ok s.port && int32Ok s.type

/-- `CreateTicketRequest`: messages.proto:200. -/
def createTicketF (t : Option Ticket) : List Field := msgField 1 (t.map ticketF)
def toCreateTicket (fs : List Field) : Option Ticket := (getMsg 1 fs).map toTicket
def createTicketOk (t : Option Ticket) : Bool := t.all ticketOk

/-- `CreateTicketResponse`: messages.proto:201. -/
def createdF (id : Str) : List Field := strField 1 id
def toCreated (fs : List Field) : Str := getStr 1 fs

/-- `ActivateTicketsRequest`, `DeactivateTicketsRequest`, `WatchAssignmentsRequest`:
messages.proto:204, 208, 238. -/
def idsF (ids : List Str) : List Field := repField 1 ids
def toIds (fs : List Field) : List Str := lens 1 fs
def idsOk (ids : List Str) : Bool := ids.all utf8Valid

/-- `MmfRequest`: messages.proto:213-218. -/
def mmfRequestF (q : Option Profile × List Serve.MmfSpec) : List Field :=
  msgField 1 (q.1.map profileF) ++ repField 2 (q.2.map fun s => ser (specF s))
def toMmfRequest (fs : List Field) : Option Profile × List Serve.MmfSpec :=
  ((getMsg 1 fs).map toProfile, getMsgs 2 fs toSpec)
def mmfRequestOk (q : Option Profile × List Serve.MmfSpec) : Bool := q.1.all profileOk && q.2.all specOk

/-- `CreateAssignmentsRequest`: messages.proto:233. -/
def createAssignmentsF (r : Option Roster) : List Field := msgField 1 (r.map rosterF)
def toCreateAssignments (fs : List Field) : Option Roster := (getMsg 1 fs).map toRoster
def createAssignmentsOk (r : Option Roster) : Bool := r.all rosterOk

/-- `StreamedWatchAssignmentsResponse`: messages.proto:239. -/
def watchF (a : Option Assignment × Str) : List Field := msgField 1 (a.1.map assignmentF) ++ strField 2 a.2
def toWatch (fs : List Field) : Option Assignment × Str := ((getMsg 1 fs).map toAssignment, getStr 2 fs)
def watchOk (a : Option Assignment × Str) : Bool := a.1.all assignmentOk && utf8Valid a.2

end OM.Wire
