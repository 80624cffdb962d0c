import Verif.Model.Wire
/-!
# The messages between om-core and MMFs on the wire

`proto.Marshal` and `proto.Unmarshal` for the chunked request and the streamed response
of proto/v2/mmf.proto, with everything they contain (proto/v2/messages.proto).  The
encoders of the request are in `Model/Wire.lean`, where their sizes are needed.  Same
simplifications as there.
-/
namespace OM.Wire

def getDbl (f : Nat) (fs : List Field) : F64 := (dbls f fs).getLast?.getD 0
def getMsgs {α : Type} (f : Nat) (fs : List Field) (dec : List Field → α) : List α := (lens f fs).map fun s => dec (parse s)
def getMsgMap {V : Type} (f : Nat) (fs : List Field) (dec : List Field → V) : GoMap V :=
  getMap f fs fun e => dec ((getMsg 2 e).getD [])

/-- messages.proto:164-171. -/
def toRoster (fs : List Field) : Roster :=
  { name := getStr 1 fs, assignment := (getMsg 2 fs).map toAssignment
    tickets := getMsgs 3 fs toTicket, extensions := toExt 4 fs }

/-- messages.proto:113-137. -/
def toTagFilter (fs : List Field) : TagPresentFilter := ⟨getStr 1 fs⟩
def toStrFilter (fs : List Field) : StringEqualsFilter := ⟨getStr 1 fs, getStr 2 fs⟩
def toDblFilter (fs : List Field) : DoubleRangeFilter := ⟨getStr 1 fs, getDbl 2 fs, getDbl 3 fs, getInt32 4 fs⟩
def toCtFilter (fs : List Field) : CreationTimeRangeFilter :=
  ⟨(getMsg 6 fs).map toTimestamp, (getMsg 7 fs).map toTimestamp, getInt32 4 fs⟩

/-- messages.proto:89-145. -/
def toPool (fs : List Field) : Pool :=
  { name := getStr 1 fs
    tagPresentFilters := getMsgs 2 fs toTagFilter
    stringEqualsFilters := getMsgs 3 fs toStrFilter
    doubleRangeFilters := getMsgs 4 fs toDblFilter
    creationTimeRangeFilter := (getMsg 5 fs).map toCtFilter
    participants := (getMsg 6 fs).map toRoster
    extensions := toExt 7 fs }

/-- messages.proto:147-153. -/
def toProfile (fs : List Field) : Profile :=
  { name := getStr 1 fs, pools := getMsgMap 2 fs toPool, extensions := toExt 3 fs }

/-- messages.proto:192-197. -/
def toChunkMsg (fs : List Field) : ChunkedMmfRunRequest :=
  { profile := (getMsg 1 fs).map toProfile, numChunks := getInt32 2 fs }

/-- messages.proto:155-161. -/
def matchF (m : Match) : List Field :=
  strField 1 m.id ++ mapField 2 m.rosters (fun r => .len (ser (rosterF r))) ++ extF 3 m.extensions
def toMatch (fs : List Field) : Match :=
  { id := getStr 1 fs, rosters := getMsgMap 2 fs toRoster, extensions := toExt 3 fs }

/-- `StreamedMmfResponse`: messages.proto:228. -/
def responseF (o : Option Match) : List Field := msgField 1 (o.map matchF)
def toResponse (fs : List Field) : Option Match := (getMsg 1 fs).map toMatch

/-! ## What can be marshalled: strings are UTF-8, map keys distinct, numbers in range -/

def int32Ok (v : Int) : Bool := decide (-2 ^ 31 ≤ v ∧ v < 2 ^ 31)
def rosterOk (r : Roster) : Bool :=
  utf8Valid r.name && r.assignment.all assignmentOk && r.tickets.all ticketOk && mapOk r.extensions anyOk
def dblFilterOk (f : DoubleRangeFilter) : Bool := utf8Valid f.doubleArg && int32Ok f.bounds
def ctFilterOk (f : CreationTimeRangeFilter) : Bool := f.start.all tsOk && f.stop.all tsOk && int32Ok f.bounds
def poolOk (p : Pool) : Bool :=
  utf8Valid p.name && p.tagPresentFilters.all (fun f => utf8Valid f.tag)
    && p.stringEqualsFilters.all (fun f => utf8Valid f.stringArg && utf8Valid f.value)
    && p.doubleRangeFilters.all dblFilterOk && p.creationTimeRangeFilter.all ctFilterOk
    && p.participants.all rosterOk && mapOk p.extensions anyOk
def profileOk (p : Profile) : Bool := utf8Valid p.name && mapOk p.pools poolOk && mapOk p.extensions anyOk
def chunkOk (c : ChunkedMmfRunRequest) : Bool := c.profile.all profileOk && int32Ok c.numChunks
def matchOk (m : Match) : Bool := utf8Valid m.id && mapOk m.rosters rosterOk && mapOk m.extensions anyOk

/-- Marshalling and unmarshalling a request chunk: `stream.Send` (core/main.go:577) and
`stream.Recv` (mmf/server/server.go:76). -/
def encChunk (c : ChunkedMmfRunRequest) : Option Str := if chunkOk c then some (ser (chunkF c)) else none
def decChunk (b : Str) : ChunkedMmfRunRequest := toChunkMsg (parse b)

/-- Marshalling and unmarshalling a result: `stream.Send` (soloduel.go:126,
battleroyale.go:117, teamshooter.go:136) and `stream.Recv` (core/main.go:593). -/
def encResponse (o : Option Match) : Option Str := if o.all matchOk then some (ser (responseF o)) else none
def decResponse (b : Str) : Option Match := toResponse (parse b)

end OM.Wire
