import Verif.Spec.Text
import Mathlib.Data.List.Forall2
import Verif.Model.Wire
import Verif.Model.Serve
import Verif.Spec.Serve
/-!
# The published message formats

What a client written against proto/v2/messages.proto puts on the wire, in any language: the
declarations of the file and, independently of the model's encoder and decoder, which bytes
encode which message under them (protobuf's encoding specification).  An encoder may write the
fields in any order, write a default value or leave it out, use longer varints than necessary,
add fields that are not declared, write a field more than once (the last one counts), write a
message in several pieces and write numbers with more bits than their type has.  A map is the list of
its entries in the order written.
-/
namespace OM.Spec
open OM.Wire (WVal Field)

/-- The fields of each message: name, type, number (messages.proto:50-240, and protobuf's
timestamp.proto and any.proto). -/
def published : List (String × List (String × String × Nat)) :=
  [("Timestamp", [("seconds", "int64", 1), ("nanos", "int32", 2)]),
   ("Any", [("type_url", "string", 1), ("value", "bytes", 2)]),
   ("Ticket", [("id", "string", 1), ("expiration_time", "Timestamp", 2), ("attributes", "FilterableData", 3),
     ("extensions", "map<string, Any>", 4)]),
   ("FilterableData", [("tags", "repeated string", 1), ("string_args", "map<string, string>", 2),
     ("double_args", "map<string, double>", 3), ("creation_time", "Timestamp", 4)]),
   ("Assignment", [("connection", "string", 1), ("extensions", "map<string, Any>", 2)]),
   ("Pool", [("name", "string", 1), ("tag_present_filters", "repeated TagPresentFilter", 2),
     ("string_equals_filters", "repeated StringEqualsFilter", 3),
     ("double_range_filters", "repeated DoubleRangeFilter", 4),
     ("creation_time_range_filter", "CreationTimeRangeFilter", 5), ("participants", "Roster", 6),
     ("extensions", "map<string, Any>", 7)]),
   ("TagPresentFilter", [("tag", "string", 1)]),
   ("StringEqualsFilter", [("string_arg", "string", 1), ("value", "string", 2)]),
   ("DoubleRangeFilter", [("double_arg", "string", 1), ("minimum", "double", 2), ("maximum", "double", 3),
     ("bounds", "FilterBounds", 4)]),
   ("CreationTimeRangeFilter", [("start", "Timestamp", 6), ("end", "Timestamp", 7), ("bounds", "FilterBounds", 4)]),
   ("Profile", [("name", "string", 1), ("pools", "map<string, Pool>", 2), ("extensions", "map<string, Any>", 3)]),
   ("Match", [("id", "string", 1), ("rosters", "map<string, Roster>", 2), ("extensions", "map<string, Any>", 3)]),
   ("Roster", [("name", "string", 1), ("assignment", "Assignment", 2), ("tickets", "repeated Ticket", 3),
     ("extensions", "map<string, Any>", 4)]),
   ("MatchmakingFunctionSpec", [("name", "string", 1), ("host", "string", 2), ("port", "int32", 3), ("type", "Type", 4)]),
   ("ChunkedMmfRunRequest", [("profile", "Profile", 1), ("num_chunks", "int32", 2)]),
   ("CreateTicketRequest", [("ticket", "Ticket", 1)]),
   ("CreateTicketResponse", [("ticket_id", "string", 1)]),
   ("DeactivateTicketsRequest", [("ticket_ids", "repeated string", 1)]),
   ("DeactivateTicketsResponse", []),
   ("ActivateTicketsRequest", [("ticket_ids", "repeated string", 1)]),
   ("ActivateTicketsResponse", []),
   ("MmfRequest", [("profile", "Profile", 1), ("mmfs", "repeated MatchmakingFunctionSpec", 2)]),
   ("StreamedMmfResponse", [("match", "Match", 1)]),
   ("CreateAssignmentsRequest", [("assignment_roster", "Roster", 1)]),
   ("CreateAssignmentsResponse", []),
   ("WatchAssignmentsRequest", [("ticket_ids", "repeated string", 1)]),
   ("StreamedWatchAssignmentsResponse", [("assignment", "Assignment", 1), ("id", "string", 2)])]

/-- Message `m` declares the field `f` of type `ty` with number `n`. -/
def Declared (m f ty : String) (n : Nat) : Prop := ∃ d ∈ published, d.1 = m ∧ (f, ty, n) ∈ d.2

instance (m f ty : String) (n : Nat) : Decidable (Declared m f ty n) := by unfold Declared; infer_instance

/-- Little-endian value of bytes. -/
def leValue : Str → Nat
  | [] => 0
  | c :: s => c.toNat + 256 * leValue s

/-- A number of at most 64 bits, in at most ten bytes. -/
def Varint64 (s : Str) (n : Nat) : Prop := Varint s n ∧ s.length ≤ 10 ∧ n < 2 ^ 64

/-- A tag: field number and wire type.  The numbers are those the protobuf language allows. -/
def Tag (s : Str) (f ty : Nat) : Prop := Varint64 s (8 * f + ty) ∧ 1 ≤ f ∧ f < 2 ^ 29

/-- The bytes of one field: a tag, then the payload (wire type 0: varint, 1: eight bytes, 2: length
and content, 5: four bytes). -/
inductive FieldBytes : Field → Str → Prop
  | varint {f n : Nat} {tag p : Str} : Tag tag f 0 → Varint64 p n → FieldBytes (f, .varint n) (tag ++ p)
  | fixed64 {f : Nat} {x : F64} {tag p : Str} : Tag tag f 1 → p.length = 8 → leValue p = x.toNat →
      FieldBytes (f, .fixed64 x) (tag ++ p)
  | len {f : Nat} {tag l s : Str} : Tag tag f 2 → Varint64 l s.length → FieldBytes (f, .len s) (tag ++ (l ++ s))
  | fixed32 {f : Nat} {x : BitVec 32} {tag p : Str} : Tag tag f 5 → p.length = 4 → leValue p = x.toNat →
      FieldBytes (f, .fixed32 x) (tag ++ p)

/-- `b` is a sequence of fields. -/
inductive MessageBytes : List Field → Str → Prop
  | nil : MessageBytes [] []
  | cons {f : Field} {fs : List Field} {a b : Str} : FieldBytes f a → MessageBytes fs b → MessageBytes (f :: fs) (a ++ b)

def IsMessage (b : Str) : Prop := ∃ fs, MessageBytes fs b

/-- Every character stands for a byte. -/
def IsBytes (b : Str) : Prop := ∀ c ∈ b, c.toNat < 256

/-- The occurrences of a field number, in order. -/
def occ (n : Nat) (fs : List Field) : List WVal := (fs.filter fun p => decide (p.1 = n)).map (·.2)

/-! ## Occurrences of a value

A field written with another wire type than that of its declared type is a field that the reader does not know. -/

def contents (o : List WVal) : List Str := o.filterMap fun v => match v with | .len s => some s | _ => none
def numbers (o : List WVal) : List Nat := o.filterMap fun v => match v with | .varint n => some n | _ => none
def doubles (o : List WVal) : List F64 := o.filterMap fun v => match v with | .fixed64 x => some x | _ => none

/-- The last one counts; `zero` if there is none. -/
def Last {α : Type} (zero v : α) (l : List α) : Prop := (∃ l', l = l' ++ [v]) ∨ (v = zero ∧ l = [])

/-- A string: the last one written, after others that are text. -/
def TextVal (s : Str) (o : List WVal) : Prop :=
  Last [] s (contents o) ∧ ∀ x ∈ (contents o).dropLast, IsText x
def BytesVal (s : Str) (o : List WVal) : Prop := Last [] s (contents o)
/-- int32, int64 and enums: two's complement; more bits than the type has are cut off. -/
def NumVal (bits : Nat) (v : Int) (o : List WVal) : Prop :=
  ∃ k : Nat, Last 0 k (numbers o) ∧ ∃ j : Int, (k : Int) = v + j * 2 ^ bits
def DoubleVal (x : F64) (o : List WVal) : Prop := Last 0 x (doubles o)
/-- A message in pieces: as if they were written one after the other. -/
def Pieces {α : Type} (R : α → Str → Prop) (v : α) (bs : List Str) (o : List WVal) : Prop :=
  contents o = bs ∧ (∀ b ∈ bs, IsMessage b) ∧ R v bs.flatten
def MsgVal {α : Type} (R : α → Str → Prop) : Option α → List WVal → Prop
  | none, o => contents o = []
  | some v, o => ∃ bs, bs ≠ [] ∧ Pieces R v bs o
def TextsVal (l : List Str) (o : List WVal) : Prop := contents o = l
def MsgsVal {α : Type} (R : α → Str → Prop) (l : List α) (o : List WVal) : Prop := List.Forall₂ R l (contents o)
/-- Map entries are messages with the key in field 1 and the value in field 2. -/
def EntryVal {V : Type} (R : V → List WVal → Prop) (e : Str × V) (b : Str) : Prop :=
  ∃ fs, MessageBytes fs b ∧ TextVal e.1 (occ 1 fs) ∧ R e.2 (occ 2 fs)
/-- A map from its entries in the order written: one whose key is written again does not count (and is as `T` says). -/
inductive MapOf {V : Type} (T : V → Prop) : List (Str × V) → GoMap V → Prop
  | nil : MapOf T [] []
  | keep {e l m} : MapOf T l m → MapOf T (e :: l) (e :: m)
  | again {e l m} : MapOf T l m → (∃ e' ∈ l, e'.1 = e.1) → T e.2 → MapOf T (e :: l) m
def MapVal {V : Type} (T : V → Prop) (R : V → List WVal → Prop) (m : GoMap V) (o : List WVal) : Prop :=
  ∃ l, MsgsVal (EntryVal R) l o ∧ MapOf T l m
/-- A message value in a map may be left out when it is empty. -/
def MsgInMap {V : Type} (R : V → Str → Prop) (v : V) (o : List WVal) : Prop := ∃ bs, Pieces R v bs o

/-- What a Go program can hold and send: see Spec/Text.lean. -/
def AnyVal (a : AnyPb) : Prop := IsText a.typeUrl ∧ IsBytes a.value
def RosterVal (r : Roster) : Prop := GoRoster r ∧ ∀ s ∈ rosterTexts r, IsText s
def PoolVal (p : Pool) : Prop := GoPool p ∧ ∀ s ∈ poolTexts p, IsText s

/-- The declared field `f` of `m` has occurrences as `R` says. -/
def Has (m f ty : String) (fs : List Field) (R : List WVal → Prop) : Prop := ∃ n, Declared m f ty n ∧ R (occ n fs)

/-! ## Messages -/

def IsTimestamp (t : Timestamp) (b : Str) : Prop := ∃ fs, MessageBytes fs b ∧
  Has "Timestamp" "seconds" "int64" fs (NumVal 64 t.seconds) ∧ Has "Timestamp" "nanos" "int32" fs (NumVal 32 t.nanos)

def IsAny (a : AnyPb) (b : Str) : Prop := ∃ fs, MessageBytes fs b ∧
  Has "Any" "type_url" "string" fs (TextVal a.typeUrl) ∧ Has "Any" "value" "bytes" fs (BytesVal a.value)

def IsData (d : FilterableData) (b : Str) : Prop := ∃ fs, MessageBytes fs b ∧
  Has "FilterableData" "tags" "repeated string" fs (TextsVal d.tags) ∧
  Has "FilterableData" "string_args" "map<string, string>" fs (MapVal IsText TextVal d.stringArgs) ∧
  Has "FilterableData" "double_args" "map<string, double>" fs (MapVal (fun _ => True) DoubleVal d.doubleArgs) ∧
  Has "FilterableData" "creation_time" "Timestamp" fs (MsgVal IsTimestamp d.creationTime)

def IsTicket (t : Ticket) (b : Str) : Prop := ∃ fs, MessageBytes fs b ∧
  Has "Ticket" "id" "string" fs (TextVal t.id) ∧
  Has "Ticket" "expiration_time" "Timestamp" fs (MsgVal IsTimestamp t.expirationTime) ∧
  Has "Ticket" "attributes" "FilterableData" fs (MsgVal IsData t.attributes) ∧
  Has "Ticket" "extensions" "map<string, Any>" fs (MapVal AnyVal (MsgInMap IsAny) t.extensions)

def IsAssignment (a : Assignment) (b : Str) : Prop := ∃ fs, MessageBytes fs b ∧
  Has "Assignment" "connection" "string" fs (TextVal a.connection) ∧
  Has "Assignment" "extensions" "map<string, Any>" fs (MapVal AnyVal (MsgInMap IsAny) a.extensions)

def IsRoster (r : Roster) (b : Str) : Prop := ∃ fs, MessageBytes fs b ∧
  Has "Roster" "name" "string" fs (TextVal r.name) ∧
  Has "Roster" "assignment" "Assignment" fs (MsgVal IsAssignment r.assignment) ∧
  Has "Roster" "tickets" "repeated Ticket" fs (MsgsVal IsTicket r.tickets) ∧
  Has "Roster" "extensions" "map<string, Any>" fs (MapVal AnyVal (MsgInMap IsAny) r.extensions)

def IsTagFilter (f : TagPresentFilter) (b : Str) : Prop := ∃ fs, MessageBytes fs b ∧
  Has "TagPresentFilter" "tag" "string" fs (TextVal f.tag)

def IsStringFilter (f : StringEqualsFilter) (b : Str) : Prop := ∃ fs, MessageBytes fs b ∧
  Has "StringEqualsFilter" "string_arg" "string" fs (TextVal f.stringArg) ∧
  Has "StringEqualsFilter" "value" "string" fs (TextVal f.value)

def IsDoubleFilter (f : DoubleRangeFilter) (b : Str) : Prop := ∃ fs, MessageBytes fs b ∧
  Has "DoubleRangeFilter" "double_arg" "string" fs (TextVal f.doubleArg) ∧
  Has "DoubleRangeFilter" "minimum" "double" fs (DoubleVal f.minimum) ∧
  Has "DoubleRangeFilter" "maximum" "double" fs (DoubleVal f.maximum) ∧
  Has "DoubleRangeFilter" "bounds" "FilterBounds" fs (NumVal 32 f.bounds)

def IsTimeFilter (f : CreationTimeRangeFilter) (b : Str) : Prop := ∃ fs, MessageBytes fs b ∧
  Has "CreationTimeRangeFilter" "start" "Timestamp" fs (MsgVal IsTimestamp f.start) ∧
  Has "CreationTimeRangeFilter" "end" "Timestamp" fs (MsgVal IsTimestamp f.stop) ∧
  Has "CreationTimeRangeFilter" "bounds" "FilterBounds" fs (NumVal 32 f.bounds)

def IsPool (p : Pool) (b : Str) : Prop := ∃ fs, MessageBytes fs b ∧
  Has "Pool" "name" "string" fs (TextVal p.name) ∧
  Has "Pool" "tag_present_filters" "repeated TagPresentFilter" fs (MsgsVal IsTagFilter p.tagPresentFilters) ∧
  Has "Pool" "string_equals_filters" "repeated StringEqualsFilter" fs (MsgsVal IsStringFilter p.stringEqualsFilters) ∧
  Has "Pool" "double_range_filters" "repeated DoubleRangeFilter" fs (MsgsVal IsDoubleFilter p.doubleRangeFilters) ∧
  Has "Pool" "creation_time_range_filter" "CreationTimeRangeFilter" fs (MsgVal IsTimeFilter p.creationTimeRangeFilter) ∧
  Has "Pool" "participants" "Roster" fs (MsgVal IsRoster p.participants) ∧
  Has "Pool" "extensions" "map<string, Any>" fs (MapVal AnyVal (MsgInMap IsAny) p.extensions)

def IsProfile (p : Profile) (b : Str) : Prop := ∃ fs, MessageBytes fs b ∧
  Has "Profile" "name" "string" fs (TextVal p.name) ∧
  Has "Profile" "pools" "map<string, Pool>" fs (MapVal PoolVal (MsgInMap IsPool) p.pools) ∧
  Has "Profile" "extensions" "map<string, Any>" fs (MapVal AnyVal (MsgInMap IsAny) p.extensions)

def IsMatch (m : Match) (b : Str) : Prop := ∃ fs, MessageBytes fs b ∧
  Has "Match" "id" "string" fs (TextVal m.id) ∧
  Has "Match" "rosters" "map<string, Roster>" fs (MapVal RosterVal (MsgInMap IsRoster) m.rosters) ∧
  Has "Match" "extensions" "map<string, Any>" fs (MapVal AnyVal (MsgInMap IsAny) m.extensions)

def IsSpec (s : Serve.MmfSpec) (b : Str) : Prop := ∃ fs, MessageBytes fs b ∧
  Has "MatchmakingFunctionSpec" "name" "string" fs (TextVal s.name) ∧
  Has "MatchmakingFunctionSpec" "host" "string" fs (TextVal s.host) ∧
  Has "MatchmakingFunctionSpec" "port" "int32" fs (NumVal 32 s.port) ∧
  Has "MatchmakingFunctionSpec" "type" "Type" fs (NumVal 32 s.type)

/-! ## Requests and responses -/

def IsChunk (c : ChunkedMmfRunRequest) (b : Str) : Prop := ∃ fs, MessageBytes fs b ∧
  Has "ChunkedMmfRunRequest" "profile" "Profile" fs (MsgVal IsProfile c.profile) ∧
  Has "ChunkedMmfRunRequest" "num_chunks" "int32" fs (NumVal 32 c.numChunks)

def IsCreateTicketRequest (t : Option Ticket) (b : Str) : Prop := ∃ fs, MessageBytes fs b ∧
  Has "CreateTicketRequest" "ticket" "Ticket" fs (MsgVal IsTicket t)

def IsCreateTicketResponse (id : Str) (b : Str) : Prop := ∃ fs, MessageBytes fs b ∧
  Has "CreateTicketResponse" "ticket_id" "string" fs (TextVal id)

/-- `m`: one of the three requests that carry a list of ticket ids. -/
def IsIdsRequest (m : String) (ids : List Str) (b : Str) : Prop := ∃ fs, MessageBytes fs b ∧
  Has m "ticket_ids" "repeated string" fs (TextsVal ids)

def IsMmfRequest (p : Option Profile) (mmfs : List Serve.MmfSpec) (b : Str) : Prop := ∃ fs, MessageBytes fs b ∧
  Has "MmfRequest" "profile" "Profile" fs (MsgVal IsProfile p) ∧
  Has "MmfRequest" "mmfs" "repeated MatchmakingFunctionSpec" fs (MsgsVal IsSpec mmfs)

def IsMmfResponse (m : Option Match) (b : Str) : Prop := ∃ fs, MessageBytes fs b ∧
  Has "StreamedMmfResponse" "match" "Match" fs (MsgVal IsMatch m)

def IsCreateAssignmentsRequest (r : Option Roster) (b : Str) : Prop := ∃ fs, MessageBytes fs b ∧
  Has "CreateAssignmentsRequest" "assignment_roster" "Roster" fs (MsgVal IsRoster r)

def IsWatchResponse (a : Option Assignment) (id : Str) (b : Str) : Prop := ∃ fs, MessageBytes fs b ∧
  Has "StreamedWatchAssignmentsResponse" "assignment" "Assignment" fs (MsgVal IsAssignment a) ∧
  Has "StreamedWatchAssignmentsResponse" "id" "string" fs (TextVal id)

/-! ## Reading and writing -/

/-- What a reader must make of bytes that encode `v`, with these strings in it: `v`, or a refusal
if some string is not text. -/
def Reads {α : Type} (o : Option α) (v : α) (texts : List Str) : Prop :=
  ((∀ s ∈ texts, IsText s) → o = some v) ∧ ((∃ s ∈ texts, ¬ IsText s) → o = none)

/-- A reader understands the messages that `R` says are encoded: it reads `v` from bytes exactly if they encode `v`, which a Go
program can hold, and the strings in `v` are text; it refuses everything else. -/
def Understands {α : Type} (read : Str → Option α) (R : α → Str → Prop) (go : α → Prop) (texts : α → List Str) : Prop :=
  ∀ b, IsBytes b → (∀ v, read b = some v ↔ R v b ∧ go v ∧ ∀ s ∈ texts v, IsText s) ∧ ∀ v, R v b → go v → Reads (read b) v (texts v)

/-- What a writer must make of a message: bytes that encode it, or a refusal.  (No program can write 2^64 bytes.) -/
def Writes (o : Option Str) (R : Str → Prop) (texts : List Str) : Prop :=
  ((∀ s ∈ texts, IsText s) → ∃ b, o = some b ∧ (b.length < 2 ^ 64 → R b)) ∧ ((∃ s ∈ texts, ¬ IsText s) → o = none)

/-- The strings in optional and repeated parts. -/
def optTexts {α : Type} (texts : α → List Str) (o : Option α) : List Str := o.elim [] texts
def specTexts (s : Serve.MmfSpec) : List Str := [s.name, s.host]
def sentTexts (t : Ticket) : List Str := t.id :: ticketTexts t

def OptGo {α : Type} (go : α → Prop) (o : Option α) : Prop := ∀ v, o = some v → go v
def GoSpec (s : Serve.MmfSpec) : Prop := GoInt32 s.port ∧ GoInt32 s.type

end OM.Spec
