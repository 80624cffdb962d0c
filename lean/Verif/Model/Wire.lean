import Verif.Model.Store
/-!
# The protobuf wire format

What `proto.Marshal`, `proto.Unmarshal` and `proto.Size` do for the messages of
proto/v2/messages.proto, as the protobuf encoding specification defines it: a message
is a sequence of fields, each a varint tag `number*8 + wire type` and a payload.  Bytes
are characters with codes below 256.  Simplifications: Go's Marshal lists maps in
random order, here in the representation's order; the model's decoder also accepts what
Go's refuses as out of range (varints of more than ten bytes or 64 bits, field number 0 and
numbers from 2^29) and treats groups (wire types 3 and 4, of which there are none in
messages.proto) as encoding errors, where Go skips them.
-/
namespace OM.Wire

/-- The byte with value `n`. -/
def byte (n : Nat) : Char := Char.ofNat n

/-! ## Varints and fixed64 -/

def varintF : Nat → Nat → Str
  | 0, n => [byte (n % 128)]
  | fuel + 1, n => if n < 128 then [byte n] else byte (n % 128 + 128) :: varintF fuel (n / 128)

/-- Base-128 varint, least significant group first. -/
def varint (n : Nat) : Str := varintF (n.log2 / 7) n

/-- Read a varint. -/
def getVarint : Str → Option (Nat × Str)
  | [] => none
  | c :: cs =>
    if c.toNat < 128 then some (c.toNat, cs)
    else (getVarint cs).map fun p => (c.toNat - 128 + 128 * p.1, p.2)

/-- `k` bytes, little endian. -/
def leBytes : Nat → Nat → Str
  | 0, _ => []
  | k + 1, n => byte (n % 256) :: leBytes k (n / 256)

def fromLe : Str → Nat
  | [] => 0
  | c :: cs => c.toNat + 256 * fromLe cs

/-! ## Fields -/

/-- A field's payload: wire types 0, 1, 2 and 5. -/
inductive WVal where
  | varint (n : Nat)
  | fixed64 (x : F64)
  | fixed32 (x : BitVec 32)
  | len (s : Str)
  deriving DecidableEq, Repr

abbrev Field := Nat × WVal

def encField : Field → Str
  | (f, .varint n) => varint (f * 8) ++ varint n
  | (f, .fixed64 x) => varint (f * 8 + 1) ++ leBytes 8 x.toNat
  | (f, .fixed32 x) => varint (f * 8 + 5) ++ leBytes 4 x.toNat
  | (f, .len s) => varint (f * 8 + 2) ++ (varint s.length ++ s)

/-- A message's bytes. -/
def ser (fs : List Field) : Str := fs.flatMap encField

/-- Read one field; `none` at the end of input or at an encoding error. -/
def getField (s : Str) : Option (Field × Str) :=
  match getVarint s with
  | none => none
  | some (tag, rest) =>
    if tag % 8 = 0 then (getVarint rest).map fun p => ((tag / 8, .varint p.1), p.2)
    else if tag % 8 = 1 then
      if rest.length < 8 then none
      else some ((tag / 8, .fixed64 (BitVec.ofNat 64 (fromLe (rest.take 8)))), rest.drop 8)
    else if tag % 8 = 2 then
      match getVarint rest with
      | none => none
      | some (n, rest') =>
        if rest'.length < n then none else some ((tag / 8, .len (rest'.take n)), rest'.drop n)
    else if tag % 8 = 5 then
      if rest.length < 4 then none
      else some ((tag / 8, .fixed32 (BitVec.ofNat 32 (fromLe (rest.take 4)))), rest.drop 4)
    else none

def parseF : Nat → Str → List Field
  | 0, _ => []
  | fuel + 1, s =>
    match getField s with
    | none => []
    | some (f, rest) => f :: parseF fuel rest

/-- The fields up to the first encoding error (the callers ignore Unmarshal's error). -/
def parse (s : Str) : List Field := parseF s.length s

/-! ## Writing fields: proto3 omits default values; map entries are always complete -/

def strField (f : Nat) (s : Str) : List Field := if s = [] then [] else [(f, .len s)]
def msgField (f : Nat) (o : Option (List Field)) : List Field := o.toList.map fun m => (f, .len (ser m))
def repField (f : Nat) (l : List Str) : List Field := l.map fun s => (f, .len s)
/-- int64/int32/enum: two's complement, sign extended to 64 bits. -/
def enc64 (v : Int) : Nat := (v % 2 ^ 64).toNat
def intField (f : Nat) (v : Int) : List Field := if v = 0 then [] else [(f, .varint (enc64 v))]
def dblField (f : Nat) (x : F64) : List Field := if x = 0 then [] else [(f, .fixed64 x)]
def mapField {V : Type} (f : Nat) (m : GoMap V) (val : V → WVal) : List Field :=
  m.map fun e => (f, .len (ser [(1, .len e.1), (2, val e.2)]))

/-! ## Reading fields -/

def lens (f : Nat) (fs : List Field) : List Str :=
  fs.filterMap fun p => match p with | (g, .len s) => if g = f then some s else none | _ => none
def ints (f : Nat) (fs : List Field) : List Nat :=
  fs.filterMap fun p => match p with | (g, .varint n) => if g = f then some n else none | _ => none
def dbls (f : Nat) (fs : List Field) : List F64 :=
  fs.filterMap fun p => match p with | (g, .fixed64 x) => if g = f then some x else none | _ => none

def getStr (f : Nat) (fs : List Field) : Str := (lens f fs).getLast?.getD []
/-- A message in several pieces is merged: its fields are those of all pieces. -/
def merge : List Str → Option (List Field)
  | [] => none
  | l => some (l.flatMap parse)
def getMsg (f : Nat) (fs : List Field) : Option (List Field) := merge (lens f fs)
def dec64 (n : Nat) : Int := if n % 2 ^ 64 < 2 ^ 63 then (n % 2 ^ 64 : Nat) else (n % 2 ^ 64 : Nat) - 2 ^ 64
def dec32 (n : Nat) : Int := if n % 2 ^ 32 < 2 ^ 31 then (n % 2 ^ 32 : Nat) else (n % 2 ^ 32 : Nat) - 2 ^ 32
def getInt64 (f : Nat) (fs : List Field) : Int := ((ints f fs).getLast?.map dec64).getD 0
def getInt32 (f : Nat) (fs : List Field) : Int := ((ints f fs).getLast?.map dec32).getD 0
def getMap {V : Type} (f : Nat) (fs : List Field) (val : List Field → V) : GoMap V :=
  (lens f fs).foldl (fun m s => m.store (getStr 1 (parse s)) (val (parse s))) []

/-! ## messages.proto -/

/-- google/protobuf/timestamp.proto. -/
def timestampF (t : Timestamp) : List Field := intField 1 t.seconds ++ intField 2 t.nanos
def toTimestamp (fs : List Field) : Timestamp := ⟨getInt64 1 fs, getInt32 2 fs⟩

/-- google/protobuf/any.proto. -/
def anyF (a : AnyPb) : List Field := strField 1 a.typeUrl ++ strField 2 a.value
def toAny (fs : List Field) : AnyPb := ⟨getStr 1 fs, getStr 2 fs⟩

def extF (f : Nat) (m : GoMap AnyPb) : List Field := mapField f m fun a => .len (ser (anyF a))
def toExt (f : Nat) (fs : List Field) : GoMap AnyPb := getMap f fs fun e => toAny ((getMsg 2 e).getD [])

/-- messages.proto:63-72. -/
def dataF (d : FilterableData) : List Field :=
  repField 1 d.tags ++ mapField 2 d.stringArgs .len ++ mapField 3 d.doubleArgs .fixed64
    ++ msgField 4 (d.creationTime.map timestampF)
def toData (fs : List Field) : FilterableData :=
  { tags := lens 1 fs
    stringArgs := getMap 2 fs fun e => getStr 2 e
    doubleArgs := getMap 3 fs fun e => (dbls 2 e).getLast?.getD 0
    creationTime := (getMsg 4 fs).map toTimestamp }

/-- messages.proto:50-77. -/
def ticketF (t : Ticket) : List Field :=
  strField 1 t.id ++ msgField 2 (t.expirationTime.map timestampF) ++ msgField 3 (t.attributes.map dataF)
    ++ extF 4 t.extensions
def toTicket (fs : List Field) : Ticket :=
  { id := getStr 1 fs
    expirationTime := (getMsg 2 fs).map toTimestamp
    attributes := (getMsg 3 fs).map toData
    extensions := toExt 4 fs }

/-- messages.proto:80-85. -/
def assignmentF (a : Assignment) : List Field := strField 1 a.connection ++ extF 2 a.extensions
def toAssignment (fs : List Field) : Assignment := ⟨getStr 1 fs, toExt 2 fs⟩

/-- messages.proto:164-171. -/
def rosterF (r : Roster) : List Field :=
  strField 1 r.name ++ msgField 2 (r.assignment.map assignmentF)
    ++ repField 3 (r.tickets.map fun t => ser (ticketF t)) ++ extF 4 r.extensions

/-- messages.proto:113-137. -/
def tagFilterF (f : TagPresentFilter) : List Field := strField 1 f.tag
def strFilterF (f : StringEqualsFilter) : List Field := strField 1 f.stringArg ++ strField 2 f.value
def dblFilterF (f : DoubleRangeFilter) : List Field :=
  strField 1 f.doubleArg ++ dblField 2 f.minimum ++ dblField 3 f.maximum ++ intField 4 f.bounds
def ctFilterF (f : CreationTimeRangeFilter) : List Field :=
  intField 4 f.bounds ++ msgField 6 (f.start.map timestampF) ++ msgField 7 (f.stop.map timestampF)

/-- messages.proto:89-145. -/
def poolF (p : Pool) : List Field :=
  strField 1 p.name
    ++ repField 2 (p.tagPresentFilters.map fun f => ser (tagFilterF f))
    ++ repField 3 (p.stringEqualsFilters.map fun f => ser (strFilterF f))
    ++ repField 4 (p.doubleRangeFilters.map fun f => ser (dblFilterF f))
    ++ msgField 5 (p.creationTimeRangeFilter.map ctFilterF)
    ++ msgField 6 (p.participants.map rosterF)
    ++ extF 7 p.extensions

/-- messages.proto:147-153. -/
def profileF (p : Profile) : List Field :=
  strField 1 p.name ++ mapField 2 p.pools (fun q => .len (ser (poolF q))) ++ extF 3 p.extensions

/-- messages.proto:192-197. -/
def chunkF (c : ChunkedMmfRunRequest) : List Field :=
  msgField 1 (c.profile.map profileF) ++ intField 2 c.numChunks

/-- `proto.Size`. -/
def sizeTicket (t : Ticket) : Nat := (ser (ticketF t)).length
def sizeChunk (c : ChunkedMmfRunRequest) : Nat := (ser (chunkF c)).length

/-! ## What can be marshalled -/

/-- One step of UTF-8 validation: how many continuation bytes are due and the range of
the next (`utf8.Valid`). -/
def utf8Step : Option (Nat × Nat × Nat) → Char → Option (Nat × Nat × Nat)
  | none, _ => none
  | some (0, _, _), c =>
    let b := c.toNat
    if b < 0x80 then some (0, 0, 0)
    else if 0xC2 ≤ b ∧ b ≤ 0xDF then some (1, 0x80, 0xBF)
    else if b = 0xE0 then some (2, 0xA0, 0xBF)
    else if b = 0xED then some (2, 0x80, 0x9F)
    else if 0xE1 ≤ b ∧ b ≤ 0xEF then some (2, 0x80, 0xBF)
    else if b = 0xF0 then some (3, 0x90, 0xBF)
    else if b = 0xF4 then some (3, 0x80, 0x8F)
    else if 0xF1 ≤ b ∧ b ≤ 0xF3 then some (3, 0x80, 0xBF)
    else none
  | some (k + 1, lo, hi), c => if lo ≤ c.toNat ∧ c.toNat ≤ hi then some (k, 0x80, 0xBF) else none

/-- Valid UTF-8; proto3 string fields must be. -/
def utf8Valid (s : Str) : Bool :=
  match s.foldl utf8Step (some (0, 0, 0)) with
  | some (0, _, _) => true
  | _ => false

def bytesOk (s : Str) : Bool := s.all fun c => decide (c.toNat < 256)
def mapOk {V : Type} (m : GoMap V) (ok : V → Bool) : Bool :=
  decide (m.keys.Nodup) && m.all fun e => utf8Valid e.1 && ok e.2
/-- Fits the Go types int64 and int32. -/
def tsOk (t : Timestamp) : Bool :=
  decide (-2 ^ 63 ≤ t.seconds ∧ t.seconds < 2 ^ 63 ∧ -2 ^ 31 ≤ t.nanos ∧ t.nanos < 2 ^ 31)
def anyOk (a : AnyPb) : Bool := utf8Valid a.typeUrl && bytesOk a.value
def dataOk (d : FilterableData) : Bool :=
  d.tags.all utf8Valid && mapOk d.stringArgs utf8Valid && mapOk d.doubleArgs (fun _ => true)
    && d.creationTime.all tsOk
def ticketOk (t : Ticket) : Bool :=
  utf8Valid t.id && t.expirationTime.all tsOk && t.attributes.all dataOk && mapOk t.extensions anyOk
def assignmentOk (a : Assignment) : Bool := utf8Valid a.connection && mapOk a.extensions anyOk

/-- Marshalling fails on strings that are not UTF-8.  (The other refusals concern
values no Go message can hold.) -/
def codec : Codec :=
  { encT := fun t => if ticketOk t then some (ser (ticketF t)) else none
    decT := fun b => toTicket (parse b)
    encA := fun a => if assignmentOk a then some (ser (assignmentF a)) else none
    decA := fun b => toAssignment (parse b) }

end OM.Wire
