import Verif.Model.Json
import Verif.Model.Requests
import Verif.Model.Mmf
import Verif.Model.Gateway
import Verif.Model.Matchmaker
/-!
# The messages as JSON

`protojson.Marshal` and `protojson.Unmarshal` (google.golang.org/protobuf 1.33.0) for the messages
of proto/v2/messages.proto, as the REST gateway (core/server.go:56-72, core/pkg/api/v2/api.pb.gw.go)
and the example matchmaker (matchmaker-example/main.go:260, :315, :445, :458, :663, :676) use them.
JSON names are the `json=` names of the field tags in pkg/pb/v2/messages.pb.go.  Parameters: how
decimal numbers and doubles correspond (strconv), and the message types linked into the program,
which are the ones an `Any` can be read or written with.  Simplifications: numbers in strings may
not be followed by anything; times with a comma or a one-digit hour, which `time.Parse` lets pass,
are refused; map entries are written in the representation's order instead of sorted.
-/
namespace OM.PJ

/-- `strconv.ParseFloat(s, 64)` for a JSON number, which fails out of range, and protojson's way
of writing a double. -/
structure FloatText where
  parse : Str → Option F64
  format : F64 → Str

/-- The types known to the program: the members that stand for a message of the type, and back.
`none`: unknown type, or not a message of it. -/
structure AnyTypes where
  enc : Str → Str → Option (List (Str × Json))
  dec : Str → List (Str × Json) → Option Str

/-- `protojson.UnmarshalOptions`, `MarshalOptions`.  The gateway's marshaler (`runtime.JSONPb`) has
`DiscardUnknown` and `EmitUnpopulated` set, the example neither.  `lax`: with `DiscardUnknown`, some
versions also ignore unknown enum names and the members of an `Any` without type. -/
structure Opts where
  discard : Bool
  lax : Bool
  emit : Bool

structure Env where
  fl : FloatText
  types : AnyTypes
  opts : Opts

/-! ## Reading members -/

def isNull : Json → Bool
  | .null => true
  | _ => false

/-- The members with one of a field's two names. -/
def occs (json proto : String) (ms : List (Str × Json)) : List Json :=
  (ms.filter fun m => decide (m.1 = json.toList ∨ m.1 = proto.toList)).map (·.2)

/-- A field's value; `some none`: absent or null.  A field given twice is refused. -/
def field (json proto : String) (ms : List (Str × Json)) : Option (Option Json) :=
  match occs json proto ms with
  | [] => some none
  | [j] => some (if isNull j then none else some j)
  | _ => none

/-- The members of an object; unknown ones are refused or ignored. -/
def message (o : Opts) (names : List (String × String)) : Json → Option (List (Str × Json))
  | .obj ms => if o.discard || ms.all (fun m => names.any fun n => decide (m.1 = n.1.toList ∨ m.1 = n.2.toList)) then some ms else none
  | _ => none

def asStr : Json → Option Str
  | .str s => some s
  | _ => none

def strOf (x : Option Json) : Option Str :=
  match x with
  | none => some []
  | some j => asStr j

/-- `bytes.TrimRight(frac, "0")`. -/
def trimZeros (s : Str) : Str := (s.reverse.dropWhile (· = '0')).reverse

/-- `normalizeToIntString` and `strconv.ParseInt`: the integer a number stands for. -/
def intOf (p : Json.NumParts) : Option Int :=
  let ip := if p.int = ['0'] then [] else p.int
  let f := trimZeros p.frac
  let sign : Int := if p.neg then -1 else 1
  if ip = [] ∧ f = [] then some 0
  else if 0 ≤ p.exp then
    if p.exp.toNat < f.length then none
    else if 20 < ip.length + p.exp.toNat then none
    else some (sign * (Json.natOf (ip ++ f) * 10 ^ (p.exp.toNat - f.length) : Nat))
  else if f ≠ [] then none
  else if Json.natOf ip % 10 ^ (-p.exp).toNat = 0 then some (sign * (Json.natOf ip / 10 ^ (-p.exp).toNat : Nat))
  else none

def int32Of (v : Int) : Option Int := if Wire.int32Ok v then some v else none

/-- `unmarshalInt`: a number, or a string that holds one. -/
def asInt : Json → Option Int
  | .num t => ((Json.numParts t).bind intOf).bind int32Of
  | .str t => ((Json.numParts t).bind intOf).bind int32Of
  | _ => none

def intField (x : Option Json) : Option Int :=
  match x with
  | none => some 0
  | some j => asInt j

/-- `unmarshalEnum`: a name or a number. -/
def asEnum (o : Opts) (table : List (String × Int)) : Json → Option Int
  | .str s =>
    match table.find? fun e => decide (e.1.toList = s) with
    | some e => some e.2
    | none => if o.lax then some 0 else none
  | .num t => ((Json.numParts t).bind intOf).bind int32Of
  | _ => none

def enumField (o : Opts) (table : List (String × Int)) (x : Option Json) : Option Int :=
  match x with
  | none => some 0
  | some j => asEnum o table j

/-- `math.NaN()`, `math.Inf(1)`, `math.Inf(-1)`. -/
def goNaN : F64 := 0x7FF8000000000001
def goInf : F64 := 0x7FF0000000000000
def goNegInf : F64 := 0xFFF0000000000000

/-- `unmarshalFloat`. -/
def asDouble (fl : FloatText) : Json → Option F64
  | .num t => fl.parse t
  | .str s =>
    if s = "NaN".toList then some goNaN
    else if s = "Infinity".toList then some goInf
    else if s = "-Infinity".toList then some goNegInf
    else if Json.numberOk s then fl.parse s
    else none
  | _ => none

def doubleField (fl : FloatText) (x : Option Json) : Option F64 :=
  match x with
  | none => some 0
  | some j => asDouble fl j

def msgField {α : Type} (dec : Json → Option α) (x : Option Json) : Option (Option α) :=
  match x with
  | none => some none
  | some j => (dec j).map some

def listField {α : Type} (dec : Json → Option α) (x : Option Json) : Option (List α) :=
  match x with
  | none => some []
  | some (.arr l) => l.mapM dec
  | some _ => none

/-- `unmarshalMap`: a key given twice is refused. -/
def mapField {V : Type} (dec : Json → Option V) (x : Option Json) : Option (GoMap V) :=
  match x with
  | none => some []
  | some (.obj l) => if (l.map (·.1)).Nodup then l.mapM fun e => (dec e.2).map fun v => (e.1, v) else none
  | some _ => none

/-- One field: its members, then its value. -/
def get {α : Type} (json proto : String) (ms : List (Str × Json)) (f : Option Json → Option α) : Option α :=
  (field json proto ms).bind f

/-! ## Times -/

/-- A number of `w` digits. -/
def fixed (w : Nat) (s : Str) : Option (Nat × Str) :=
  if (s.take w).length = w ∧ (s.take w).all (·.isDigit) then some (Json.natOf (s.take w), s.drop w) else none

def lit (c : Char) : Str → Option Str
  | [] => none
  | d :: s => if d = c then some s else none

/-- Nanoseconds after the point, at most nine digits; what follows. -/
def fraction : Str → Option (Int × Str)
  | [] => some (0, [])
  | c :: s =>
    if c = '.' then
      let ds := s.takeWhile (·.isDigit)
      if ds = [] ∨ 9 < ds.length then none
      else some ((Json.natOf ds * 10 ^ (9 - ds.length) : Nat), s.dropWhile (·.isDigit))
    else some (0, c :: s)

/-- `Z`, or the offset from UTC in seconds. -/
def zone (s : Str) : Option Int :=
  if s = ['Z'] then some 0
  else match s with
    | [] => none
    | c :: s => do
      let (h, s) ← fixed 2 s
      let s ← lit ':' s
      let (m, s) ← fixed 2 s
      if s = [] ∧ h < 24 ∧ m < 60 ∧ (c = '+' ∨ c = '-') then some ((if c = '-' then -1 else 1) * ((h * 60 + m) * 60 : Nat)) else none

/-- `time.Date`: days since the beginning of the year -399 of the Gregorian calendar. -/
def daysTo (y m d : Nat) : Nat :=
  365 * (y + 399) + (y + 399) / 4 - (y + 399) / 100 + (y + 399) / 400 + ((List.range (m - 1)).map fun i => Serve.daysIn y (i + 1)).sum + d

/-- `unmarshalTimestamp` with `time.Parse(time.RFC3339Nano, s)`. -/
def asTime : Json → Option Timestamp
  | .str s => do
    let (y, s) ← fixed 4 s
    let s ← lit '-' s
    let (m, s) ← fixed 2 s
    let s ← lit '-' s
    let (d, s) ← fixed 2 s
    let s ← lit 'T' s
    let (hh, s) ← fixed 2 s
    let s ← lit ':' s
    let (mm, s) ← fixed 2 s
    let s ← lit ':' s
    let (ss, s) ← fixed 2 s
    let (n, s) ← fraction s
    let off ← zone s
    let secs : Int := ((((daysTo y m d : Int) - daysTo 1970 1 1) * 24 + hh) * 60 + mm) * 60 + ss - off
    if 1 ≤ m ∧ m ≤ 12 ∧ 1 ≤ d ∧ d ≤ Serve.daysIn y m ∧ hh < 24 ∧ mm < 60 ∧ ss < 60 ∧ minTimestampSec ≤ secs ∧ secs ≤ maxTimestampSec
      then some ⟨secs, n⟩ else none
  | _ => none

/-! ## Extensions -/

/-- `unmarshalAny`. -/
def asAny (e : Env) : Json → Option AnyPb
  | .obj ms =>
    if ms = [] then some ⟨[], []⟩
    else match occs "@type" "@type" ms with
      | [] => if e.opts.lax then some ⟨[], []⟩ else none
      | [Json.str url] => (e.types.dec url (ms.filter fun m => decide (m.1 ≠ "@type".toList))).map fun v => ⟨url, v⟩
      | _ => none
  | _ => none

/-! ## Messages -/

/-- messages.proto:63-72. -/
def asData (e : Env) (j : Json) : Option FilterableData := do
  let ms ← message e.opts [("tags", "tags"), ("stringArgs", "string_args"), ("doubleArgs", "double_args"), ("creationTime", "creation_time")] j
  let tags ← get "tags" "tags" ms (listField asStr)
  let strs ← get "stringArgs" "string_args" ms (mapField asStr)
  let dbls ← get "doubleArgs" "double_args" ms (mapField (asDouble e.fl))
  let time ← get "creationTime" "creation_time" ms (msgField asTime)
  some ⟨tags, strs, dbls, time⟩

/-- messages.proto:50-77. -/
def asTicket (e : Env) (j : Json) : Option Ticket := do
  let ms ← message e.opts [("id", "id"), ("expirationTime", "expiration_time"), ("attributes", "attributes"), ("extensions", "extensions")] j
  let id ← get "id" "id" ms strOf
  let time ← get "expirationTime" "expiration_time" ms (msgField asTime)
  let data ← get "attributes" "attributes" ms (msgField (asData e))
  let ext ← get "extensions" "extensions" ms (mapField (asAny e))
  some ⟨id, time, data, ext⟩

/-- messages.proto:80-85. -/
def asAssignment (e : Env) (j : Json) : Option Assignment := do
  let ms ← message e.opts [("connection", "connection"), ("extensions", "extensions")] j
  let conn ← get "connection" "connection" ms strOf
  let ext ← get "extensions" "extensions" ms (mapField (asAny e))
  some ⟨conn, ext⟩

/-- messages.proto:164-171. -/
def asRoster (e : Env) (j : Json) : Option Roster := do
  let ms ← message e.opts [("name", "name"), ("assignment", "assignment"), ("tickets", "tickets"), ("extensions", "extensions")] j
  let name ← get "name" "name" ms strOf
  let asg ← get "assignment" "assignment" ms (msgField (asAssignment e))
  let ts ← get "tickets" "tickets" ms (listField (asTicket e))
  let ext ← get "extensions" "extensions" ms (mapField (asAny e))
  some ⟨name, asg, ts, ext⟩

/-- `Pool_FilterBounds_value`, messages.pb.go:91-102. -/
def bounds : List (String × Int) :=
  [("EXCLUDE_NONE", 0), ("INCLUDE_BOTH", 0), ("EXCLUDE_MIN", 1), ("EXCLUDE_START", 1), ("INCLUDE_MAX_ONLY", 1), ("EXCLUDE_MAX", 2),
   ("EXCLUDE_END", 2), ("INCLUDE_MIN_ONLY", 2), ("EXCLUDE_BOTH", 3), ("INCLUDE_NONE", 3)]

/-- `MatchmakingFunctionSpec_Type_value`, messages.pb.go:145-148. -/
def types : List (String × Int) := [("REST", 0), ("GRPC", 1)]

/-- messages.proto:113-137. -/
def asTagFilter (e : Env) (j : Json) : Option TagPresentFilter := do
  let ms ← message e.opts [("tag", "tag")] j
  let tag ← get "tag" "tag" ms strOf
  some ⟨tag⟩

def asStrFilter (e : Env) (j : Json) : Option StringEqualsFilter := do
  let ms ← message e.opts [("stringArg", "string_arg"), ("value", "value")] j
  let arg ← get "stringArg" "string_arg" ms strOf
  let val ← get "value" "value" ms strOf
  some ⟨arg, val⟩

def asDblFilter (e : Env) (j : Json) : Option DoubleRangeFilter := do
  let ms ← message e.opts [("doubleArg", "double_arg"), ("minimum", "minimum"), ("maximum", "maximum"), ("bounds", "bounds")] j
  let arg ← get "doubleArg" "double_arg" ms strOf
  let lo ← get "minimum" "minimum" ms (doubleField e.fl)
  let hi ← get "maximum" "maximum" ms (doubleField e.fl)
  let b ← get "bounds" "bounds" ms (enumField e.opts bounds)
  some ⟨arg, lo, hi, b⟩

def asCtFilter (e : Env) (j : Json) : Option CreationTimeRangeFilter := do
  let ms ← message e.opts [("start", "start"), ("end", "end"), ("bounds", "bounds")] j
  let lo ← get "start" "start" ms (msgField asTime)
  let hi ← get "end" "end" ms (msgField asTime)
  let b ← get "bounds" "bounds" ms (enumField e.opts bounds)
  some ⟨lo, hi, b⟩

/-- messages.proto:89-145. -/
def asPool (e : Env) (j : Json) : Option Pool := do
  let ms ← message e.opts [("name", "name"), ("tagPresentFilters", "tag_present_filters"), ("stringEqualsFilters", "string_equals_filters"),
    ("doubleRangeFilters", "double_range_filters"), ("creationTimeRangeFilter", "creation_time_range_filter"),
    ("participants", "participants"), ("extensions", "extensions")] j
  let name ← get "name" "name" ms strOf
  let tags ← get "tagPresentFilters" "tag_present_filters" ms (listField (asTagFilter e))
  let strs ← get "stringEqualsFilters" "string_equals_filters" ms (listField (asStrFilter e))
  let dbls ← get "doubleRangeFilters" "double_range_filters" ms (listField (asDblFilter e))
  let time ← get "creationTimeRangeFilter" "creation_time_range_filter" ms (msgField (asCtFilter e))
  let parts ← get "participants" "participants" ms (msgField (asRoster e))
  let ext ← get "extensions" "extensions" ms (mapField (asAny e))
  some ⟨name, tags, strs, dbls, time, parts, ext⟩

/-- messages.proto:147-153. -/
def asProfile (e : Env) (j : Json) : Option Profile := do
  let ms ← message e.opts [("name", "name"), ("pools", "pools"), ("extensions", "extensions")] j
  let name ← get "name" "name" ms strOf
  let pools ← get "pools" "pools" ms (mapField (asPool e))
  let ext ← get "extensions" "extensions" ms (mapField (asAny e))
  some ⟨name, pools, ext⟩

/-- messages.proto:155-161. -/
def asMatch (e : Env) (j : Json) : Option Match := do
  let ms ← message e.opts [("id", "id"), ("rosters", "rosters"), ("extensions", "extensions")] j
  let id ← get "id" "id" ms strOf
  let rs ← get "rosters" "rosters" ms (mapField (asRoster e))
  let ext ← get "extensions" "extensions" ms (mapField (asAny e))
  some ⟨id, rs, ext⟩

/-- messages.proto:174-183. -/
def asSpec (e : Env) (j : Json) : Option Serve.MmfSpec := do
  let ms ← message e.opts [("name", "name"), ("host", "host"), ("port", "port"), ("type", "type")] j
  let name ← get "name" "name" ms strOf
  let host ← get "host" "host" ms strOf
  let port ← get "port" "port" ms intField
  let ty ← get "type" "type" ms (enumField e.opts types)
  some ⟨name, host, port, ty⟩

/-! ## Requests and responses: messages.proto:199-240 -/

def asCreateTicket (e : Env) (j : Json) : Option (Option Ticket) := do
  let ms ← message e.opts [("ticket", "ticket")] j
  get "ticket" "ticket" ms (msgField (asTicket e))

def asCreated (e : Env) (j : Json) : Option Str := do
  let ms ← message e.opts [("ticketId", "ticket_id")] j
  get "ticketId" "ticket_id" ms strOf

/-- `ActivateTicketsRequest`, `DeactivateTicketsRequest`, `WatchAssignmentsRequest`. -/
def asIds (e : Env) (j : Json) : Option (List Str) := do
  let ms ← message e.opts [("ticketIds", "ticket_ids")] j
  get "ticketIds" "ticket_ids" ms (listField asStr)

def asMmfRequest (e : Env) (j : Json) : Option (Option Profile × List Serve.MmfSpec) := do
  let ms ← message e.opts [("profile", "profile"), ("mmfs", "mmfs")] j
  let p ← get "profile" "profile" ms (msgField (asProfile e))
  let l ← get "mmfs" "mmfs" ms (listField (asSpec e))
  some (p, l)

def asMmfResponse (e : Env) (j : Json) : Option (Option Match) := do
  let ms ← message e.opts [("match", "match")] j
  get "match" "match" ms (msgField (asMatch e))

def asCreateAssignments (e : Env) (j : Json) : Option (Option Roster) := do
  let ms ← message e.opts [("assignmentRoster", "assignment_roster")] j
  get "assignmentRoster" "assignment_roster" ms (msgField (asRoster e))

def asWatchResponse (e : Env) (j : Json) : Option (Option Assignment × Str) := do
  let ms ← message e.opts [("assignment", "assignment"), ("id", "id")] j
  let a ← get "assignment" "assignment" ms (msgField (asAssignment e))
  let id ← get "id" "id" ms strOf
  some (a, id)

/-- `protojson.Unmarshal`. -/
def unmarshal {α : Type} (dec : Json → Option α) (t : Str) : Option α := (Json.read t).bind dec

/-- `marshaler.NewDecoder(req.Body).Decode` (api.pb.gw.go:39, :65, :91, :117, :138, :164): without a
value the body is at its end; what follows the first value is ignored. -/
def decodeBody {α : Type} (dec : Json → Option α) (t : Str) : Gw.Body α :=
  if Json.skipWs t = [] then .eof
  else match (Json.readFirst t).bind dec with
    | some v => .msg v
    | none => .bad

/-! ## Writing -/

def putStr (o : Opts) (name : String) (s : Str) : List (Str × Json) := if s = [] ∧ o.emit = false then [] else [(name.toList, .str s)]
def putInt (o : Opts) (name : String) (v : Int) : List (Str × Json) := if v = 0 ∧ o.emit = false then [] else [(name.toList, .num (fmtInt v))]

/-- The name of a number is the first one declared. -/
def enumJson (table : List (String × Int)) (v : Int) : Json :=
  match table.find? fun e => decide (e.2 = v) with
  | some e => .str e.1.toList
  | none => .num (fmtInt v)
def putEnum (o : Opts) (name : String) (table : List (String × Int)) (v : Int) : List (Str × Json) :=
  if v = 0 ∧ o.emit = false then [] else [(name.toList, enumJson table v)]

/-- `WriteFloat`. -/
def doubleJson (fl : FloatText) (x : F64) : Json :=
  if F64.isNaN x then .str "NaN".toList
  else if x = goInf then .str "Infinity".toList
  else if x = goNegInf then .str "-Infinity".toList
  else .num (fl.format x)
def putDouble (fl : FloatText) (o : Opts) (name : String) (x : F64) : List (Str × Json) :=
  if x = 0 ∧ o.emit = false then [] else [(name.toList, doubleJson fl x)]

def putMsg (o : Opts) (name : String) (m : Option Json) : List (Str × Json) :=
  match m with
  | none => if o.emit then [(name.toList, .null)] else []
  | some j => [(name.toList, j)]
def putList (o : Opts) (name : String) (l : List Json) : List (Str × Json) := if l = [] ∧ o.emit = false then [] else [(name.toList, .arr l)]
def putMap (o : Opts) (name : String) (l : List (Str × Json)) : List (Str × Json) := if l = [] ∧ o.emit = false then [] else [(name.toList, .obj l)]

/-- Optional and repeated parts; `none`: some part is refused. -/
def optM {α : Type} (enc : α → Option Json) : Option α → Option (Option Json)
  | none => some none
  | some v => (enc v).map some
def mapM' {V : Type} (enc : V → Option Json) (m : GoMap V) : Option (List (Str × Json)) :=
  m.mapM fun e => (enc e.2).map fun j => (e.1, j)

/-- Month and day of a day of the year, given the lengths of the months. -/
def monthDay : List Nat → Nat → Nat × Nat
  | [], d => (1, d + 1)
  | l :: ls, d => if d < l then (1, d + 1) else let r := monthDay ls (d - l); (r.1 + 1, r.2)

/-- `Time.Date`: the date `n` days after 0001-01-01, by cycles of 400, 100, 4 years and 1 year. -/
def civil (n : Nat) : Nat × Nat × Nat :=
  let a := n / 146097
  let n := n % 146097
  let b := min (n / 36524) 3
  let n := n - b * 36524
  let c := n / 1461
  let n := n % 1461
  let d := min (n / 365) 3
  let n := n - d * 365
  let y := 400 * a + 100 * b + 4 * c + d + 1
  let r := monthDay ((List.range 12).map fun i => Serve.daysIn y (i + 1)) n
  (y, r.1, r.2)

/-- `marshalTimestamp`: UTC, with 0, 3, 6 or 9 digits after the point. -/
def timeText (t : Timestamp) : Str :=
  let s := (t.seconds - minTimestampSec).toNat
  let n := t.nanos.toNat
  let d := civil (s / 86400)
  fmtNatPad 4 d.1 ++ '-' :: (fmtNatPad 2 d.2.1 ++ '-' :: (fmtNatPad 2 d.2.2 ++ 'T' :: (fmtNatPad 2 (s / 3600 % 24) ++
    ':' :: (fmtNatPad 2 (s / 60 % 60) ++ ':' :: (fmtNatPad 2 (s % 60) ++
    ((if n % 1000 ≠ 0 then '.' :: fmtNatPad 9 n
      else if n / 1000 % 1000 ≠ 0 then '.' :: fmtNatPad 6 (n / 1000)
      else if n ≠ 0 then '.' :: fmtNatPad 3 (n / 1000000)
      else []) ++ ['Z']))))))
def timeJson (t : Timestamp) : Option Json :=
  if minTimestampSec ≤ t.seconds ∧ t.seconds ≤ maxTimestampSec ∧ 0 ≤ t.nanos ∧ t.nanos ≤ 999999999 then some (.str (timeText t)) else none

/-- `marshalAny`. -/
def anyJson (e : Env) (a : AnyPb) : Option Json :=
  if a.typeUrl = [] then if a.value = [] then some (.obj []) else none
  else (e.types.enc a.typeUrl a.value).map fun ms => .obj (("@type".toList, .str a.typeUrl) :: ms)

def dataJson (e : Env) (d : FilterableData) : Option Json := do
  let dbls ← mapM' (fun x => some (doubleJson e.fl x)) d.doubleArgs
  let time ← optM timeJson d.creationTime
  some (.obj (putList e.opts "tags" (d.tags.map .str) ++ putMap e.opts "stringArgs" (d.stringArgs.map fun x => (x.1, .str x.2)) ++
    putMap e.opts "doubleArgs" dbls ++ putMsg e.opts "creationTime" time))

def ticketJson (e : Env) (t : Ticket) : Option Json := do
  let time ← optM timeJson t.expirationTime
  let data ← optM (dataJson e) t.attributes
  let ext ← mapM' (anyJson e) t.extensions
  some (.obj (putStr e.opts "id" t.id ++ putMsg e.opts "expirationTime" time ++ putMsg e.opts "attributes" data ++
    putMap e.opts "extensions" ext))

def assignmentJson (e : Env) (a : Assignment) : Option Json := do
  let ext ← mapM' (anyJson e) a.extensions
  some (.obj (putStr e.opts "connection" a.connection ++ putMap e.opts "extensions" ext))

def rosterJson (e : Env) (r : Roster) : Option Json := do
  let asg ← optM (assignmentJson e) r.assignment
  let ts ← r.tickets.mapM (ticketJson e)
  let ext ← mapM' (anyJson e) r.extensions
  some (.obj (putStr e.opts "name" r.name ++ putMsg e.opts "assignment" asg ++ putList e.opts "tickets" ts ++
    putMap e.opts "extensions" ext))

def tagFilterJson (e : Env) (f : TagPresentFilter) : Json := .obj (putStr e.opts "tag" f.tag)
def strFilterJson (e : Env) (f : StringEqualsFilter) : Json :=
  .obj (putStr e.opts "stringArg" f.stringArg ++ putStr e.opts "value" f.value)
def dblFilterJson (e : Env) (f : DoubleRangeFilter) : Json :=
  .obj (putStr e.opts "doubleArg" f.doubleArg ++ putDouble e.fl e.opts "minimum" f.minimum ++
    putDouble e.fl e.opts "maximum" f.maximum ++ putEnum e.opts "bounds" bounds f.bounds)
def ctFilterJson (e : Env) (f : CreationTimeRangeFilter) : Option Json := do
  let lo ← optM timeJson f.start
  let hi ← optM timeJson f.stop
  some (.obj (putMsg e.opts "start" lo ++ putMsg e.opts "end" hi ++ putEnum e.opts "bounds" bounds f.bounds))

def poolJson (e : Env) (p : Pool) : Option Json := do
  let time ← optM (ctFilterJson e) p.creationTimeRangeFilter
  let parts ← optM (rosterJson e) p.participants
  let ext ← mapM' (anyJson e) p.extensions
  some (.obj (putStr e.opts "name" p.name ++ putList e.opts "tagPresentFilters" (p.tagPresentFilters.map (tagFilterJson e)) ++
    putList e.opts "stringEqualsFilters" (p.stringEqualsFilters.map (strFilterJson e)) ++
    putList e.opts "doubleRangeFilters" (p.doubleRangeFilters.map (dblFilterJson e)) ++
    putMsg e.opts "creationTimeRangeFilter" time ++ putMsg e.opts "participants" parts ++ putMap e.opts "extensions" ext))

def profileJson (e : Env) (p : Profile) : Option Json := do
  let pools ← mapM' (poolJson e) p.pools
  let ext ← mapM' (anyJson e) p.extensions
  some (.obj (putStr e.opts "name" p.name ++ putMap e.opts "pools" pools ++ putMap e.opts "extensions" ext))

def matchJson (e : Env) (m : Match) : Option Json := do
  let rs ← mapM' (rosterJson e) m.rosters
  let ext ← mapM' (anyJson e) m.extensions
  some (.obj (putStr e.opts "id" m.id ++ putMap e.opts "rosters" rs ++ putMap e.opts "extensions" ext))

def specJson (e : Env) (s : Serve.MmfSpec) : Json :=
  .obj (putStr e.opts "name" s.name ++ putStr e.opts "host" s.host ++ putInt e.opts "port" s.port ++ putEnum e.opts "type" types s.type)

def createTicketJson (e : Env) (t : Option Ticket) : Option Json := (optM (ticketJson e) t).map fun x => .obj (putMsg e.opts "ticket" x)
def createdJson (e : Env) (id : Str) : Option Json := some (.obj (putStr e.opts "ticketId" id))
def idsJson (e : Env) (ids : List Str) : Option Json := some (.obj (putList e.opts "ticketIds" (ids.map .str)))
def mmfRequestJson (e : Env) (q : Option Profile × List Serve.MmfSpec) : Option Json :=
  (optM (profileJson e) q.1).map fun x => .obj (putMsg e.opts "profile" x ++ putList e.opts "mmfs" (q.2.map (specJson e)))
def mmfResponseJson (e : Env) (m : Option Match) : Option Json := (optM (matchJson e) m).map fun x => .obj (putMsg e.opts "match" x)
def createAssignmentsJson (e : Env) (r : Option Roster) : Option Json :=
  (optM (rosterJson e) r).map fun x => .obj (putMsg e.opts "assignmentRoster" x)
def watchResponseJson (e : Env) (a : Option Assignment × Str) : Option Json :=
  (optM (assignmentJson e) a.1).map fun x => .obj (putMsg e.opts "assignment" x ++ putStr e.opts "id" a.2)

/-- `protojson.Marshal`: strings that are not UTF-8 are refused.  `html`, `sep`: see `Json.write`. -/
def marshal {α : Type} (enc : α → Option Json) (html : Bool) (sep : Str) (v : α) : Option Str :=
  (enc v).bind fun j => if Json.textOk j then some (Json.write html sep j) else none

/-- `runtime.ForwardResponseStream` (api.pb.gw.go:426, :470, :498, :502): the texts that become result lines
(`Mm.envelope`), and whether an error ends the stream because a message cannot be written. -/
def streamed {α : Type} (enc : α → Option Json) : List α → List Str × Bool
  | [] => ([], false)
  | v :: l =>
    match marshal enc true [] v with
    | none => ([], true)
    | some t => (t :: (streamed enc l).1, (streamed enc l).2)

/-- `errorChunk` and `handleForwardResponseStreamError`: the line that ends the stream when a message
cannot be written.  The code is `Unknown`; the text is protobuf's, which starts with "proto:" and a
blank (U+0020 or U+00A0). -/
def errorLine (msg : Str) : Str :=
  Json.write true [] (.obj [("error".toList, .obj [("code".toList, .num "2".toList), ("message".toList, .str msg), ("details".toList, .arr [])])])

/-- What the example posts (matchmaker-example/main.go:260-275, :445-454, :663-671): a request that
cannot be written is logged, and an empty body is sent in its place. -/
def postBody {α : Type} (enc : α → Option Json) (sep : Str) (v : α) : Str := (marshal enc false sep v).getD []

/-- The options of the gateway's marshaler, of the example, and of what the example reads with. -/
def gatewayOpts (lax : Bool) : Opts := ⟨true, lax, true⟩
def exampleOpts : Opts := ⟨false, false, false⟩

/-! ## The types of the extensions that the example's MMFs use -/

/-- The name of a type, from its URL. -/
def typeName (url : Str) : Str := (url.reverse.takeWhile (· ≠ '/')).reverse

/-- Types with JSON of their own stand under "value". -/
def valueOf (ms : List (Str × Json)) : Option Json :=
  match ms with
  | [m] => if m.1 = "value".toList then some m.2 else none
  | _ => none

/-- `google.protobuf.StringValue`, `Int32Value` and `Timestamp`, which are linked into om-core and
the example (timestamppb: core/main.go:41; wrapperspb: grpc-gateway's runtime). -/
def wellKnown : AnyTypes where
  enc url v := (Wire.parseAll v).bind fun fs =>
    if typeName url = "google.protobuf.StringValue".toList then some [("value".toList, .str (Wire.getStr 1 fs))]
    else if typeName url = "google.protobuf.Int32Value".toList then some [("value".toList, .num (fmtInt (Wire.getInt32 1 fs)))]
    else if typeName url = "google.protobuf.Timestamp".toList then (timeJson (Wire.toTimestamp fs)).map fun j => [("value".toList, j)]
    else none
  dec url ms :=
    if typeName url = "google.protobuf.StringValue".toList then ((valueOf ms).bind asStr).map fun s => Wire.ser (Wire.strField 1 s)
    else if typeName url = "google.protobuf.Int32Value".toList then ((valueOf ms).bind asInt).map fun v => Wire.ser (Wire.intField 1 v)
    else if typeName url = "google.protobuf.Timestamp".toList then ((valueOf ms).bind asTime).map fun t => Wire.ser (Wire.timestampF t)
    else none

end OM.PJ
