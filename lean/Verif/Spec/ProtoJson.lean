import Verif.Spec.Json
import Verif.Spec.Schema
import Verif.Model.ProtoJson
/-!
# The published messages as JSON

Protobuf's JSON mapping for the messages of proto/v2/messages.proto, independently of the model's
reader and writer: which JSON values stand for which message.  Members may come in any order,
under the declared name or its camel-case form; a default value may be written, left out or null.
How doubles are written in decimal, and what the members of an extension of a given type mean, are
parameters (`e : PJ.Env`), and so is whether undeclared members are put up with.
-/
namespace OM.Spec
open OM.PJ (Env FloatText)

/-- The camel-case form of a declared name: underscores go, and the letter after one becomes a
capital. -/
def camel : List Char → List Char
  | [] => []
  | '_' :: c :: s => c.toUpper :: camel s
  | c :: s => c :: camel s

/-- The values of the members with a field's name. -/
def occJ (f : String) (ms : List (Str × Json)) : List Json :=
  (ms.filter fun m => decide (m.1 = f.toList ∨ m.1 = camel f.toList)).map (·.2)

/-- Undeclared members are refused unless `e` puts up with them. -/
def KnownJ (e : Env) (m : String) (ms : List (Str × Json)) : Prop :=
  e.opts.discard = true ∨ ∀ x ∈ ms, ∃ f ty n, Declared m f ty n ∧ (x.1 = f.toList ∨ x.1 = camel f.toList)

/-- The declared field `f` of `m` has values as `R` says. -/
def HasJ (m f ty : String) (ms : List (Str × Json)) (R : List Json → Prop) : Prop := (∃ n, Declared m f ty n) ∧ R (occJ f ms)

/-! ## Values -/

/-- Nothing, or null. -/
def Absent (o : List Json) : Prop := o = [] ∨ o = [.null]

def TextJ (s : Str) (o : List Json) : Prop := o = [.str s] ∨ (s = [] ∧ Absent o)

/-- The number `t` is the integer `v`.  (Fractions below one with exponents over 20 are left out.) -/
def IntNum (v : Int) (t : Str) : Prop :=
  ∃ neg i f e, NumText neg i f e t ∧
    v * 10 ^ (f.length + (-e).toNat) = (if neg then -1 else 1) * (digitsValue (i ++ f) : Int) * 10 ^ e.toNat ∧
    (i = ['0'] → v ≠ 0 → e ≤ 20) ∧ GoInt32 v

def IntJ (v : Int) (o : List Json) : Prop := (∃ t, (o = [.num t] ∨ o = [.str t]) ∧ IntNum v t) ∨ (v = 0 ∧ Absent o)

/-- The names of the enums: messages.proto:92-108, :179-182. -/
def enumNames : String → List (String × Int)
  | "FilterBounds" => [("EXCLUDE_NONE", 0), ("INCLUDE_BOTH", 0), ("EXCLUDE_MIN", 1), ("EXCLUDE_START", 1), ("INCLUDE_MAX_ONLY", 1),
      ("EXCLUDE_MAX", 2), ("EXCLUDE_END", 2), ("INCLUDE_MIN_ONLY", 2), ("EXCLUDE_BOTH", 3), ("INCLUDE_NONE", 3)]
  | "Type" => [("REST", 0), ("GRPC", 1)]
  | _ => []

def EnumJ (e : Env) (ty : String) (v : Int) (o : List Json) : Prop :=
  (∃ n, o = [.str n.toList] ∧ (n, v) ∈ enumNames ty) ∨ (∃ t, o = [.num t] ∧ IntNum v t) ∨ (v = 0 ∧ Absent o) ∨
    (v = 0 ∧ e.opts.lax = true ∧ ∃ s, o = [.str s] ∧ ∀ n ∈ enumNames ty, n.1.toList ≠ s)

/-- A double: a number, such a number in a string, or a name. -/
def DoubleJ1 (fl : FloatText) (x : F64) (j : Json) : Prop :=
  (∃ t, j = .num t ∧ fl.parse t = some x) ∨ (∃ t, j = .str t ∧ IsNumber t ∧ fl.parse t = some x) ∨
    (j = .str "NaN".toList ∧ x = 0x7FF8000000000001) ∨ (j = .str "Infinity".toList ∧ x = 0x7FF0000000000000) ∨
    (j = .str "-Infinity".toList ∧ x = 0xFFF0000000000000)

def DoubleJ (fl : FloatText) (x : F64) (o : List Json) : Prop := (∃ j, o = [j] ∧ DoubleJ1 fl x j) ∨ (x = 0 ∧ Absent o)

def MsgJ {α : Type} (R : α → Json → Prop) : Option α → List Json → Prop
  | none, o => Absent o
  | some v, o => ∃ j, o = [j] ∧ j ≠ .null ∧ R v j

def ListJ {α : Type} (R : α → Json → Prop) (l : List α) (o : List Json) : Prop :=
  (∃ js, o = [.arr js] ∧ List.Forall₂ R l js) ∨ (l = [] ∧ Absent o)

/-- The entries of a map are the members of an object; no key comes twice. -/
def MapJ {V : Type} (R : V → Json → Prop) (m : GoMap V) (o : List Json) : Prop :=
  (∃ ms, o = [.obj ms] ∧ (ms.map (·.1)).Nodup ∧ List.Forall₂ (fun x y => x.1 = y.1 ∧ R x.2 y.2) m ms) ∨ (m = [] ∧ Absent o)

def StrJ (s : Str) (j : Json) : Prop := j = .str s

/-! ## Times: RFC 3339 -/

def FracText (nanos : Int) (t : Str) : Prop :=
  (t = [] ∧ nanos = 0) ∨ ∃ ds, t = '.' :: ds ∧ Decimals ds ∧ ds.length ≤ 9 ∧ nanos = (digitsValue ds * 10 ^ (9 - ds.length) : Nat)

def ZoneText (off : Int) (t : Str) : Prop :=
  (t = ['Z'] ∧ off = 0) ∨ ∃ sign h m sh sm, t = sign :: (sh ++ ':' :: sm) ∧ FixedDigits 2 h sh ∧ FixedDigits 2 m sm ∧ h < 24 ∧ m < 60 ∧
    ((sign = '+' ∧ off = ((h * 60 + m) * 60 : Nat)) ∨ (sign = '-' ∧ off = -((h * 60 + m) * 60 : Nat)))

/-- A date of the calendar (which repeats every 400 years), a time of the day, fractions of a
second and the distance from UTC. -/
def Rfc3339 (t : Timestamp) (s : Str) : Prop :=
  ∃ y m d hh mm ss sy sm sd sh si st fs zs l off, FixedDigits 4 y sy ∧ FixedDigits 2 m sm ∧ FixedDigits 2 d sd ∧ FixedDigits 2 hh sh ∧
    FixedDigits 2 mm si ∧ FixedDigits 2 ss st ∧
    s = sy ++ '-' :: (sm ++ '-' :: (sd ++ 'T' :: (sh ++ ':' :: (si ++ ':' :: (st ++ (fs ++ zs)))))) ∧
    1 ≤ m ∧ (monthLengths y)[m - 1]? = some l ∧ 1 ≤ d ∧ d ≤ l ∧ hh < 24 ∧ mm < 60 ∧ ss < 60 ∧ FracText t.nanos fs ∧ ZoneText off zs ∧
    t.seconds + off = ((((dayNumber (y + 400) m d : Int) - dayNumber 2370 1 1) * 24 + hh) * 60 + mm) * 60 + ss

/-- The times a Timestamp may hold: the years 1 to 9999. -/
def TimeJ (t : Timestamp) (j : Json) : Prop :=
  ∃ s, j = .str s ∧ Rfc3339 t s ∧ -62135596800 ≤ t.seconds ∧ t.seconds ≤ 253402300799

/-! ## Messages -/

/-- An `Any`: the type's URL, and the members that its type prescribes for the value. -/
def AnyJ (e : Env) (a : AnyPb) (j : Json) : Prop :=
  ∃ ms, j = .obj ms ∧ ((a = ⟨[], []⟩ ∧ ms = []) ∨ (a = ⟨[], []⟩ ∧ e.opts.lax = true ∧ occJ "@type" ms = []) ∨
    (occJ "@type" ms = [.str a.typeUrl] ∧ e.types.dec a.typeUrl (ms.filter fun m => decide (m.1 ≠ "@type".toList)) = some a.value))

def DataJ (e : Env) (d : FilterableData) (j : Json) : Prop := ∃ ms, j = .obj ms ∧ KnownJ e "FilterableData" ms ∧
  HasJ "FilterableData" "tags" "repeated string" ms (ListJ StrJ d.tags) ∧
  HasJ "FilterableData" "string_args" "map<string, string>" ms (MapJ StrJ d.stringArgs) ∧
  HasJ "FilterableData" "double_args" "map<string, double>" ms (MapJ (DoubleJ1 e.fl) d.doubleArgs) ∧
  HasJ "FilterableData" "creation_time" "Timestamp" ms (MsgJ TimeJ d.creationTime)

def TicketJ (e : Env) (t : Ticket) (j : Json) : Prop := ∃ ms, j = .obj ms ∧ KnownJ e "Ticket" ms ∧
  HasJ "Ticket" "id" "string" ms (TextJ t.id) ∧
  HasJ "Ticket" "expiration_time" "Timestamp" ms (MsgJ TimeJ t.expirationTime) ∧
  HasJ "Ticket" "attributes" "FilterableData" ms (MsgJ (DataJ e) t.attributes) ∧
  HasJ "Ticket" "extensions" "map<string, Any>" ms (MapJ (AnyJ e) t.extensions)

def AssignmentJ (e : Env) (a : Assignment) (j : Json) : Prop := ∃ ms, j = .obj ms ∧ KnownJ e "Assignment" ms ∧
  HasJ "Assignment" "connection" "string" ms (TextJ a.connection) ∧
  HasJ "Assignment" "extensions" "map<string, Any>" ms (MapJ (AnyJ e) a.extensions)

def RosterJ (e : Env) (r : Roster) (j : Json) : Prop := ∃ ms, j = .obj ms ∧ KnownJ e "Roster" ms ∧
  HasJ "Roster" "name" "string" ms (TextJ r.name) ∧
  HasJ "Roster" "assignment" "Assignment" ms (MsgJ (AssignmentJ e) r.assignment) ∧
  HasJ "Roster" "tickets" "repeated Ticket" ms (ListJ (TicketJ e) r.tickets) ∧
  HasJ "Roster" "extensions" "map<string, Any>" ms (MapJ (AnyJ e) r.extensions)

def TagFilterJ (e : Env) (f : TagPresentFilter) (j : Json) : Prop := ∃ ms, j = .obj ms ∧ KnownJ e "TagPresentFilter" ms ∧
  HasJ "TagPresentFilter" "tag" "string" ms (TextJ f.tag)

def StrFilterJ (e : Env) (f : StringEqualsFilter) (j : Json) : Prop := ∃ ms, j = .obj ms ∧ KnownJ e "StringEqualsFilter" ms ∧
  HasJ "StringEqualsFilter" "string_arg" "string" ms (TextJ f.stringArg) ∧
  HasJ "StringEqualsFilter" "value" "string" ms (TextJ f.value)

def DblFilterJ (e : Env) (f : DoubleRangeFilter) (j : Json) : Prop := ∃ ms, j = .obj ms ∧ KnownJ e "DoubleRangeFilter" ms ∧
  HasJ "DoubleRangeFilter" "double_arg" "string" ms (TextJ f.doubleArg) ∧
  HasJ "DoubleRangeFilter" "minimum" "double" ms (DoubleJ e.fl f.minimum) ∧
  HasJ "DoubleRangeFilter" "maximum" "double" ms (DoubleJ e.fl f.maximum) ∧
  HasJ "DoubleRangeFilter" "bounds" "FilterBounds" ms (EnumJ e "FilterBounds" f.bounds)

def CtFilterJ (e : Env) (f : CreationTimeRangeFilter) (j : Json) : Prop := ∃ ms, j = .obj ms ∧ KnownJ e "CreationTimeRangeFilter" ms ∧
  HasJ "CreationTimeRangeFilter" "start" "Timestamp" ms (MsgJ TimeJ f.start) ∧
  HasJ "CreationTimeRangeFilter" "end" "Timestamp" ms (MsgJ TimeJ f.stop) ∧
  HasJ "CreationTimeRangeFilter" "bounds" "FilterBounds" ms (EnumJ e "FilterBounds" f.bounds)

def PoolJ (e : Env) (p : Pool) (j : Json) : Prop := ∃ ms, j = .obj ms ∧ KnownJ e "Pool" ms ∧
  HasJ "Pool" "name" "string" ms (TextJ p.name) ∧
  HasJ "Pool" "tag_present_filters" "repeated TagPresentFilter" ms (ListJ (TagFilterJ e) p.tagPresentFilters) ∧
  HasJ "Pool" "string_equals_filters" "repeated StringEqualsFilter" ms (ListJ (StrFilterJ e) p.stringEqualsFilters) ∧
  HasJ "Pool" "double_range_filters" "repeated DoubleRangeFilter" ms (ListJ (DblFilterJ e) p.doubleRangeFilters) ∧
  HasJ "Pool" "creation_time_range_filter" "CreationTimeRangeFilter" ms (MsgJ (CtFilterJ e) p.creationTimeRangeFilter) ∧
  HasJ "Pool" "participants" "Roster" ms (MsgJ (RosterJ e) p.participants) ∧
  HasJ "Pool" "extensions" "map<string, Any>" ms (MapJ (AnyJ e) p.extensions)

def ProfileJ (e : Env) (p : Profile) (j : Json) : Prop := ∃ ms, j = .obj ms ∧ KnownJ e "Profile" ms ∧
  HasJ "Profile" "name" "string" ms (TextJ p.name) ∧
  HasJ "Profile" "pools" "map<string, Pool>" ms (MapJ (PoolJ e) p.pools) ∧
  HasJ "Profile" "extensions" "map<string, Any>" ms (MapJ (AnyJ e) p.extensions)

def MatchJ (e : Env) (m : Match) (j : Json) : Prop := ∃ ms, j = .obj ms ∧ KnownJ e "Match" ms ∧
  HasJ "Match" "id" "string" ms (TextJ m.id) ∧
  HasJ "Match" "rosters" "map<string, Roster>" ms (MapJ (RosterJ e) m.rosters) ∧
  HasJ "Match" "extensions" "map<string, Any>" ms (MapJ (AnyJ e) m.extensions)

def SpecJ (e : Env) (s : Serve.MmfSpec) (j : Json) : Prop := ∃ ms, j = .obj ms ∧ KnownJ e "MatchmakingFunctionSpec" ms ∧
  HasJ "MatchmakingFunctionSpec" "name" "string" ms (TextJ s.name) ∧
  HasJ "MatchmakingFunctionSpec" "host" "string" ms (TextJ s.host) ∧
  HasJ "MatchmakingFunctionSpec" "port" "int32" ms (IntJ s.port) ∧
  HasJ "MatchmakingFunctionSpec" "type" "Type" ms (EnumJ e "Type" s.type)

/-! ## Requests and responses -/

def CreateTicketRequestJ (e : Env) (t : Option Ticket) (j : Json) : Prop := ∃ ms, j = .obj ms ∧ KnownJ e "CreateTicketRequest" ms ∧
  HasJ "CreateTicketRequest" "ticket" "Ticket" ms (MsgJ (TicketJ e) t)

def CreateTicketResponseJ (e : Env) (id : Str) (j : Json) : Prop := ∃ ms, j = .obj ms ∧ KnownJ e "CreateTicketResponse" ms ∧
  HasJ "CreateTicketResponse" "ticket_id" "string" ms (TextJ id)

/-- `m`: one of the three requests that carry a list of ticket ids. -/
def IdsRequestJ (e : Env) (m : String) (ids : List Str) (j : Json) : Prop := ∃ ms, j = .obj ms ∧ KnownJ e m ms ∧
  HasJ m "ticket_ids" "repeated string" ms (ListJ StrJ ids)

def MmfRequestJ (e : Env) (q : Option Profile × List Serve.MmfSpec) (j : Json) : Prop := ∃ ms, j = .obj ms ∧ KnownJ e "MmfRequest" ms ∧
  HasJ "MmfRequest" "profile" "Profile" ms (MsgJ (ProfileJ e) q.1) ∧
  HasJ "MmfRequest" "mmfs" "repeated MatchmakingFunctionSpec" ms (ListJ (SpecJ e) q.2)

def MmfResponseJ (e : Env) (m : Option Match) (j : Json) : Prop := ∃ ms, j = .obj ms ∧ KnownJ e "StreamedMmfResponse" ms ∧
  HasJ "StreamedMmfResponse" "match" "Match" ms (MsgJ (MatchJ e) m)

def CreateAssignmentsRequestJ (e : Env) (r : Option Roster) (j : Json) : Prop := ∃ ms, j = .obj ms ∧ KnownJ e "CreateAssignmentsRequest" ms ∧
  HasJ "CreateAssignmentsRequest" "assignment_roster" "Roster" ms (MsgJ (RosterJ e) r)

def WatchResponseJ (e : Env) (a : Option Assignment × Str) (j : Json) : Prop := ∃ ms, j = .obj ms ∧ KnownJ e "StreamedWatchAssignmentsResponse" ms ∧
  HasJ "StreamedWatchAssignmentsResponse" "assignment" "Assignment" ms (MsgJ (AssignmentJ e) a.1) ∧
  HasJ "StreamedWatchAssignmentsResponse" "id" "string" ms (TextJ a.2)

/-- A document that holds a message. -/
def DocJ {α : Type} (R : α → Json → Prop) (v : α) (t : Str) : Prop := ∃ j, JDoc j t ∧ R v j


/-- The body of a request: a message, which anything may follow; or nothing, for the empty one. -/
def BodyJ {α : Type} (R : α → Json → Prop) (empty v : α) (t : Str) : Prop :=
  (Ws t ∧ v = empty) ∨ ∃ w x r j, t = w ++ (x ++ r) ∧ Ws w ∧ IsText x ∧ JText j x ∧ R v j

/-! ## What can be written as JSON -/

/-- What is assumed of the parameters: a finite double is written as a number that is read back as
the same double; the members that stand for an extension are JSON and none of them is "@type". -/
structure EnvOk (e : Env) : Prop where
  number : ∀ x, F64.isNaN x = false → x ≠ 0x7FF0000000000000 → x ≠ 0xFFF0000000000000 →
    IsNumber (e.fl.format x) ∧ e.fl.parse (e.fl.format x) = some x
  members : ∀ url v ms, e.types.enc url v = some ms → (∃ t, JText (.obj ms) t) ∧ ∀ m ∈ ms, m.1 ≠ "@type".toList

/-- Messages of the extensions' types are encoded as bytes. -/
def BytesOk (e : Env) : Prop := ∀ url ms v t, JDoc (.obj ms) t → e.types.dec url ms = some v → ∀ c ∈ v, c.toNat < 256

def OptAll {α : Type} (P : α → Prop) (o : Option α) : Prop := ∀ x, o = some x → P x
def ListAll {α : Type} (P : α → Prop) (l : List α) : Prop := ∀ x ∈ l, P x
/-- The keys are texts. -/
def MapAll {V : Type} (P : V → Prop) (m : GoMap V) : Prop := ∀ x ∈ m, IsText x.1 ∧ P x.2

/-- A time of the years 1 to 9999. -/
def TimeOk (t : Timestamp) : Prop := -62135596800 ≤ t.seconds ∧ t.seconds ≤ 253402300799 ∧ 0 ≤ t.nanos ∧ t.nanos ≤ 999999999

/-- An extension of a type known to the program, or an empty one. -/
def AnyOk (e : Env) (a : AnyPb) : Prop :=
  a = ⟨[], []⟩ ∨ (a.typeUrl ≠ [] ∧ IsText a.typeUrl ∧ ∃ ms t, e.types.enc a.typeUrl a.value = some ms ∧ JDoc (.obj ms) t)

def DataOk (d : FilterableData) : Prop :=
  ListAll IsText d.tags ∧ MapAll IsText d.stringArgs ∧ MapAll (fun _ => True) d.doubleArgs ∧ OptAll TimeOk d.creationTime
def TicketOk (e : Env) (t : Ticket) : Prop :=
  IsText t.id ∧ OptAll TimeOk t.expirationTime ∧ OptAll DataOk t.attributes ∧ MapAll (AnyOk e) t.extensions
def AssignmentOk (e : Env) (a : Assignment) : Prop := IsText a.connection ∧ MapAll (AnyOk e) a.extensions
def RosterOk (e : Env) (r : Roster) : Prop :=
  IsText r.name ∧ OptAll (AssignmentOk e) r.assignment ∧ ListAll (TicketOk e) r.tickets ∧ MapAll (AnyOk e) r.extensions
def CtFilterOk (f : CreationTimeRangeFilter) : Prop := OptAll TimeOk f.start ∧ OptAll TimeOk f.stop
def PoolOk (e : Env) (p : Pool) : Prop :=
  IsText p.name ∧ ListAll (fun f : TagPresentFilter => IsText f.tag) p.tagPresentFilters ∧
    ListAll (fun f : StringEqualsFilter => IsText f.stringArg ∧ IsText f.value) p.stringEqualsFilters ∧
    ListAll (fun f : DoubleRangeFilter => IsText f.doubleArg) p.doubleRangeFilters ∧ OptAll CtFilterOk p.creationTimeRangeFilter ∧
    OptAll (RosterOk e) p.participants ∧ MapAll (AnyOk e) p.extensions
def ProfileOk (e : Env) (p : Profile) : Prop := IsText p.name ∧ MapAll (PoolOk e) p.pools ∧ MapAll (AnyOk e) p.extensions
def MatchOk (e : Env) (m : Match) : Prop := IsText m.id ∧ MapAll (RosterOk e) m.rosters ∧ MapAll (AnyOk e) m.extensions
def SpecOk (s : Serve.MmfSpec) : Prop := IsText s.name ∧ IsText s.host

/-! ## Values as Go has them

Map keys are distinct, int32 values in range, every NaN is `math.NaN()`, and an extension's bytes
are the ones its type is written with. -/

def MapGo {V : Type} (P : V → Prop) (m : GoMap V) : Prop := (m.map (·.1)).Nodup ∧ ∀ x ∈ m, P x.2
def DoubleGo (x : F64) : Prop := F64.isNaN x = true → x = 0x7FF8000000000001
def AnyGo (e : Env) (a : AnyPb) : Prop := ∀ ms, e.types.enc a.typeUrl a.value = some ms → e.types.dec a.typeUrl ms = some a.value

def DataGo (d : FilterableData) : Prop := MapGo (fun _ => True) d.stringArgs ∧ MapGo DoubleGo d.doubleArgs
def TicketGo (e : Env) (t : Ticket) : Prop := OptAll DataGo t.attributes ∧ MapGo (AnyGo e) t.extensions
def AssignmentGo (e : Env) (a : Assignment) : Prop := MapGo (AnyGo e) a.extensions
def RosterGo (e : Env) (r : Roster) : Prop :=
  OptAll (AssignmentGo e) r.assignment ∧ ListAll (TicketGo e) r.tickets ∧ MapGo (AnyGo e) r.extensions
def DblFilterGo (f : DoubleRangeFilter) : Prop := DoubleGo f.minimum ∧ DoubleGo f.maximum ∧ GoInt32 f.bounds
def CtFilterGo (f : CreationTimeRangeFilter) : Prop := GoInt32 f.bounds
def PoolGo (e : Env) (p : Pool) : Prop :=
  ListAll DblFilterGo p.doubleRangeFilters ∧ OptAll CtFilterGo p.creationTimeRangeFilter ∧ OptAll (RosterGo e) p.participants ∧
    MapGo (AnyGo e) p.extensions
def ProfileGo (e : Env) (p : Profile) : Prop := MapGo (PoolGo e) p.pools ∧ MapGo (AnyGo e) p.extensions
def MatchGo (e : Env) (m : Match) : Prop := MapGo (RosterGo e) m.rosters ∧ MapGo (AnyGo e) m.extensions
def SpecGo (s : Serve.MmfSpec) : Prop := GoInt32 s.port ∧ GoInt32 s.type

end OM.Spec
