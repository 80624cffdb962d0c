import Verif.Model.F64
/-!
# Messages (proto/v2/messages.proto) and timestamps

Message-typed fields are pointers in Go and become `Option`; elements of repeated
message fields and map values are never nil in a message that came from the wire
and become plain values.
-/
namespace OM

/-- `google.protobuf.Timestamp`. -/
structure Timestamp where
  seconds : Int
  nanos : Int
  deriving DecidableEq, Repr, Inhabited

def nsPerSec : Int := 1000000000

/-- int64 wrap-around. -/
def wrap64 (x : Int) : Int := (x + 2 ^ 63) % 2 ^ 64 - 2 ^ 63

/-- `time.Second * time.Duration(n)`: a `Duration` is an int64 of nanoseconds. -/
def goSecs (n : Int) : Int := wrap64 (n * nsPerSec)

/-- Smallest and largest legal `Timestamp.seconds` (timestamppb `check`):
0001-01-01T00:00:00Z and 9999-12-31T23:59:59Z. -/
def minTimestampSec : Int := -62135596800
def maxTimestampSec : Int := 253402300799

/-- `(*timestamppb.Timestamp).IsValid()`; nil is invalid. -/
def Timestamp.isValid : Option Timestamp → Bool
  | none => false
  | some t => decide (minTimestampSec ≤ t.seconds ∧ t.seconds ≤ maxTimestampSec ∧
      0 ≤ t.nanos ∧ t.nanos < nsPerSec)

/-- `(*timestamppb.Timestamp).AsTime()` as nanoseconds since the unix epoch; a nil
timestamp yields the epoch because the getters return 0.  Simplification: Go's
`time.Time` wraps for seconds near the int64 limits, `Int` does not. -/
def asTime : Option Timestamp → Int
  | none => 0
  | some t => t.seconds * nsPerSec + t.nanos

/-- `timestamppb.New(t)` for `t` in nanoseconds since the epoch. -/
def newTimestamp (t : Int) : Timestamp := ⟨t / nsPerSec, t % nsPerSec⟩

/-- `google.protobuf.Any`, opaque to Open Match. -/
structure AnyPb where
  typeUrl : Str
  value : Str
  deriving DecidableEq, Repr, Inhabited

/-- messages.proto:63-72. -/
structure FilterableData where
  tags : List Str
  stringArgs : GoMap Str
  doubleArgs : GoMap F64
  creationTime : Option Timestamp
  deriving DecidableEq, Repr, Inhabited

/-- messages.proto:50-77. -/
structure Ticket where
  id : Str
  expirationTime : Option Timestamp
  attributes : Option FilterableData
  extensions : GoMap AnyPb
  deriving DecidableEq, Repr, Inhabited

/-- messages.proto:80-85. -/
structure Assignment where
  connection : Str
  extensions : GoMap AnyPb
  deriving DecidableEq, Repr, Inhabited

/-- messages.proto:113-115. -/
structure TagPresentFilter where
  tag : Str
  deriving DecidableEq, Repr, Inhabited

/-- messages.proto:118-121. -/
structure StringEqualsFilter where
  stringArg : Str
  value : Str
  deriving DecidableEq, Repr, Inhabited

/-- messages.proto:124-129.  `bounds` is an open proto3 enum: any int32. -/
structure DoubleRangeFilter where
  doubleArg : Str
  minimum : F64
  maximum : F64
  bounds : Int
  deriving DecidableEq, Repr, Inhabited

/-- messages.proto:132-137 (`stop` is the proto field `end`). -/
structure CreationTimeRangeFilter where
  start : Option Timestamp
  stop : Option Timestamp
  bounds : Int
  deriving DecidableEq, Repr, Inhabited

/-- messages.proto:93-108: Pool_FilterBounds values. -/
def excludeNone : Int := 0
def excludeMin : Int := 1
def excludeStart : Int := 1
def excludeMax : Int := 2
def excludeEnd : Int := 2
def excludeBoth : Int := 3

/-- messages.proto:164-171. -/
structure Roster where
  name : Str
  assignment : Option Assignment
  tickets : List Ticket
  extensions : GoMap AnyPb
  deriving DecidableEq, Repr, Inhabited

/-- messages.proto:89-145. -/
structure Pool where
  name : Str
  tagPresentFilters : List TagPresentFilter
  stringEqualsFilters : List StringEqualsFilter
  doubleRangeFilters : List DoubleRangeFilter
  creationTimeRangeFilter : Option CreationTimeRangeFilter
  participants : Option Roster
  extensions : GoMap AnyPb
  deriving DecidableEq, Repr, Inhabited

/-- messages.proto:147-153. -/
structure Profile where
  name : Str
  pools : GoMap Pool
  extensions : GoMap AnyPb
  deriving DecidableEq, Repr, Inhabited

/-- messages.proto:155-161. -/
structure Match where
  id : Str
  rosters : GoMap Roster
  extensions : GoMap AnyPb
  deriving DecidableEq, Repr, Inhabited

/-- messages.proto:192-197. -/
structure ChunkedMmfRunRequest where
  profile : Option Profile
  numChunks : Int
  deriving DecidableEq, Repr, Inhabited

/-- gRPC status codes that the handlers use. -/
inductive Code where
  | ok | invalidArgument | internal | unknown
  deriving DecidableEq, Repr

end OM
