import Verif.Model.Proto
/-!
# State storage interface and the in-memory replicator

core/internal/statestore/datatypes/store.go, core/internal/statestore/memory/main.go,
and the protobuf codec the rest of the core calls.
-/
namespace OM

/-- store.go:5-10; `Cmd` is a Go `int`, so any other value is possible. -/
inductive Cmd where
  | ticket | activate | deactivate | assign
  | other (n : Int)
  deriving DecidableEq, Repr

/-- store.go:13-17. -/
structure StateUpdate where
  cmd : Cmd
  key : Str
  value : Str
  deriving DecidableEq, Repr

/-- Go's zero value `store.StateUpdate{}` (Cmd 0 is `Ticket`). -/
def StateUpdate.zero : StateUpdate := ⟨.ticket, [], []⟩

/-- store.go:33-36; `err` is the error text, which need not be UTF-8. -/
structure StateResponse where
  result : Str
  err : Option Str
  deriving DecidableEq, Repr

/-- The configuration values the modelled code reads (core/internal/config/config.go:36-139). -/
structure Config where
  /-- OM_CACHE_TICKET_TTL_SECS -/
  ttl : Int
  /-- OM_CACHE_ASSIGNMENT_ADDITIONAL_TTL_SECS -/
  addTtl : Int
  /-- OM_MAX_STATE_UPDATES_PER_CALL -/
  maxUpdates : Int
  /-- OM_CACHE_OUT_MAX_QUEUE_THRESHOLD -/
  outThreshold : Int
  /-- OM_CACHE_IN_MAX_UPDATES_PER_POLL -/
  inMax : Nat
  /-- OM_MATCH_TICKET_DEACTIVATION_WAIT -/
  deactWait : Bool
  deriving DecidableEq, Repr

/-- config.go defaults. -/
def Config.default : Config :=
  { ttl := 600, addTtl := 600, maxUpdates := 500, outThreshold := 50, inMax := 10000, deactWait := false }

/-! ## Protobuf marshalling

`proto.Marshal`/`proto.Unmarshal` for the two messages that are replicated.  The
core ignores Unmarshal's error and uses whatever was decoded, so decoding is total.
`Verif/Model/Wire.lean` gives a concrete instance. -/
structure Codec where
  /-- `proto.Marshal(&pb.Ticket{...})`; `none` is an error (e.g. invalid UTF-8). -/
  encT : Ticket → Option Str
  /-- `proto.Unmarshal(b, ticketPb)` into a fresh message, error ignored. -/
  decT : Str → Ticket
  /-- `proto.Marshal(assignment)`. -/
  encA : Assignment → Option Str
  /-- `proto.Unmarshal(b, assignmentPb)`, error ignored. -/
  decA : Str → Assignment

/-! ## memory/main.go -/

/-- memory/main.go:24-29: `replTS` matters only through `.Unix()`. -/
structure MemRepl where
  replTS : Int
  replCount : Nat
  deriving DecidableEq, Repr

/-- memory/main.go:31-38 `New`, reading the clock (unix seconds). -/
def MemRepl.new (now : Int) : MemRepl := ⟨now, 0⟩

/-- memory/main.go:105: `fmt.Sprintf("%v-%v", FormatInt(ts), count)`. -/
def fmtReplId (ts : Int) (count : Nat) : Str := fmtInt ts ++ '-' :: fmtNat count

/-- memory/main.go:98-107 `getReplId`: up to two clock readings `now1`, `now2`.
Simplification: `replCount` is a Go int and would overflow after 2^63 ids in one second. -/
def MemRepl.getReplId (s : MemRepl) (now1 now2 : Int) : Str × MemRepl :=
  let s' : MemRepl :=
    if now1 = s.replTS then ⟨s.replTS, s.replCount + 1⟩ else ⟨now2, 0⟩
  (fmtReplId s'.replTS s'.replCount, s')

/-- What one iteration of `SendUpdates` (memory/main.go:81-90) puts on `replChan`. -/
def memPublished (u : StateUpdate) (replId : Str) : StateUpdate :=
  match u.cmd with
  | .ticket => { u with key := replId }
  | _ => u

/-- memory/main.go:75-94 `SendUpdates`.  Each update comes with the two clock
readings its `getReplId` call would make.  Returns the new replicator state, the
updates put on `replChan`, and the responses. -/
def MemRepl.sendUpdates (s : MemRepl) :
    List (StateUpdate × Int × Int) → MemRepl × List StateUpdate × List StateResponse
  | [] => (s, [], [])
  | (u, now1, now2) :: rest =>
    let (replId, s') := s.getReplId now1 now2
    let (s'', pub, out) := s'.sendUpdates rest
    (s'', memPublished u replId :: pub, ⟨replId, none⟩ :: out)

end OM
