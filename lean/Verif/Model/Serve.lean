import Verif.Model.Relay
import Verif.Model.Mmf
/-!
# Who calls whom, and what a call records

The addresses at which om-core looks for MMFs (core/main.go:527-551), the port at which the
MMF servers listen (mmf/main.go:40-60, mmf/server/server.go:36-54), the specs of the example
(matchmaker-example/main.go:128-151), and the per-call histograms of core/metrics.go.
-/
namespace OM.Serve

/-- A `MatchmakingFunctionSpec`, messages.proto:174-183.  `type` is an open enum: 0 is REST,
1 is GRPC, any other int32 is possible. -/
structure MmfSpec where
  name : Str
  host : Str
  port : Int
  type : Int
  deriving DecidableEq

/-- messages.pb.go:135-136. -/
def typeRest : Int := 0
def typeGrpc : Int := 1

/-- core/main.go:528-531. -/
def mmfHost (s : MmfSpec) : Str := if s.port > 0 then s.host ++ ':' :: fmtInt s.port else s.host

/-- core/main.go:532-552: the address that is dialled, if any. -/
def dialled (s : MmfSpec) : Option Str := if s.type = typeRest then none else some (mmfHost s)

/-- core/main.go:521-570: what the relay (`Model/Relay.lean`) gets from a spec, when `world a` is
what calling `Run` at address `a` leads to. -/
def callee (world : Str → Relay.Mmf) (s : MmfSpec) : Relay.Mmf :=
  match dialled s with
  | none => ⟨false, [], false⟩
  | some a => world a

/-- core/main.go:514: every spec of the request. -/
def callees (world : Str → Relay.Mmf) (specs : List MmfSpec) : List Relay.Mmf := specs.map (callee world)

/-! ## The MMF servers -/

/-- Go's conversion `int32(n)`. -/
def int32 (n : Int) : Int := (n + 2 ^ 31) % 2 ^ 32 - 2 ^ 31

/-- mmf/main.go:40-60: `port` as it is passed on; `env` is `os.LookupEnv("PORT")`.
`strconv.Atoi` is `ParseInt(s, 10, 0)`. -/
def mmfPort (env : Option Str) : Int :=
  match env with
  | none => 8081
  | some s => if (parseInt10 s).isErr then 8081 else (parseInt10 s).value

/-- mmf/server/server.go:36-40: the argument of `net.Listen`. -/
def listenArg (port : Int) : Str := ':' :: fmtInt port

/-- mmf/main.go:63 and mmf/server/server.go:36-44: the port that is served, or none when the listener
fails and the process ends.  `net.Listen` takes the ports 0 (any free one) to 65535. -/
def mmfServes (env : Option Str) : Option Int :=
  let p := int32 (mmfPort env)
  if 0 ≤ p ∧ p < 65536 then some p else none

/-! ## The example's specs -/

/-- matchmaker-example/main.go:129-134, 137-142, 145-150. -/
def soloSpec : MmfSpec := ⟨"soloduel".toList, "localhost".toList, 8081, typeGrpc⟩
def brSpec : MmfSpec := ⟨"battleroyale".toList, "localhost".toList, 8082, typeGrpc⟩
def tsSpec : MmfSpec := ⟨"teamshooter".toList, "localhost".toList, 8083, typeGrpc⟩
/-- matchmaker-example/main.go:152-156. -/
def exampleSpecs : List MmfSpec := [soloSpec, brSpec, tsSpec]

/-- Which server listens where, matchmaker-example/main.go:135, 143, 151: `StartServer` gets
the spec's port. -/
def exampleServers : List (Str × Str) :=
  [(listenArg soloSpec.port, Mmf.soloName), (listenArg brSpec.port, Mmf.brName), (listenArg tsSpec.port, Mmf.tsName)]

/-! ## The clock in match ids -/

/-- Days of a month of the Gregorian calendar. -/
def daysIn (y m : Nat) : Nat :=
  if m = 2 then if y % 4 = 0 ∧ (y % 100 ≠ 0 ∨ y % 400 = 0) then 29 else 28
  else if m = 4 ∨ m = 6 ∨ m = 9 ∨ m = 11 then 30 else 31

/-- The day after a date (year, month, day). -/
def nextDay (d : Nat × Nat × Nat) : Nat × Nat × Nat :=
  if d.2.2 < daysIn d.1 d.2.1 then (d.1, d.2.1, d.2.2 + 1)
  else if d.2.1 < 12 then (d.1, d.2.1 + 1, 1)
  else (d.1 + 1, 1, 1)

/-- The date `n` days after 1970-01-01. -/
def dateAfter : Nat → Nat × Nat × Nat
  | 0 => (1970, 1, 1)
  | n + 1 => nextDay (dateAfter n)

/-- `time.Now().Format("2006-01-02T15:04:05.00")` (soloduel.go:81, battleroyale.go:79,
teamshooter.go:115) when the local clock shows `c` hundredths of a second since the beginning of
1970; fractions of a hundredth are cut off. -/
def clockText (c : Nat) : Str :=
  let d := dateAfter (c / 8640000)
  fmtNatPad 4 d.1 ++ '-' :: fmtNatPad 2 d.2.1 ++ '-' :: fmtNatPad 2 d.2.2 ++ 'T' :: fmtNatPad 2 (c / 360000 % 24) ++
    ':' :: fmtNatPad 2 (c / 6000 % 60) ++ ':' :: fmtNatPad 2 (c / 100 % 60) ++ '.' :: fmtNatPad 2 (c % 100)

/-! ## Histograms -/

/-- core/main.go:316, :350: what a call records in `ActivationsPerCall` or
`DeactivationsPerCall`; a call refused at :292-302, :327-337 records nothing. -/
def activeStateRecord (cfg : Config) (cmd : Cmd) (ids : List Str) : Option Nat :=
  match activeStateQueue cfg cmd ids with
  | .error _ => none
  | .ok _ => some (validateTicketIds ids).1.length

/-- core/main.go:749-769, the counter `numUpdates`. -/
def numUpdates (ts : List Ticket) : Nat := ts.foldl (fun n t => if t.id ≠ [] then n + 1 else n) 0

/-- core/main.go:792: what a call records in `AssignmentsPerCall`. -/
def assignmentsRecord (cd : Codec) (roster : Option Roster) : Option Nat :=
  match createAssignmentsQueue cd roster with
  | .error _ => none
  | .ok _ => (roster.map (·.tickets)).map numUpdates

end OM.Serve
