import Verif.Model.Config
import Verif.Model.Gateway
/-!
# Where om-core listens

core/server.go:38-73, core/main.go:81-84 and core/metrics.go:84-93.  What Go's `net` makes of a
port text is a parameter (`resolve`, `none` for an error), and so is which ports nobody else
listens on (`free`).
-/
namespace OM.Conf

/-- core/server.go:68. -/
def httpPort : Nat := 58081

/-- core/metrics.go:88. -/
def metricsPort : Nat := 2223

/-- core/main.go:83. -/
def pprofPort : Nat := 2224

/-- The four servers of om-core: the one for profiling (core/main.go:82-84), the one for metrics
(core/metrics.go:85-93), gRPC (core/server.go:41-54) and REST (core/server.go:67-71). -/
inductive Binder
  | pprof | metrics | grpc | http
  deriving DecidableEq, Repr

/-- Their ports, where gRPC is to use `n`. -/
def portOf (n : Nat) : Binder → Nat
  | .pprof => pprofPort
  | .metrics => metricsPort
  | .grpc => n
  | .http => httpPort

/-- One server asks for its port; `up`: those that have theirs.  A port is given once, also when
one of the two wants it on the loopback address only (Linux refuses that).  Without a port, the
profiling server (core/main.go:83) and the metrics server (core/metrics.go:89-92) print the error
and are given up; the two others end the process by `logger.Fatal` (core/server.go:43, :69). -/
def attempt (free : Nat → Bool) (n : Nat) (up : List Binder) (b : Binder) : Option (List Binder) :=
  if free (portOf n b) && !(up.map (portOf n)).contains (portOf n b) then some (b :: up)
  else match b with
    | .pprof | .metrics => some up
    | .grpc | .http => none

/-- The servers ask in this order. -/
def attempts (free : Nat → Bool) (n : Nat) : List Binder → List Binder → Option (List Binder)
  | up, [] => some up
  | up, b :: bs => (attempt free n up b).bind fun up => attempts free n up bs

/-- The servers once they run, and the port at which the REST gateway expects gRPC. -/
structure Listening where
  grpc : Nat
  http : Nat
  dials : Option Nat
  metrics : Bool
  pprof : Bool
  deriving DecidableEq, Repr

/-- `port` is the text of PORT (core/server.go:41).  Port 0 stands for one the system picks
(`picked`).  `order`: who asks first for a port.  `none`: the process ends (core/server.go:43,
:69; the latter shortly after the gRPC server started).  The gateway dials the configured text
(:58-63), lazily, so that a wrong address is no error. -/
def startServers (resolve : Str → Option Nat) (free : Nat → Bool) (picked : Nat) (order : List Binder) (port : Str) :
    Option Listening :=
  match resolve port with
  | none => none
  | some p =>
    let n := if p = 0 then picked else p
    (attempts free n [] order).map fun up => ⟨n, httpPort, resolve port, up.contains .metrics, up.contains .pprof⟩

/-- The same, for a configuration. -/
def serveApi (resolve : Str → Option Nat) (free : Nat → Bool) (picked : Nat) (order : List Binder) (env : GoMap Str) :
    Option Listening :=
  startServers resolve free picked order (getString env "PORT".toList)

/-! ## What the HTTP servers answer -/

/-- What a client gets to see. -/
inductive Page
  | metrics
  /-- A page of net/http/pprof: the index (the empty name) or what is named. -/
  | profile (name : Str)
  /-- The REST API. -/
  | api (a : Gw.Answer)
  | redirect
  | notFound
  /-- The gRPC server understands no plain request. -/
  | onlyGrpc
  /-- Nobody listens. -/
  | nobody
  deriving DecidableEq

def debugPath : Str := "/debug/pprof/".toList

/-- The pages with a handler of their own: `init` of net/http/pprof. -/
def debugHandlers : List Str := ["cmdline".toList, "profile".toList, "symbol".toList, "trace".toList]

/-- The profiles that `Index` of net/http/pprof finds: those of runtime/pprof. -/
def runtimeProfiles : List Str :=
  ["goroutine".toList, "threadcreate".toList, "heap".toList, "allocs".toList, "block".toList, "mutex".toList]

/-- `cleanPath` of net/http leaves the path as it is: it begins with a slash, and no component is
empty (but for the last), `.` or `..`. -/
def isClean : Str → Bool
  | '/' :: rest =>
    (split '/' rest).all (fun c => c ≠ ".".toList && c ≠ "..".toList) && (split '/' rest).dropLast.all (· ≠ [])
  | _ => false

/-- `http.DefaultServeMux`, to which net/http/pprof (imported at core/main.go:45) and
core/metrics.go:87 add their patterns.  Only `/debug/pprof/` stands for all paths that begin so;
without the last slash it is redirected, as are paths that are not clean.  Simplification: GET
requests, with the path unescaped. -/
def defaultMux (path : Str) : Page :=
  if isClean path = false then .redirect
  else if path = "/metrics".toList then .metrics
  else if path = "/debug/pprof".toList then .redirect
  else if debugPath.isPrefixOf path then
    let name := path.drop debugPath.length
    if name = [] ∨ name ∈ debugHandlers ∨ name ∈ runtimeProfiles then .profile name else .notFound
  else .notFound

/-- Where a client connects to: a port, on the loopback address (which only clients on the same
machine can) or another one. -/
structure Dest where
  loopback : Bool
  port : Nat

/-- A GET request.  The profiling server listens at "localhost:2224", the others on all addresses;
the profiling and the metrics server have no handler of their own (`nil`), so that both use
`http.DefaultServeMux` (core/main.go:83, core/metrics.go:88). -/
def httpGet (l : Listening) (d : Dest) (path : Str) : Page :=
  if d.port = l.grpc then .onlyGrpc
  else if d.port = l.http then .api (Gw.serve "GET".toList [] [] path)
  else if d.port = metricsPort ∧ l.metrics = true then defaultMux path
  else if d.port = pprofPort ∧ l.pprof = true ∧ d.loopback = true then defaultMux path
  else .nobody

/-! ## The error variable of `start`

core/server.go:41 declares one variable `err`; the goroutines of the two servers (:50-54,
:67-71) and `start` itself (:58-66) all assign it and then test it. -/

/-- How far a server's goroutine is: it serves until `Serve` returns an error (`failed`: `err`
is assigned, not tested yet); `ended`: the test is done. -/
inductive Server
  | unstarted | serving | failed | ended
  deriving DecidableEq, Repr

/-- How far `start` is: before :58, between the assignment and the test at :64, and beyond. -/
inductive Starter
  | listening | registered | started
  deriving DecidableEq, Repr

structure Startup where
  err : Bool
  main : Starter
  grpc : Server
  http : Server
  /-- `logger.Fatal` ended the process. -/
  dead : Bool
  deriving DecidableEq, Repr

/-- After :54: `err` is nil, the gRPC server runs. -/
def Startup.init : Startup := ⟨false, .listening, .serving, .unstarted, false⟩

/-- One step of one of the three. -/
inductive StartStep
  /-- :58-63, with its result. -/
  | register (fails : Bool)
  /-- :64-67. -/
  | testRegister
  /-- :51: `Serve` returns an error. -/
  | grpcFails
  /-- :51-53. -/
  | grpcTest
  /-- :68: `ListenAndServe` returns, which it does with an error only. -/
  | httpFails
  /-- :68-70. -/
  | httpTest
  deriving DecidableEq, Repr

/-- `none`: the step is not possible. -/
def Startup.step (s : Startup) (l : StartStep) : Option Startup :=
  if s.dead then none else
  match l with
  | .register fails => if s.main = .listening then some { s with err := fails, main := .registered } else none
  | .testRegister =>
    if s.main = .registered then
      if s.err then some { s with dead := true } else some { s with main := .started, http := .serving }
    else none
  | .grpcFails => if s.grpc = .serving then some { s with err := true, grpc := .failed } else none
  | .grpcTest =>
    if s.grpc = .failed then
      if s.err then some { s with dead := true } else some { s with grpc := .ended }
    else none
  | .httpFails => if s.http = .serving then some { s with err := true, http := .failed } else none
  | .httpTest =>
    if s.http = .failed then
      if s.err then some { s with dead := true } else some { s with http := .ended }
    else none

def Startup.run (s : Startup) : List StartStep → Option Startup
  | [] => some s
  | l :: ls => (s.step l).bind (·.run ls)

end OM.Conf
