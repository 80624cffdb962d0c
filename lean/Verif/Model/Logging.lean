import Verif.Model.Go
/-!
# Logging configuration and RPC statistics

core/internal/logging/logging.go and core/server.go.  `strings.ToLower` is a parameter
`lower`; the properties that need more than determinism say so.
-/
namespace OM.Log

/-- logrus levels, in logrus' order. -/
inductive Level where
  | panic
  | fatal
  | error
  | warn
  | info
  | debug
  | trace
  deriving DecidableEq

inductive Formatter where
  | stackdriver
  | json
  | text
  deriving DecidableEq

/-- logging.go:38-46. -/
def newFormatter (lower : Str → Str) (f : Str) : Formatter :=
  let f := lower f
  if f = "stackdriver".toList then .stackdriver
  else if f = "json".toList then .json
  else .text

/-- logging.go:48-66. -/
def toLevel (lower : Str → Str) (l : Str) : Level :=
  let l := lower l
  if l = "trace".toList then .trace
  else if l = "debug".toList then .debug
  else if l = "warn".toList then .warn
  else if l = "warning".toList then .warn
  else if l = "error".toList then .error
  else if l = "fatal".toList then .fatal
  else if l = "panic".toList then .panic
  else .info

/-- logging.go:78-86. -/
def isDebugLevel : Level → Bool
  | .trace => true
  | .debug => true
  | _ => false

/-- The configuration: viper's defaults (config.go:40-120) overridden by the environment
(config.go:123).  `GetString` of a key that is in neither is empty.  Viper's keys are
case-insensitive; the environment variable of a key is its upper-cased text. -/
def getString (upper : Str → Str) (env defaults : GoMap Str) (key : Str) : Str :=
  match env.load (upper key) with
  | some v => if v = [] then ((defaults.load (upper key)).getD []) else v
  | none => (defaults.load (upper key)).getD []

/-- config.go:40-41 (the other defaults do not matter here). -/
def loggingDefaults : GoMap Str :=
  [("OM_LOGGING_FORMAT".toList, "json".toList), ("OM_LOGGING_LEVEL".toList, "info".toList)]

/-- logging.go:29-36: what gets configured: formatter, level, and whether the warning is
printed. -/
def configureLogging (lower upper : Str → Str) (env : GoMap Str) : Formatter × Level × Bool :=
  let level := toLevel lower (getString upper env loggingDefaults "OM_LOGGING_LEVEL".toList)
  (newFormatter lower (getString upper env loggingDefaults "OM_LOGGING_FORMAT".toList), level, isDebugLevel level)

/-- logging.go:69-71: reads the key "logging.level". -/
def isDebugEnabled (lower upper : Str → Str) (env : GoMap Str) : Bool :=
  isDebugLevel (toLevel lower (getString upper env loggingDefaults "logging.level".toList))

/-- ASCII `strings.ToLower` / `ToUpper`, what the Go functions do on ASCII text. -/
def lowerAscii (s : Str) : Str := s.map Char.toLower
def upperAscii (s : Str) : Str := s.map Char.toUpper

/-! ## RPC statistics, core/server.go:110-143 -/

/-- The events of one RPC that gRPC reports to a `stats.Handler`; only `End` matters. -/
inductive Event where
  | other
  | ended (beginNs endNs : Int) (err : Option Str)
  deriving DecidableEq

/-- What is recorded: the duration in whole microseconds (line 133 divides it by 1000 to
get milliseconds as a float), and the error counter's attribute. -/
inductive Metric where
  | duration (rpc : Str) (micros : Int)
  | error (rpc text : Str)
  deriving DecidableEq

/-- Text after the last '/'. -/
def afterSlash : Str → Str
  | [] => []
  | c :: cs => if '/' ∈ cs then afterSlash cs else if c = '/' then cs else c :: cs

/-- `filepath.Base`: trailing slashes are dropped; empty gives ".", only slashes "/". -/
def base (s : Str) : Str :=
  if s = [] then ['.']
  else
    let t := (s.reverse.dropWhile (· = '/')).reverse
    if t = [] then ['/'] else afterSlash t

/-- `Duration.Microseconds()`: truncated division. -/
def micros (beginNs endNs : Int) : Int := (endNs - beginNs).tdiv 1000

/-- core/server.go:110-143; `tag` is the full method name stored by `TagRPC` (101-103). -/
def handleRPC (tag : Option Str) : Event → List Metric
  | .other => []
  | .ended b e err =>
    let rpc := (tag.map base).getD []
    .duration rpc (micros b e) :: (match err with | some t => [.error rpc t] | none => [])

end OM.Log
