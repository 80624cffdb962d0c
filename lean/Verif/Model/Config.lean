import Verif.Model.Watch
import Verif.Model.Redis
/-!
# Reading the configuration, and starting

core/internal/config/config.go, core/main.go:97-121 and the places that read a value,
with what viper 1.18.2 (`GetString`, `GetInt`, `GetBool`) and cast 1.6.0 (`ToIntE`,
`ToBoolE`, `ToStringE`) do.  `GetDuration` is in `Timeouts`.  Left out: the
variables of OpenTelemetry and knative.
-/
namespace OM.Conf

/-- A configuration value: environment variables are text, a default has the type it was
given in `SetDefault`. -/
inductive Val where
  | str (s : Str)
  | int (n : Int)
  | bool (b : Bool)
  deriving DecidableEq

/-- config.go:40-120. -/
def defaults : GoMap Val :=
  [ ("OM_LOGGING_FORMAT".toList, .str "json".toList),
    ("OM_LOGGING_LEVEL".toList, .str "info".toList),
    ("OM_MATCH_TICKET_DEACTIVATION_WAIT".toList, .bool false),
    ("OM_MAX_STATE_UPDATES_PER_CALL".toList, .int 500),
    ("OM_MMF_TIMEOUT_SECS".toList, .int 500),
    ("OM_STATE_STORAGE_TYPE".toList, .str "redis".toList),
    ("OM_REDIS_POOL_MAX_IDLE".toList, .int 500),
    ("OM_REDIS_POOL_MAX_ACTIVE".toList, .int 500),
    ("OM_REDIS_POOL_IDLE_TIMEOUT".toList, .int 0),
    ("OM_REDIS_WRITE_HOST".toList, .str "127.0.0.1".toList),
    ("OM_REDIS_WRITE_PORT".toList, .int 6379),
    ("OM_REDIS_WRITE_USER".toList, .str "default".toList),
    ("OM_REDIS_WRITE_PASSWORD".toList, .str "om-redis".toList),
    ("OM_REDIS_READ_HOST".toList, .str "127.0.0.1".toList),
    ("OM_REDIS_READ_PORT".toList, .int 6379),
    ("OM_REDIS_READ_USER".toList, .str "default".toList),
    ("OM_REDIS_READ_PASSWORD".toList, .str "om-redis".toList),
    ("OM_CACHE_IN_MAX_UPDATES_PER_POLL".toList, .int 10000),
    ("OM_CACHE_IN_WAIT_TIMEOUT_MS".toList, .int 1500),
    ("OM_CACHE_OUT_MAX_QUEUE_THRESHOLD".toList, .int 50),
    ("OM_CACHE_OUT_WAIT_TIMEOUT_MS".toList, .int 500),
    ("OM_CACHE_TICKET_TTL_SECS".toList, .int 600),
    ("OM_CACHE_ASSIGNMENT_ADDITIONAL_TTL_SECS".toList, .int 600),
    ("PORT".toList, .int 8080),
    ("OM_VERBOSE".toList, .bool false) ]

/-- viper's `Get` after `AutomaticEnv` (config.go:123): the environment wins over the
default, an empty variable counts as unset.  All keys here are in capitals, so the variable
has the key's name. -/
def get (env : GoMap Str) (key : Str) : Option Val :=
  match env.load key with
  | some (c :: cs) => some (.str (c :: cs))
  | _ => defaults.load key

/-- cast's `trimZeroDecimal`, which drops a trailing ".0", ".00", …, on the reversed text;
`found`: a zero has been seen. -/
def trimRev (whole : Str) (found : Bool) : Str → Str
  | [] => whole
  | c :: cs =>
    if c = '.' then (if found then cs.reverse else trimRev whole found cs)
    else if c = '0' then trimRev whole true cs
    else whole

def trimZeroDecimal (s : Str) : Str := trimRev s false s.reverse

/-- cast's `ToInt`: text is read by `strconv.ParseInt(…, 0, 0)`; on any error the result
is 0.  (`ToInt64`, used at redis.go:180, is the same.) -/
def toInt : Option Val → Int
  | none => 0
  | some (.int n) => n
  | some (.bool b) => if b then 1 else 0
  | some (.str s) =>
    match Watch.parseInt0 (trimZeroDecimal s) with
    | .ok n => n
    | _ => 0

/-- cast's `ToBool`: text by `strconv.ParseBool`, false on error. -/
def toBool : Option Val → Bool
  | none => false
  | some (.bool b) => b
  | some (.int n) => decide (n ≠ 0)
  | some (.str s) =>
    decide (s ∈ ["1".toList, "t".toList, "T".toList, "TRUE".toList, "true".toList, "True".toList])

/-- cast's `ToString`. -/
def toStr : Option Val → Str
  | none => []
  | some (.str s) => s
  | some (.int n) => fmtInt n
  | some (.bool b) => if b then "true".toList else "false".toList

def getInt (env : GoMap Str) (key : Str) : Int := toInt (get env key)
def getBool (env : GoMap Str) (key : Str) : Bool := toBool (get env key)
def getString (env : GoMap Str) (key : Str) : Str := toStr (get env key)

/-- How Redis reads the COUNT and BLOCK arguments of XREAD (`string2ll`): decimal with an
optional minus, no other notation and no leading zeros; `none` is an error reply. -/
def redisInt (s : Str) : Option Int :=
  match parseInt10 s with
  | .ok n => if fmtInt n = s then some n else none
  | _ => none

/-- What XREAD makes of COUNT and BLOCK (redis.go:245, :247): a negative COUNT means no
limit (0), a negative BLOCK is an error.  `none`: the command is refused, and `GetUpdates`
logs that and returns nothing (redis.go:256-258). -/
def xreadArgs (env : GoMap Str) : Option (Nat × Nat) :=
  match redisInt (getString env "OM_CACHE_IN_MAX_UPDATES_PER_POLL".toList),
    redisInt (getString env "OM_CACHE_IN_WAIT_TIMEOUT_MS".toList) with
  | some c, some b => if b < 0 then none else some (c.toNat, b.toNat)
  | _, _ => none

/-- The poll as configured: redis.go:232-308. -/
def configuredPoll (env : GoMap Str) (s : Stream) (replId : RId) : Go (List StateUpdate × RId) :=
  match xreadArgs env with
  | some (n, _) => pollUpdates s n replId
  | none => some ([], replId)

/-- The values the rest of the model takes, as the code reads them: core/main.go:170, :296, :331,
:671, :859; redis.go:180, :245; replicatedticketcache.go:101, :144, :299, :333. -/
def coreConfig (env : GoMap Str) : Config :=
  { ttl := getInt env "OM_CACHE_TICKET_TTL_SECS".toList
    addTtl := getInt env "OM_CACHE_ASSIGNMENT_ADDITIONAL_TTL_SECS".toList
    maxUpdates := getInt env "OM_MAX_STATE_UPDATES_PER_CALL".toList
    outThreshold := getInt env "OM_CACHE_OUT_MAX_QUEUE_THRESHOLD".toList
    inMax := (getInt env "OM_CACHE_IN_MAX_UPDATES_PER_POLL".toList).toNat
    deactWait := getBool env "OM_MATCH_TICKET_DEACTIVATION_WAIT".toList }

/-- redis.go:60, :84: where reads and writes go. -/
def readAddr (env : GoMap Str) : Str :=
  getString env "OM_REDIS_READ_HOST".toList ++ ':' :: getString env "OM_REDIS_READ_PORT".toList
def writeAddr (env : GoMap Str) : Str :=
  getString env "OM_REDIS_WRITE_HOST".toList ++ ':' :: getString env "OM_REDIS_WRITE_PORT".toList

/-- core/server.go:41: where the gRPC server listens. -/
def listenAddr (env : GoMap Str) : Str := ':' :: getString env "PORT".toList

inductive Storage where
  | redis
  | memory
  deriving DecidableEq

/-- core/main.go:102-116: which replicator is installed; any other text leaves `tc.Replicator`
nil. -/
def replicator (env : GoMap Str) : Option Storage :=
  let s := getString env "OM_STATE_STORAGE_TYPE".toList
  if s = "redis".toList then some .redis
  else if s = "memory".toList then some .memory
  else none

/-- core/main.go:118-120: the first actions of the goroutine `IncomingReplicationQueue`.
`make(chan …, n)` (replicatedticketcache.go:144) panics for a negative `n` and for one
beyond `lim`, what the runtime can allocate; the inner goroutine then calls
`tc.Replicator.GetUpdates()` (:149), a nil dereference without a replicator.  A panic in
either ends the process.  Left out: the `Fatalf` for a port that cannot be listened on
(core/server.go:42-44). -/
def start (lim : Int) (env : GoMap Str) : Go Storage :=
  let n := getInt env "OM_CACHE_IN_MAX_UPDATES_PER_POLL".toList
  if n < 0 ∨ lim < n then Go.panic else replicator env

end OM.Conf
