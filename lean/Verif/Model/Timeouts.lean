import Verif.Model.Config
/-!
# Timeouts

How configured times become Go's `Duration`, an int64 of nanoseconds: core/main.go:170, :507, :859,
replicatedticketcache.go:91, :160, memory/main.go:54, and core/internal/statestore/redis/redis.go:43-93,
the connections to Redis.  `time.ParseDuration` (Go 1.21), cast 1.6.0 `ToDurationE` and what redigo and net
do with a timeout are modelled from general knowledge of them; their source is not in /repo.
-/
namespace OM.Conf

/-! ## Numbers of seconds and milliseconds -/

/-- `time.Millisecond * time.Duration(n)`. -/
def goMillis (n : Int) : Int := wrap64 (n * 1000000)

/-- core/main.go:507. -/
def mmfTimeout (env : GoMap Str) : Int := goSecs (getInt env "OM_MMF_TIMEOUT_SECS".toList)

/-- core/main.go:562 `context.WithTimeout`: is the context still open after `took`?  (With a time that is not
positive it is closed from the start.) -/
def mmfMayRun (env : GoMap Str) (took : Nat) : Bool := decide ((took : Int) < mmfTimeout env)

/-- replicatedticketcache.go:91. -/
def outWait (env : GoMap Str) : Int := goMillis (getInt env "OM_CACHE_OUT_WAIT_TIMEOUT_MS".toList)

/-- replicatedticketcache.go:160, memory/main.go:54. -/
def inWait (env : GoMap Str) : Int := goMillis (getInt env "OM_CACHE_IN_WAIT_TIMEOUT_MS".toList)

/-- core/main.go:170, :859. -/
def ttlNs (env : GoMap Str) : Int := goSecs (getInt env "OM_CACHE_TICKET_TTL_SECS".toList)

/-! ## Durations as text -/

/-- `unitMap` of time/format.go; the micro sign is U+00B5 or U+03BC. -/
def unitNs (u : Str) : Option Nat :=
  if u = "ns".toList then some 1
  else if u = "us".toList ∨ u = [Char.ofNat 0xB5, 's'] ∨ u = [Char.ofNat 0x3BC, 's'] then some 1000
  else if u = "ms".toList then some 1000000
  else if u = "s".toList then some 1000000000
  else if u = "m".toList then some 60000000000
  else if u = "h".toList then some 3600000000000
  else none

/-- `leadingInt`: the value of the digits, if it is at most 2^63. -/
def leadingInt : Nat → Str → Option Nat
  | x, [] => some x
  | x, c :: cs =>
    if x > 2 ^ 63 / 10 then none
    else
      let x := x * 10 + (c.toNat - 48)
      if x > 2 ^ 63 then none else leadingInt x cs

/-- `leadingFraction`: the value of the digits and how many of them count; digits beyond int64 are left out. -/
def leadingFraction : Nat → Nat → Str → Nat × Nat
  | x, k, [] => (x, k)
  | x, k, c :: cs =>
    if x > (2 ^ 63 - 1) / 10 then (x, k)
    else
      let y := x * 10 + (c.toNat - 48)
      if y > 2 ^ 63 then (x, k) else leadingFraction y (k + 1) cs

/-- The text is at the end of a unit. -/
def unitEnds (c : Char) : Bool := c = '.' || c.isDigit

/-- The loop of `time.ParseDuration`: `d` is the sum so far.  `fr f k u` is
`uint64(float64(f) * (float64(u) / scale))` for a scale of 10^k. -/
def durLoop (fr : Nat → Nat → Nat → Nat) : Nat → Nat → Str → Option Nat
  | 0, _, _ => none
  | _ + 1, d, [] => some d
  | fuel + 1, d, c :: cs =>
    if !unitEnds c then none
    else
      let s := c :: cs
      let ds := s.takeWhile (·.isDigit)
      let r := s.dropWhile (·.isDigit)
      let point := decide (r.head? = some '.')
      let fs := if point then (r.drop 1).takeWhile (·.isDigit) else []
      let r := if point then (r.drop 1).dropWhile (·.isDigit) else r
      match leadingInt 0 ds with
      | none => none
      | some v =>
        if ds = [] ∧ fs = [] then none
        else
          let u := r.takeWhile (fun c => !unitEnds c)
          let r := r.dropWhile (fun c => !unitEnds c)
          match unitNs u with
          | none => none
          | some unit =>
            if v > 2 ^ 63 / unit then none
            else
              let f := leadingFraction 0 0 fs
              let v := v * unit + (if 0 < f.1 then fr f.1 f.2 unit else 0)
              if v > 2 ^ 63 then none
              else
                let d := (d + v) % 2 ^ 64
                if d > 2 ^ 63 then none else durLoop fr fuel d r

/-- `time.ParseDuration`. -/
def parseDuration (fr : Nat → Nat → Nat → Nat) (s : Str) : Option Int :=
  let neg := decide (s.head? = some '-')
  let r := if s.head? = some '-' ∨ s.head? = some '+' then s.drop 1 else s
  if r = ['0'] then some 0
  else if r = [] then none
  else
    match durLoop fr (r.length + 1) 0 r with
    | none => none
    | some d => if neg then some (-d) else if d > 2 ^ 63 - 1 then none else some d

/-- cast's `ToDuration`: text without a letter of a unit is taken for nanoseconds; 0 on error. -/
def toDuration (fr : Nat → Nat → Nat → Nat) : Option Val → Int
  | some (.int n) => n
  | some (.str s) =>
    if s.any fun c => decide (c ∈ ['n', 's', 'u', Char.ofNat 0xB5, 'm', 'h']) then (parseDuration fr s).getD 0
    else (parseDuration fr (s ++ "ns".toList)).getD 0
  | _ => 0

/-- redis.go:47, :63, :64, :71, :87, :88: the setting is the idle timeout of both pools, and also the time for
making a connection and for every reply. -/
def redisTimeout (fr : Nat → Nat → Nat → Nat) (env : GoMap Str) : Int :=
  toDuration fr (get env "OM_REDIS_POOL_IDLE_TIMEOUT".toList)

/-! ## Redis with a timeout -/

/-- Is something that takes `took` nanoseconds done in time?  0 means no limit; a negative limit has passed. -/
def inTime (limit : Int) (took : Nat) : Bool := decide (limit = 0) || decide ((took : Int) < limit)

/-- redis.go:108, :169-194: a batch, where making a connection takes `connect` and the answer `reply`.  If there
is no connection nothing is sent; if the answer is late, the commands have been executed. -/
def timedSend (limit : Int) (connect reply : Nat) (us : List StateUpdate) (net : SendEnv) : SendEnv :=
  if !inTime limit connect then { net with lost := some 0 }
  else if !inTime limit reply then { net with lost := some (net.lost.getD ((redisCmds us).length + 1)) }
  else net

/-- redis.go:255-308: a poll likewise; on an error nothing is read. -/
def timedPoll (fr : Nat → Nat → Nat → Nat) (env : GoMap Str) (connect reply : Nat) (s : Stream) (replId : RId) :
    Go (List StateUpdate × RId) :=
  if inTime (redisTimeout fr env) connect && inTime (redisTimeout fr env) reply then configuredPoll env s replId
  else some ([], replId)

end OM.Conf
