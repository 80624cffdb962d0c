import Verif.Model.Cache
/-!
# The Redis replicator

core/internal/statestore/redis/redis.go, and the parts of Redis streams (XADD with
`*`, XTRIM MINID, XREAD COUNT) and of redigo's pipelining and pooling that it uses.
-/
namespace OM

/-- A Redis stream entry id `<ms>-<seq>`. -/
abbrev RId := Nat × Nat

def RId.lt (a b : RId) : Prop := a.1 < b.1 ∨ (a.1 = b.1 ∧ a.2 < b.2)
instance (a b : RId) : Decidable (RId.lt a b) := inferInstanceAs (Decidable (_ ∨ _))

/-- The text of an id. -/
def RId.fmt (i : RId) : Str := fmtReplId (i.1 : Int) i.2

/-- The stream `om-replication`: its entries in order (each a flat field list) and the
last id generated, which survives trimming. -/
structure Stream where
  entries : List (RId × List Str)
  last : RId
  deriving DecidableEq, Repr

def Stream.empty : Stream := ⟨[], (0, 0)⟩

/-- Redis `XADD key *`: the id is the server's millisecond clock, or the last id's
successor when the clock has not advanced past it. -/
def nextId (last : RId) (nowMs : Nat) : RId :=
  if nowMs > last.1 then (nowMs, 0) else (last.1, last.2 + 1)

def Stream.xadd (s : Stream) (nowMs : Nat) (fields : List Str) : Stream :=
  ⟨s.entries ++ [(nextId s.last nowMs, fields)], nextId s.last nowMs⟩

/-- Redis `XTRIM key MINID thr`: evict entries with ids lower than `thr-0`. -/
def Stream.xtrim (s : Stream) (thr : Nat) : Stream :=
  { s with entries := s.entries.filter fun e => decide (thr ≤ e.1.1) }

/-- Replies as redigo hands them over. -/
inductive Reply where
  | str (s : Str)
  | err (e : Str)
  | int (n : Int)
  | nil
  deriving DecidableEq, Repr

/-! ## SendUpdates (redis.go:101-225) -/

/-- Field names of stream entries (redis.go:121-169, :277-299). -/
def tyTicket : Str := "ticket".toList
def tyActivate : Str := "activate".toList
def tyDeactivate : Str := "deactivate".toList
def tyAssign : Str := "assign".toList
def tyConnection : Str := "connection".toList

/-- redis.go:113-168: validation error, or the fields after `om-replication *`. -/
def redisFields (u : StateUpdate) : Except Str (List Str) :=
  match u.cmd with
  | .ticket => if u.value = [] then .error "No ticket data".toList else .ok [tyTicket, u.value]
  | .activate => if u.key = [] then .error "Missing ticket key".toList else .ok [tyActivate, u.key]
  | .deactivate => if u.key = [] then .error "Missing ticket key".toList else .ok [tyDeactivate, u.key]
  | .assign =>
    if u.key = [] then .error "Missing ticket key".toList
    else if u.value = [] then .error "Missing assignment".toList
    else .ok [tyAssign, u.key, tyConnection, u.value]
  | .other _ => .error "Invalid input".toList

/-- The update passes the checks of :117-168 and is sent. -/
def redisValid (u : StateUpdate) : Bool := match redisFields u with | .ok _ => true | .error _ => false

/-- redis.go:113-177: the XADD commands sent, in order (invalid updates `continue`). -/
def redisCmds (us : List StateUpdate) : List (List Str) :=
  us.filterMap fun u => match redisFields u with | .ok f => some f | .error _ => none

/-- How the server treats one command: its clock and, possibly, an error reply. -/
structure CmdEnv where
  nowMs : Nat
  fail : Option Str
  deriving DecidableEq, Repr

/-- Redis executing pipelined XADDs. -/
def execCmds : Stream → List (List Str) → List CmdEnv → Stream × List Reply
  | s, f :: fs, e :: es =>
    match e.fail with
    | some m => let r := execCmds s fs es; (r.1, .err m :: r.2)
    | none =>
      let r := execCmds (s.xadd e.nowMs f) fs es
      (r.1, .str (nextId s.last e.nowMs).fmt :: r.2)
  | s, _, _ => (s, [])

/-- redis.go:180-185 and Redis: the trim that ends every batch; a negative threshold or
a failing command is an error reply without effect. -/
def execTrim (cfg : Config) (nowS : Int) (fail : Option Str) (s : Stream) : Stream × Reply :=
  match fail with
  | some m => (s, .err m)
  | none =>
    if nowS - cfg.ttl < 0 then (s, .err "ERR Invalid stream ID specified as stream command argument".toList)
    else
      let s' := s.xtrim (nowS - cfg.ttl).toNat
      (s', .int ((s.entries.length : Int) - s'.entries.length))

/-- redis.go:118-177: the response before any reply is read. -/
def initialResponse (u : StateUpdate) : StateResponse :=
  match redisFields u with
  | .ok _ => ⟨[], none⟩
  | .error e => ⟨[], some e⟩

/-- redigo `redis.String`. -/
def redisString : Reply → Except Str Str
  | .str s => .ok s
  | .err e => .error e
  | .int _ => .error "redigo: unexpected type for String, got type int64".toList
  | .nil => .error "redigo: nil returned".toList

/-- redis.go:195-213, for one index within the replies. -/
def respond (u : StateUpdate) (r : Reply) : StateResponse :=
  match redisFields u with
  | .ok _ =>
    match redisString r with
    | .ok t => ⟨t, none⟩
    | .error e => ⟨[], some ("Redis output string conversion error: ".toList ++ e)⟩
  | .error e => ⟨u.key, some e⟩

/-- redis.go:194-213: `index` runs over the replies but the last; reply `index` is
paired with *update* `index`, although invalid updates got no reply. -/
def respLoop : List StateUpdate → List Reply → List StateResponse
  | [], _ => []
  | u :: us, [] => initialResponse u :: respLoop us []
  | u :: us, r :: rs => respond u r :: respLoop us rs

/-- redis.go:188-213: `replies` is what `rConn.Do("")` returned for the XADDs; `none`
is a nil reply (the connection could not be made or was lost). -/
def redisResponses (us : List StateUpdate) (replies : Option (List Reply)) : List StateResponse :=
  match replies with
  | none => us.map initialResponse
  | some rs => respLoop us rs

/-- What happens to one batch.  `lost = some k`: the connection fails after the server
executed `k` of the commands and no reply arrives. -/
structure SendEnv where
  cmds : List CmdEnv
  nowS : Int
  trimFail : Option Str
  lost : Option Nat
  deriving DecidableEq, Repr

/-- Redis executes the first `k` commands of the pipeline; the trim is the last one. -/
def execPart (cfg : Config) (env : SendEnv) (s : Stream) (us : List StateUpdate) (k : Nat) : Stream :=
  let r := (execCmds s ((redisCmds us).take k) env.cmds).1
  if (redisCmds us).length < k then (execTrim cfg env.nowS env.trimFail r).1 else r

/-- redis.go:101-225 `SendUpdates`, with its effect on the stream. -/
def redisSend (cfg : Config) (env : SendEnv) (s : Stream) (us : List StateUpdate) :
    Stream × List StateResponse :=
  match env.lost with
  | some k => (execPart cfg env s us k, redisResponses us none)
  | none =>
    let r := execCmds s (redisCmds us) env.cmds
    ((execTrim cfg env.nowS env.trimFail r.1).1, redisResponses us (some r.2))

/-! ## GetUpdates (redis.go:232-309) -/

/-- redis.go:277-300; indexing past the end panics. -/
def decodeEntry (e : RId × List Str) : Go StateUpdate :=
  (e.2[0]?).bind fun ty =>
    if ty = tyTicket then (e.2[1]?).map fun v => ⟨.ticket, e.1.fmt, v⟩
    else if ty = tyActivate then (e.2[1]?).map fun k => ⟨.activate, k, []⟩
    else if ty = tyDeactivate then (e.2[1]?).map fun k => ⟨.deactivate, k, []⟩
    else if ty = tyAssign then
      (e.2[1]?).bind fun k => (e.2[3]?).map fun v => ⟨.assign, k, v⟩
    else some StateUpdate.zero

/-- Redis `XREAD COUNT n STREAMS key id`: entries after `id`, at most `n` (0: no limit). -/
def Stream.xread (s : Stream) (n : Nat) (id : RId) : List (RId × List Str) :=
  let l := s.entries.filter fun e => decide (RId.lt id e.1)
  if n = 0 then l else l.take n

/-- redis.go:267-308: `mapM` over the entries; returns the updates and the new `replId`. -/
def pollUpdates (s : Stream) (n : Nat) (replId : RId) : Go (List StateUpdate × RId) :=
  let es := s.xread n replId
  (es.mapM decodeEntry).map fun us => (us, (es.getLast?.map (·.1)).getD replId)

/-- What a read replica (OM_REDIS_READ_HOST, config.go:72-76) that lags behind has of the
stream: the first `k` entries.  Simplification: trimming reaches the replica at once (with
plausible clocks nothing is ever trimmed, C33). -/
def Stream.lagging (s : Stream) (k : Nat) : Stream := { s with entries := s.entries.take k }

/-! ## One reader among writers -/

/-- A reader instance beside any writers: the stream, its `replId`, all it has read. -/
structure RWorld where
  stream : Stream
  replId : RId
  read : List StateUpdate
  deriving DecidableEq

/-- Someone's batch, this reader's poll with some COUNT, its poll of a replica that has only
the first `k` entries, or a poll that failed. -/
inductive REv where
  | send (env : SendEnv) (us : List StateUpdate)
  | poll (count : Nat)
  | pollLag (k count : Nat)
  | pollFail

def rstep (cfg : Config) (w : RWorld) : REv → Go RWorld
  | .send env us => some { w with stream := (redisSend cfg env w.stream us).1 }
  | .poll n => (pollUpdates w.stream n w.replId).map fun p => ⟨w.stream, p.2, w.read ++ p.1⟩
  | .pollLag k n =>
    (pollUpdates (w.stream.lagging k) n w.replId).map fun p => ⟨w.stream, p.2, w.read ++ p.1⟩
  | .pollFail => some w

def rrun (cfg : Config) : RWorld → List REv → Go RWorld
  | w, [] => some w
  | w, e :: es => (rstep cfg w e).bind fun w' => rrun cfg w' es

/-- redis.go:42 `replId: "0-0"`. -/
def RWorld.init : RWorld := ⟨Stream.empty, (0, 0), []⟩

/-! ## Connection pool (redigo, `Wait: true`) -/

/-- `redis.Pool`: connections handed out and not closed, and `MaxActive` (0: no limit). -/
structure ConnPool where
  maxActive : Nat
  active : Nat
  deriving DecidableEq, Repr

/-- `Pool.Get` with `Wait: true`; `none` means it blocks until a connection is closed. -/
def ConnPool.get (p : ConnPool) : Option ConnPool :=
  if p.maxActive = 0 ∨ p.active < p.maxActive then some { p with active := p.active + 1 } else none

/-- redis.go:108 (and :254): each call gets a connection and never closes it. -/
def callsMade (p : ConnPool) : Nat → Option ConnPool
  | 0 => some p
  | n + 1 => (callsMade p n).bind ConnPool.get

end OM
