import Verif.Model.Config
/-!
# What om-core and Redis say to each other, byte by byte

redis.go:58-66, :82-90 (dialling), :108-225 (`SendUpdates`) and :241-308 (`GetUpdates`): the bytes that
redigo 1.9.2 writes (`writeCommand`) and reads (`readReply`, `Do`), and how Redis takes commands out of
them (`processMultibulkBuffer`) and executes AUTH, XADD, XTRIM and XREAD; RESP2 throughout.  Neither's
source is in /repo: both are modelled from general knowledge of them.  Left out: Redis' inline commands
(here: the connection is closed), commands, options and notations that om-core does not use (here:
refused), overflow of the lengths in replies, TLS.
-/
namespace OM.Resp

def crlf : Str := ['\r', '\n']

/-! ## Commands -/

/-- redigo `writeString`. -/
def bulk (s : Str) : Str := '$' :: fmtNat s.length ++ crlf ++ s ++ crlf

/-- redigo `writeCommand`, for a command with its name as the first argument. -/
def command (args : List Str) : Str := '*' :: fmtNat args.length ++ crlf ++ args.flatMap bulk

/-- `more`: not all of it has arrived.  `bad`: Redis closes the connection. -/
inductive Got (α : Type) where
  | more
  | bad
  | ok (a : α) (rest : Str)

/-- What comes before the first carriage return, and what follows the byte after it. -/
def line : Str → Option (Str × Str)
  | [] => none
  | [_] => none
  | c :: d :: s => if c = '\r' then some ([], s) else (line (d :: s)).map fun p => (c :: p.1, p.2)

/-- proto-max-bulk-len. -/
def maxBulk : Nat := 536870912

/-- An argument.  (The two bytes after it are not looked at.) -/
def readBulk (s : Str) : Got Str :=
  match line s with
  | none => .more
  | some ('$' :: h, r) =>
    match Conf.redisInt h with
    | none => .bad
    | some n =>
      if n < 0 ∨ n > maxBulk then .bad
      else if r.length < n.toNat + 2 then .more
      else .ok (r.take n.toNat) (r.drop (n.toNat + 2))
  | some _ => .bad

def readBulks : Nat → Str → Got (List Str)
  | 0, s => .ok [] s
  | n + 1, s =>
    match readBulk s with
    | .more => .more
    | .bad => .bad
    | .ok a r =>
      match readBulks n r with
      | .more => .more
      | .bad => .bad
      | .ok as r => .ok (a :: as) r

/-- One command. -/
def readCmd (s : Str) : Got (List Str) :=
  match s with
  | [] => .more
  | c :: _ =>
    if c = '*' then
      match line s with
      | none => .more
      | some (h, r) =>
        match Conf.redisInt (h.drop 1) with
        | none => .bad
        | some n => if n > 2147483647 then .bad else readBulks n.toNat r
    else .bad

/-- The commands in the bytes that have arrived; commands without a name are skipped.  The bound is the
number of bytes. -/
def cmdsF : Nat → Str → List (List Str)
  | 0, _ => []
  | n + 1, s =>
    match readCmd s with
    | .ok [] r => cmdsF n r
    | .ok a r => a :: cmdsF n r
    | _ => []

def cmdsOf (s : Str) : List (List Str) := cmdsF s.length s

/-! ## Replies -/

/-- `status`: a simple string; `nil`: a null array. -/
inductive Rep where
  | status (s : Str)
  | str (s : Str)
  | err (e : Str)
  | int (n : Int)
  | nil
  | arr (l : List Rep)

mutual
/-- What Redis sends. -/
def encode : Rep → Str
  | .status s => '+' :: s ++ crlf
  | .str s => bulk s
  | .err e => '-' :: e ++ crlf
  | .int n => ':' :: fmtInt n ++ crlf
  | .nil => '*' :: '-' :: '1' :: crlf
  | .arr l => '*' :: fmtNat l.length ++ crlf ++ encodes l
def encodes : List Rep → Str
  | [] => []
  | r :: rs => encode r ++ encodes rs
end

/-- redigo `readLine`; `none`: an error (the end of the data, or a line that does not end in "\r\n"). -/
def readLine (s : Str) : Option (Str × Str) :=
  let a := s.takeWhile (· ≠ '\n')
  match s.dropWhile (· ≠ '\n') with
  | [] => none
  | _ :: r => if a.getLast? = some '\r' then some (a.dropLast, r) else none

/-- redigo `parseLen`. -/
def parseLen (p : Str) : Option Int :=
  if p = [] then none
  else if p = ['-', '1'] then some (-1)
  else if p.all (·.isDigit) then some (Nat.ofDigitChars 10 p 0)
  else none

/-- redigo `parseInt`. -/
def parseInt (p : Str) : Option Int :=
  match p with
  | [] => none
  | '-' :: q => if q ≠ [] ∧ q.all (·.isDigit) then some (-(Nat.ofDigitChars 10 q 0 : Int)) else none
  | q => if q.all (·.isDigit) then some (Nat.ofDigitChars 10 q 0) else none

/-- `n` things one after the other. -/
def times {α : Type} (rd : Str → Option (α × Str)) : Nat → Str → Option (List α × Str)
  | 0, s => some ([], s)
  | n + 1, s => (rd s).bind fun p => (times rd n p.2).map fun q => (p.1 :: q.1, q.2)

/-- redigo `readReply`; the bound is on the depth of arrays.  `none`: an error, which closes the connection. -/
def readRep : Nat → Str → Option (Rep × Str)
  | 0, _ => none
  | f + 1, s =>
    (readLine s).bind fun (l, r) =>
      match l with
      | [] => none
      | c :: t =>
        if c = '+' then some (.status t, r)
        else if c = '-' then some (.err t, r)
        else if c = ':' then (parseInt t).map fun n => (.int n, r)
        else if c = '$' then
          (parseLen t).bind fun n =>
            if n < 0 then some (.nil, r)
            else if r.length < n.toNat then none
            else (readLine (r.drop n.toNat)).bind fun (l, r') => if l = [] then some (.str (r.take n.toNat), r') else none
        else if c = '*' then
          (parseLen t).bind fun n =>
            if n < 0 then some (.nil, r)
            else (times (readRep f) n.toNat r).map fun p => (.arr p.1, p.2)
        else none

/-- The replies to `n` commands; what comes after them is not read. -/
def replies (n : Nat) (s : Str) : Option (List Rep) := (times (readRep (s.length + 1)) n s).map (·.1)

/-! ## Redis -/

/-- redis.go:116, :182, :249. -/
def key : Str := "om-replication".toList

/-- A number of a stream id. -/
def u64 (s : Str) : Option Nat :=
  let v := Nat.ofDigitChars 10 s 0
  if fmtNat v = s ∧ v < 2 ^ 64 then some v else none

/-- A stream id; without a dash the second number is 0. -/
def parseId (s : Str) : Option RId :=
  match s.dropWhile (· ≠ '-') with
  | [] => (u64 s).map fun a => (a, 0)
  | _ :: b => (u64 (s.takeWhile (· ≠ '-'))).bind fun a => (u64 b).map fun b => (a, b)

def badId : Str := "ERR Invalid stream ID specified as stream command argument".toList
def notAnInt : Str := "ERR value is not an integer or out of range".toList
def badArgs : Str := "ERR wrong number of arguments".toList
def unsupported : Str := "ERR unknown command".toList

/-- XADD with its arguments. -/
def xadd (s : Stream) (nowMs : Nat) : List Str → Stream × Rep
  | k :: id :: fields =>
    if k ≠ key ∨ id ≠ ['*'] then (s, .err unsupported)
    else if fields = [] ∨ fields.length % 2 = 1 then (s, .err badArgs)
    else (s.xadd nowMs fields, .str (nextId s.last nowMs).fmt)
  | _ => (s, .err badArgs)

/-- XTRIM with its arguments. -/
def xtrim (s : Stream) (args : List Str) : Stream × Rep :=
  match args with
  | [k, how, thr] =>
    if k ≠ key ∨ how ≠ "MINID".toList then (s, .err unsupported)
    else
      match parseId thr with
      | none => (s, .err badId)
      | some i =>
        let s' : Stream := { s with entries := s.entries.filter fun e => decide (¬ RId.lt e.1 i) }
        (s', .int ((s.entries.length : Int) - s'.entries.length))
  | _ => (s, .err badArgs)

/-- The reply to XREAD: nothing new is a null array (after BLOCK milliseconds; 0: an update comes first). -/
def entriesRep (es : List (RId × List Str)) : Rep :=
  if es = [] then .nil
  else .arr [.arr [.str key, .arr (es.map fun e => .arr [.str e.1.fmt, .arr (e.2.map .str)])]]

/-- XREAD with its arguments. -/
def xread (s : Stream) (args : List Str) : Rep :=
  match args with
  | [a, count, b, block, c, k, id] =>
    if a ≠ "COUNT".toList ∨ b ≠ "BLOCK".toList ∨ c ≠ "STREAMS".toList ∨ k ≠ key then .err unsupported
    else
      match Conf.redisInt count, Conf.redisInt block with
      | some n, some t =>
        if t < 0 then .err "ERR timeout is negative".toList
        else
          match parseId id with
          | none => .err badId
          | some i => entriesRep (s.xread n.toNat i)
      | _, _ => .err notAnInt
  | _ => .err badArgs

/-- A command. -/
def exec (s : Stream) (nowMs : Nat) : List Str → Stream × Rep
  | [] => (s, .err badArgs)
  | c :: args =>
    if c = "XADD".toList then xadd s nowMs args
    else if c = "XTRIM".toList then xtrim s args
    else if c = "XREAD".toList then (s, xread s args)
    else (s, .err unsupported)

/-- The commands in order, each with Redis' clock or the error it is refused with. -/
def execs : Stream → List (List Str) → List CmdEnv → Stream × List Rep
  | s, a :: as, e :: es =>
    match e.fail with
    | some m => let r := execs s as es; (r.1, .err m :: r.2)
    | none =>
      let p := exec s e.nowMs a
      let r := execs p.1 as es
      (r.1, p.2 :: r.2)
  | s, _, _ => (s, [])

/-! ## A connection -/

/-- How much gets through before the connection breaks: bytes of the commands, bytes of the replies. -/
structure Cut where
  sent : Nat
  back : Nat

/-- Commands are written and their replies are read; `none`: an error. -/
def exchange (s : Stream) (cmds : List (List Str)) (es : List CmdEnv) (c : Cut) : Stream × Option (List Rep) :=
  let r := execs s (cmdsOf ((cmds.flatMap command).take c.sent)) es
  (r.1, replies cmds.length ((encodes r.2).take c.back))

/-- redigo `Dial` with DialUsername and DialPassword (redis.go:61-62, :85-86). -/
def authCmds (user password : Str) : List (List Str) :=
  if password = [] then []
  else if user = [] then [["AUTH".toList, password]]
  else [["AUTH".toList, user, password]]

/-- Redis' users: `none` if the name and the password are right, else the text of the refusal. -/
abbrev Acl := Str → Str → Option Str

/-- AUTH.  Without a name it is about the user "default". -/
def login (acl : Acl) : List Str → Rep
  | [c, p] => if c ≠ "AUTH".toList then .err unsupported else ((acl "default".toList p).map .err).getD (.status "OK".toList)
  | [c, u, p] => if c ≠ "AUTH".toList then .err unsupported else ((acl u p).map .err).getD (.status "OK".toList)
  | _ => .err badArgs

def Rep.isErr : Rep → Bool
  | .err _ => true
  | _ => false

/-- A new connection.  (Every call of redis.go makes one: none is ever given back, C35.) -/
def dial (user password : Str) (acl : Acl) (c : Cut) : Bool :=
  let cmds := authCmds user password
  match replies cmds.length ((encodes ((cmdsOf ((cmds.flatMap command).take c.sent)).map (login acl))).take c.back) with
  | none => false
  | some rs => !rs.any Rep.isErr

/-- What happens to a connection: its start and what is said on it. -/
structure Net where
  acl : Acl
  authCut : Cut
  cmds : List CmdEnv
  cut : Cut

/-! ## SendUpdates -/

/-- redis.go:109, :115-116, :173. -/
def xaddArgs (fields : List Str) : List Str := "XADD".toList :: key :: ['*'] :: fields

/-- redis.go:180-182. -/
def xtrimArgs (thr : Int) : List Str := ["XTRIM".toList, key, "MINID".toList, fmtInt thr]

/-- redis.go:113-185. -/
def batch (cfg : Config) (nowS : Int) (us : List StateUpdate) : List (List Str) :=
  (redisCmds us).map xaddArgs ++ [xtrimArgs (nowS - cfg.ttl)]

/-- As `redis.String` sees a reply; for an array its error would name another type. -/
def Rep.toReply : Rep → Reply
  | .status s => .str s
  | .str s => .str s
  | .err e => .err e
  | .int n => .int n
  | .nil => .nil
  | .arr _ => .int 0

/-- redis.go:84-90, :101-225; `nowS` is om-core's clock. -/
def send (env : GoMap Str) (cfg : Config) (nowS : Int) (net : Net) (s : Stream) (us : List StateUpdate) :
    Stream × List StateResponse :=
  if dial (Conf.getString env "OM_REDIS_WRITE_USER".toList) (Conf.getString env "OM_REDIS_WRITE_PASSWORD".toList)
      net.acl net.authCut then
    let r := exchange s (batch cfg nowS us) net.cmds net.cut
    (r.1, redisResponses us (r.2.map fun rs => rs.dropLast.map Rep.toReply))
  else (s, redisResponses us none)

/-! ## GetUpdates -/

/-- redis.go:242-251. -/
def xreadCmd (env : GoMap Str) (replId : Str) : List Str :=
  ["XREAD".toList, "COUNT".toList, Conf.getString env "OM_CACHE_IN_MAX_UPDATES_PER_POLL".toList,
    "BLOCK".toList, Conf.getString env "OM_CACHE_IN_WAIT_TIMEOUT_MS".toList, "STREAMS".toList, key, replId]

/-- A type assertion to `[]interface{}`. -/
def Rep.asArr : Rep → Go (List Rep)
  | .arr l => some l
  | _ => none

/-- `redis.String`, with the empty text if it fails (redis.go:271-274). -/
def Rep.text : Rep → Str
  | .str s => s
  | .status s => s
  | _ => []

/-- `redis.Strings` (redis.go:279), whose result is nil if it fails: `y[0]` then panics. -/
def Rep.texts : Rep → Go (List Str)
  | .arr l => l.mapM fun r => match r with | .str s => some s | .status s => some s | _ => none
  | _ => none

/-- redis.go:283-298, as `decodeEntry` with the id as a text; indexing past the end panics. -/
def update (id : Str) (y : List Str) : Go StateUpdate :=
  (y[0]?).bind fun ty =>
    if ty = tyTicket then (y[1]?).map fun v => ⟨.ticket, id, v⟩
    else if ty = tyActivate then (y[1]?).map fun k => ⟨.activate, k, []⟩
    else if ty = tyDeactivate then (y[1]?).map fun k => ⟨.deactivate, k, []⟩
    else if ty = tyAssign then (y[1]?).bind fun k => (y[3]?).map fun v => ⟨.assign, k, v⟩
    else some StateUpdate.zero

/-- redis.go:270-305, one entry: its id and the update. -/
def entry (v : Rep) : Go (Str × StateUpdate) :=
  v.asArr.bind fun v => (v[0]?).bind fun id => (v[1]?).bind fun y => y.texts.bind fun y =>
    (update id.text y).map fun u => (id.text, u)

/-- redis.go:263-308: the updates and the new `replId`. -/
def take (replId : Str) : Option Rep → Go (List StateUpdate × Str)
  | some (.arr l) =>
    (l[0]?).bind fun a => a.asArr.bind fun a => (a[1]?).bind fun a => a.asArr.bind fun a =>
      (a.mapM entry).map fun es => (es.map (·.2), (es.getLast?.map (·.1)).getD replId)
  | _ => some ([], replId)

/-- redis.go:58-66, :232-309. -/
def poll (env : GoMap Str) (net : Net) (s : Stream) (replId : Str) : Go (List StateUpdate × Str) :=
  if dial (Conf.getString env "OM_REDIS_READ_USER".toList) (Conf.getString env "OM_REDIS_READ_PASSWORD".toList)
      net.acl net.authCut then
    take replId ((exchange s [xreadCmd env replId] net.cmds net.cut).2.bind fun rs => rs[0]?)
  else take replId none

end OM.Resp
