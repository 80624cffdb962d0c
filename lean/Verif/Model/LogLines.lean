import Verif.Model.Config
import Verif.Model.Logging
import Verif.Model.Errors
/-!
# The log

What om-core writes to its log: the lines that logrus 1.9.3 makes of a record with the formatters
that core/internal/logging/logging.go:38-46 chooses (`JSONFormatter`, `TextFormatter` on a terminal and
elsewhere), the lines that reading the configuration writes (core/internal/config/config.go:125-136)
and those of `CreateTicket`.  logrus, encoding/json and strconv are not part of the repository and are
modelled from their documented behaviour.  Left out: the stackdriver formatter, and the other lines.
-/
namespace OM.LogL

/-- A record: `logrus.Entry`.  All fields that om-core gives (`WithFields`) are strings; the names are
those of `fieldNames`, each at most once (a Go map), so none clashes with logrus' own. -/
structure Record where
  level : Log.Level
  /-- the time, as formatted -/
  time : Str
  msg : Str
  fields : GoMap Str

/-- core/main.go:67-71, :145-148, :231-234, :253-255, :376-380, :490-492, :540-543, :678-680, :734-737,
:806-809, :877-879; redis.go:25-29, :102-105, :233-236; replicatedticketcache.go:25-28, :75-79, :136-140,
:270-274; memory/main.go:14-18, :49-51, :76-78; config.go:127-130; filter.go:26-29; core/metrics.go:46-50. -/
def fieldNames : List Str :=
  ["app".toList, "component".toList, "implementation".toList, "stage".toList, "rpc".toList, "new_state".toList,
   "profile_name".toList, "match_id".toList, "mmf_name".toList, "mmf_addr".toList, "replicator".toList,
   "direction".toList, "operation".toList]

/-- `Level.String`. -/
def levelName : Log.Level → Str
  | .panic => "panic".toList
  | .fatal => "fatal".toList
  | .error => "error".toList
  | .warn => "warning".toList
  | .info => "info".toList
  | .debug => "debug".toList
  | .trace => "trace".toList

/-- The numbers of the levels. -/
def rank : Log.Level → Nat
  | .panic => 0
  | .fatal => 1
  | .error => 2
  | .warn => 3
  | .info => 4
  | .debug => 5
  | .trace => 6

/-- `IsLevelEnabled`: what is written at all. -/
def printed (level : Log.Level) (rs : List Record) : List Record := rs.filter fun r => decide (rank r.level ≤ rank level)

/-! ## Sorting by name -/

def leStr : Str → Str → Bool
  | [], _ => true
  | _ :: _, [] => false
  | a :: s, b :: t => if a.toNat < b.toNat then true else if b.toNat < a.toNat then false else leStr s t

def insertKey (x : Str × Str) : List (Str × Str) → List (Str × Str)
  | [] => [x]
  | y :: l => if leStr x.1 y.1 then x :: y :: l else y :: insertKey x l

def sortKeys (l : List (Str × Str)) : List (Str × Str) := l.foldr insertKey []

/-! ## `JSONFormatter` -/

/-- encoding/json puts U+FFFD in the place of every byte that is not part of a character; the bound is
the number of bytes. -/
def repairF : Nat → Str → Str
  | 0, _ => []
  | _, [] => []
  | n + 1, c :: s =>
    match Err.runeSize (c :: s) with
    | none => Err.runeError ++ repairF n s
    | some k => (c :: s).take k ++ repairF n ((c :: s).drop k)

def repair (s : Str) : Str := repairF s.length s

/-- The map that is encoded: `msg`, `level`, `time` and the fields. -/
def values (r : Record) : List (Str × Str) :=
  r.fields ++ [("level".toList, levelName r.level), ("msg".toList, r.msg), ("time".toList, r.time)]

/-- `JSONFormatter.Format`: `Encode` sorts by name and ends the text with a newline.  (Go 1.21 writes
U+0008, U+000C and U+FFFD as `\u…`, here as `\b`, `\f` and themselves.) -/
def jsonLine (r : Record) : Str :=
  Json.write true [] (.obj ((sortKeys (values r)).map fun x => (x.1, .str (repair x.2)))) ++ ['\n']

/-! ## `TextFormatter` -/

/-- `needsQuoting`, but for the negation. -/
def bare (c : Char) : Bool :=
  decide (97 ≤ c.toNat ∧ c.toNat ≤ 122) || decide (65 ≤ c.toNat ∧ c.toNat ≤ 90) || decide (48 ≤ c.toNat ∧ c.toNat ≤ 57) ||
    decide (c ∈ ['-', '.', '_', '/', '@', '^', '+'])

/-- The number of a character, from its bytes. -/
def runeVal : Str → Nat
  | [a] => a.toNat
  | [a, b] => (a.toNat - 0xC0) * 64 + (b.toNat - 0x80)
  | [a, b, c] => (a.toNat - 0xE0) * 4096 + (b.toNat - 0x80) * 64 + (c.toNat - 0x80)
  | [a, b, c, d] => (a.toNat - 0xF0) * 262144 + (b.toNat - 0x80) * 4096 + (c.toNat - 0x80) * 64 + (d.toNat - 0x80)
  | _ => 0

/-- `n` hexadecimal digits. -/
def hexPad : Nat → Nat → Str
  | 0, _ => []
  | n + 1, v => hexPad n (v / 16) ++ [Json.hexDigit (v % 16)]

/-- `appendEscapedRune` of strconv, for the character with the bytes `bs`; `pr` is `strconv.IsPrint`. -/
def quoteRune (pr : Nat → Bool) (bs : Str) : Str :=
  let v := runeVal bs
  if v = 34 ∨ v = 92 then '\\' :: bs
  else if pr v then bs
  else if v = 7 then ['\\', 'a']
  else if v = 8 then ['\\', 'b']
  else if v = 12 then ['\\', 'f']
  else if v = 10 then ['\\', 'n']
  else if v = 13 then ['\\', 'r']
  else if v = 9 then ['\\', 't']
  else if v = 11 then ['\\', 'v']
  else if v < 32 ∨ v = 127 then '\\' :: 'x' :: hexPad 2 v
  else if v < 0x10000 then '\\' :: 'u' :: hexPad 4 v
  else '\\' :: 'U' :: hexPad 8 v

/-- `strconv.Quote` between the quotation marks; the bound is the number of bytes. -/
def quoteF (pr : Nat → Bool) : Nat → Str → Str
  | 0, _ => []
  | _, [] => []
  | n + 1, c :: s =>
    match Err.runeSize (c :: s) with
    | none => '\\' :: 'x' :: hexPad 2 c.toNat ++ quoteF pr n s
    | some k => quoteRune pr ((c :: s).take k) ++ quoteF pr n ((c :: s).drop k)

/-- `appendValue`. -/
def textValue (pr : Nat → Bool) (s : Str) : Str :=
  if s.all bare then s else '"' :: quoteF pr s.length s ++ ['"']

def textPair (pr : Nat → Bool) (x : Str × Str) : Str := x.1 ++ '=' :: textValue pr x.2

/-- `TextFormatter.Format` where the output is no terminal: time, level, message unless it is empty, and
the fields by name. -/
def textValues (r : Record) : List (Str × Str) :=
  [("time".toList, r.time), ("level".toList, levelName r.level)] ++ (if r.msg = [] then [] else [("msg".toList, r.msg)]) ++
    sortKeys r.fields

def spaced : List Str → Str
  | [] => []
  | [t] => t
  | t :: l => t ++ ' ' :: spaced l

def textLine (pr : Nat → Bool) (r : Record) : Str := spaced ((textValues r).map (textPair pr)) ++ ['\n']

/-- `printColored`. -/
def color : Log.Level → Str
  | .debug => "37".toList
  | .trace => "37".toList
  | .warn => "33".toList
  | .info => "36".toList
  | _ => "31".toList

def runeCountF : Nat → Str → Nat
  | 0, _ => 0
  | _, [] => 0
  | n + 1, c :: s => 1 + runeCountF n ((c :: s).drop ((Err.runeSize (c :: s)).getD 1))

/-- `strings.TrimSuffix(entry.Message, "\n")`. -/
def trimNewline (s : Str) : Str := if s.getLast? = some '\n' then s.dropLast else s

/-- `%-44s`. -/
def pad44 (s : Str) : Str := s ++ List.replicate (44 - runeCountF s.length s) ' '

def esc (code : Str) : Str := Char.ofNat 27 :: '[' :: code ++ ['m']

/-- `TextFormatter.Format` where the output is a terminal: the level in colour, the seconds since the
start, the message as it is, and the fields by name. -/
def terminalLine (pr : Nat → Bool) (secs : Nat) (r : Record) : Str :=
  esc (color r.level) ++ (Log.upperAscii (levelName r.level)).take 4 ++ esc ['0'] ++
    '[' :: (List.replicate (4 - (fmtNat secs).length) '0' ++ fmtNat secs) ++ ']' :: ' ' :: pad44 (trimNewline r.msg) ++ [' '] ++
    (sortKeys r.fields).flatMap (fun x => ' ' :: esc (color r.level) ++ x.1 ++ esc ['0'] ++ '=' :: textValue pr x.2) ++ ['\n']

/-- How records are written. -/
inductive Style where
  | json
  | text
  /-- text, with the output on a terminal; for each record the seconds since the start -/
  | terminal (secs : Nat)

def line (pr : Nat → Bool) : Style → Record → Str
  | .json => jsonLine
  | .text => textLine pr
  | .terminal n => terminalLine pr n

/-- What a sequence of records adds to the log. -/
def log (pr : Nat → Bool) (st : Style) (rs : List Record) : Str := rs.flatMap (line pr st)

/-! ## What reading the configuration writes -/

/-- viper's `AllSettings` (config.go:133): names in lower case, each with the value in effect; `%v` of a
value is its text.  (Without the variables of OpenTelemetry and knative, as in `Model/Config`.) -/
def settings (env : GoMap Str) : List (Str × Str) := Conf.defaults.map fun x => (Log.lowerAscii x.1, Conf.toStr (Conf.get env x.1))

/-- config.go:127-130. -/
def configFields : GoMap Str := [("app".toList, "open_match".toList), ("component".toList, "internal.config".toList)]

def configLevel (env : GoMap Str) : Log.Level := Log.toLevel Log.lowerAscii (Conf.getString env "OM_LOGGING_LEVEL".toList)

/-- config.go:134. -/
def settingText (x : Str × Str) : Str := "  ".toList ++ x.1 ++ ": ".toList ++ x.2

/-- config.go:126-136 and logging.go:33-35; `ss` are the settings in the order in which `range` yields
them, `t` is the time. -/
def configRecords (t : Str) (env : GoMap Str) (ss : List (Str × Str)) : List Record :=
  (if Log.isDebugLevel (configLevel env) then
      [⟨.warn, t, "Trace logging level configured. Not recommended for production!".toList, []⟩]
    else []) ++
  [⟨.debug, t, "configuration:".toList, configFields⟩] ++
  (if Conf.getString env "OM_LOGGING_LEVEL".toList = "debug".toList then
      ss.map fun x => ⟨.debug, t, settingText x, configFields⟩
    else [])

/-- What of it appears. -/
def configLog (t : Str) (env : GoMap Str) (ss : List (Str × Str)) : List Record :=
  printed (configLevel env) (configRecords t env ss)

/-! ## What `CreateTicket` writes -/

/-- core/main.go:67-71, :145-148. -/
def createFields : GoMap Str :=
  [("app".toList, "open_match".toList), ("component".toList, "core".toList), ("stage".toList, "handling".toList),
   ("rpc".toList, "CreateTicket".toList)]

def idText (id : Str) : Str :=
  "CreateTicket request included a ticketid (".toList ++ id ++
    "). Open Match assigns Ticket IDs, so this value will be overwritten. See documentation for more details.".toList

/-- core/main.go:150-180: the records of a call; `now` is the clock.  (What :196 writes when the ticket
cannot be encoded is left out.) -/
def createRecords (t : Str) (cfg : Config) (now : Int) : Option Ticket → List Record
  | none => []
  | some tk =>
    (if tk.id ≠ [] then [⟨.warn, t, idText tk.id, createFields⟩] else []) ++
    (if Timestamp.isValid tk.creationTime then []
      else [⟨.info, t, "CreationTime provided is invalid or nil; replacing with current time".toList, createFields⟩]) ++
    (if !Timestamp.isValid tk.expirationTime ||
        decide (asTime tk.expirationTime > defaultExpiration cfg (storedCreation now tk)) then
      [⟨.debug, t, "ExpirationTime provided is invalid or nil; replacing with current time + OM_CACHE_TICKET_TTL_SECS (".toList ++
        fmtInt cfg.ttl ++ [')'], createFields⟩]
    else [])

end OM.LogL
