import Verif.Spec.Json
import Verif.Spec.Errors
import Verif.Spec.Config
import Verif.Model.LogLines
/-!
# What a log is

Lines, what a line shows, and which environments differ in nothing but their secrets.
-/
namespace OM.Spec
open OM.LogL (Record)

/-- `out` consists of the lines `ls`. -/
def Lines (out : Str) (ls : List Str) : Prop := out = ls.flatMap (· ++ ['\n']) ∧ ∀ l ∈ ls, '\n' ∉ l

/-- The names of logrus' levels. -/
def LevelName (l : Log.Level) (s : Str) : Prop :=
  (l, s) ∈ [(Log.Level.panic, "panic".toList), (.fatal, "fatal".toList), (.error, "error".toList), (.warn, "warning".toList),
    (.info, "info".toList), (.debug, "debug".toList), (.trace, "trace".toList)]

/-- What a record says, by name. -/
inductive Says1 (r : Record) : Str → Str → Prop
  | level {s : Str} : LevelName r.level s → Says1 r "level".toList s
  | msg : Says1 r "msg".toList r.msg
  | time : Says1 r "time".toList r.time
  | field {k v : Str} : (k, v) ∈ r.fields → Says1 r k v

/-- The line is a JSON object whose members are exactly what the record says, each once; bytes that
are not part of a character are shown as U+FFFD. -/
def ShowsJson (r : Record) (l : Str) : Prop :=
  ∃ ms, JDoc (.obj ms) l ∧ (ms.map (·.1)).Nodup ∧
    (∀ k v, Says1 r k v → ∃ v', Repaired v v' ∧ (k, .str v') ∈ ms) ∧
    ∀ k j, (k, j) ∈ ms → ∃ v v', Says1 r k v ∧ Repaired v v' ∧ j = .str v'

/-- A hexadecimal number. -/
inductive HexNum : Str → Nat → Prop
  | nil : HexNum [] 0
  | snoc {s : Str} {c : Char} {n d : Nat} : HexNum s n → HexDigit c d → HexNum (s ++ [c]) (n * 16 + d)

/-- The letters after a backslash in a Go string, and the characters they stand for. -/
def goEscapes : List (Char × Nat) :=
  [('a', 7), ('b', 8), ('f', 12), ('n', 10), ('r', 13), ('t', 9), ('v', 11), ('"', 34), ('\\', 92)]

/-- `GoLit t s`: `t` between quotation marks is the Go string `s` (The Go Programming Language
Specification, "String literals"). -/
inductive GoLit : Str → Str → Prop
  | nil : GoLit [] []
  | plain {c : Char} {t s : Str} : c ≠ '"' → c ≠ '\\' → c ≠ '\n' → GoLit t s → GoLit (c :: t) (c :: s)
  | short {e : Char} {n : Nat} {t s : Str} : (e, n) ∈ goEscapes → GoLit t s → GoLit ('\\' :: e :: t) (Char.ofNat n :: s)
  | byte {h t s : Str} {b : Char} : h.length = 2 → HexNum h b.toNat → GoLit t s → GoLit ('\\' :: 'x' :: (h ++ t)) (b :: s)
  | rune {h t s : Str} {c : Char} : h.length = 4 → HexNum h c.toNat → GoLit t s → GoLit ('\\' :: 'u' :: (h ++ t)) (charBytes c ++ s)
  | long {h t s : Str} {c : Char} : h.length = 8 → HexNum h c.toNat → GoLit t s → GoLit ('\\' :: 'U' :: (h ++ t)) (charBytes c ++ s)

/-- What `strconv.IsPrint` is assumed to say: control characters are not printable. -/
def Prints (pr : Nat → Bool) : Prop := ∀ n, n < 0x20 → pr n = false

/-- A value in a text line: as it is, if it is a word, or as a Go string. -/
def ShowsValue (v x : Str) : Prop :=
  (x = v ∧ ∀ c ∈ v, c.isAlphanum = true ∨ c ∈ ['-', '.', '_', '/', '@', '^', '+']) ∨ ∃ t, x = '"' :: (t ++ ['"']) ∧ GoLit t v

/-- The pairs of a text line. -/
inductive Pairs : Str → List (Str × Str) → Prop
  | one {k v x : Str} : ShowsValue v x → Pairs (k ++ '=' :: x) [(k, v)]
  | cons {k v x l : Str} {ps : List (Str × Str)} : ShowsValue v x → Pairs l ps → Pairs (k ++ '=' :: (x ++ ' ' :: l)) ((k, v) :: ps)

/-- The line tells the time, the level, the message unless it is empty, and the fields. -/
def ShowsText (r : Record) (l : Str) : Prop :=
  ∃ s fs, LevelName r.level s ∧ fs.Perm r.fields ∧
    Pairs l ([("time".toList, r.time), ("level".toList, s)] ++ (if r.msg = [] then [] else [("msg".toList, r.msg)]) ++ fs)

/-- A record as om-core makes them: bytes, and fields with names of its own, each once. -/
def GoodRecord (r : Record) : Prop :=
  (∀ c ∈ r.time ++ r.msg, c.toNat < 256) ∧ (∀ x ∈ r.fields, x.1 ∈ LogL.fieldNames ∧ ∀ c ∈ x.2, c.toNat < 256) ∧
    (r.fields.map (·.1)).Nodup

/-- The variables that hold secrets. -/
def secretKeys : List Str := ["OM_REDIS_WRITE_PASSWORD".toList, "OM_REDIS_READ_PASSWORD".toList]

/-- Environments that differ in nothing but secrets. -/
def SameButSecrets (env env' : GoMap Str) : Prop := ∀ k, k ∉ secretKeys → env.load k = env'.load k

/-- The settings, in some order: Go's iteration over maps has none of its own. -/
def ConfigLogged (t : Str) (env : GoMap Str) (out : List Record) : Prop :=
  ∃ ss, ss.Perm (LogL.settings env) ∧ out = LogL.configLog t env ss

end OM.Spec
