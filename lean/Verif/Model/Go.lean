/-!
# Go run-time primitives used by the model

Nothing here is specific to Open Match: this file fixes how Go values are
represented.  It models the pieces of Go's language and standard library that the
repository's code calls (strings, maps, integer formatting and parsing).
-/
namespace OM

/-- A Go `string`, i.e. a byte sequence: each element stands for one byte.  (The type
also has values that are no byte; nothing produces them, and `Model/Wire.lean` refuses
to marshal them.) -/
abbrev Str := List Char

/-- Result of Go code that may panic: `none` is a run-time panic. -/
abbrev Go (α : Type) := Option α

/-- `panic(...)`, nil dereference, index out of range, send on closed channel. -/
def Go.panic {α : Type} : Go α := none

/-! ## Maps

A Go `map[string]V` (and a `sync.Map` with string keys) is an association list
without repeated keys.  Go's iteration order is unspecified; code that iterates
is modelled over an arbitrary permutation of the entries. -/

abbrev GoMap (V : Type) := List (Str × V)

namespace GoMap
variable {V : Type}

/-- `v, ok := m[k]` / `sync.Map.Load`. -/
def load (m : GoMap V) (k : Str) : Option V :=
  match m with
  | [] => none
  | e :: rest => if e.1 = k then some e.2 else load rest k

/-- `delete(m, k)` / `sync.Map.Delete`. -/
def delete (m : GoMap V) (k : Str) : GoMap V :=
  m.filter (fun e => decide (e.1 ≠ k))

/-- `m[k] = v` / `sync.Map.Store`. -/
def store (m : GoMap V) (k : Str) (v : V) : GoMap V :=
  m.delete k ++ [(k, v)]

/-- The key set, in the representation's order. -/
def keys (m : GoMap V) : List Str := m.map Prod.fst

/-- Representation invariant: a Go map holds each key once. -/
def WF (m : GoMap V) : Prop := m.keys.Nodup

end GoMap

/-! ## `strings.Split` -/

/-- `strings.Split(s, sep)` for a one-character separator. -/
def split (sep : Char) : Str → List Str
  | [] => [[]]
  | c :: cs =>
    if c = sep then [] :: split sep cs
    else
      match split sep cs with
      | [] => [[c]]
      | w :: ws => (c :: w) :: ws

/-- `strings.Split(s, sep)[0]`.  `Split` with a non-empty separator never returns
an empty slice, so the index is always in range (`split_ne_nil`). -/
def splitFirst (sep : Char) (s : Str) : Str := (split sep s).headD []

/-! ## `strconv` -/

/-- Result of `strconv.ParseInt`: the value that is returned along with the error
(Go returns 0 with a syntax error and the nearest representable value with a
range error; the repository's code uses that value even when it logs the error). -/
inductive ParseRes where
  | ok (v : Int)
  | syntaxErr
  | rangeErr (v : Int)
  deriving DecidableEq, Repr

/-- The first result of `strconv.ParseInt`. -/
def ParseRes.value : ParseRes → Int
  | .ok v => v
  | .syntaxErr => 0
  | .rangeErr v => v

/-- `err != nil` for the second result of `strconv.ParseInt`. -/
def ParseRes.isErr : ParseRes → Bool
  | .ok _ => false
  | _ => true

/-- Digit value of a byte inside `strconv.ParseUint` (letters count from 10). -/
def digitVal (c : Char) : Option Nat :=
  if '0' ≤ c ∧ c ≤ '9' then some (c.toNat - '0'.toNat)
  else if 'a' ≤ c ∧ c ≤ 'z' then some (c.toNat - 'a'.toNat + 10)
  else if 'A' ≤ c ∧ c ≤ 'Z' then some (c.toNat - 'A'.toNat + 10)
  else none

def maxUint64 : Nat := 2 ^ 64 - 1
def maxInt64 : Int := 2 ^ 63 - 1
def minInt64 : Int := -(2 ^ 63)

/-- Result of the `strconv.ParseUint` loop. -/
inductive UintRes where
  | ok (v : Nat) (underscores : Bool)
  | syntaxErr
  | rangeErr
  deriving DecidableEq, Repr

/-- The digit loop of `strconv.ParseUint(s, base, 64)`: `base0` is true when the
caller passed base 0, in which case underscores are skipped. -/
def parseUintLoop (base : Nat) (base0 : Bool) : Str → Nat → Bool → UintRes
  | [], n, us => .ok n us
  | c :: cs, n, us =>
    if c = '_' ∧ base0 then parseUintLoop base base0 cs n true
    else
      match digitVal c with
      | none => .syntaxErr
      | some d =>
        if d ≥ base then .syntaxErr
        else if n * base + d > maxUint64 then .rangeErr
        else parseUintLoop base base0 cs (n * base + d) us

/-- Sign handling and int64 range check of `strconv.ParseInt`. -/
def signedOf (neg : Bool) : UintRes → ParseRes
  | .syntaxErr => .syntaxErr
  | .rangeErr => if neg then .rangeErr minInt64 else .rangeErr maxInt64
  | .ok un _ =>
    if neg then
      if un > 2 ^ 63 then .rangeErr minInt64 else .ok (-(un : Int))
    else
      if un ≥ 2 ^ 63 then .rangeErr maxInt64 else .ok (un : Int)

/-- `strconv.ParseInt(s, 10, 64)`. -/
def parseInt10 (s : Str) : ParseRes :=
  match s with
  | [] => .syntaxErr
  | c :: cs =>
    let neg := c = '-'
    let body := if c = '+' ∨ c = '-' then cs else s
    if body = [] then .syntaxErr
    else signedOf neg (parseUintLoop 10 false body 0 false)

/-- `strconv.FormatInt(n, 10)` / `%v` / `%d` for a non-negative integer. -/
def fmtNat (n : Nat) : Str := Nat.toDigits 10 n

/-- `strconv.FormatInt(n, 10)` / `%v` / `%d`. -/
def fmtInt (n : Int) : Str :=
  match n with
  | .ofNat k => fmtNat k
  | .negSucc k => '-' :: fmtNat (k + 1)

/-- `%0<w>d` for a non-negative integer: pad with zeros on the left to width `w`. -/
def fmtNatPad (w : Nat) (n : Nat) : Str :=
  List.replicate (w - (fmtNat n).length) '0' ++ fmtNat n

end OM
