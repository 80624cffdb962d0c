import Verif.Model.Wire
/-!
# JSON texts

How the REST gateway and the example matchmaker read and write JSON: protojson's reader and
writer (google.golang.org/protobuf 1.33.0, internal/encoding/json) and what encoding/json makes
of streamed results.  Texts are bytes.  Simplifications: the reader builds the whole value
first and then the message; the nesting limit is left out.
-/
namespace OM

inductive Json
  | null
  | bool (b : Bool)
  /-- A number, as written. -/
  | num (t : Str)
  | str (s : Str)
  | arr (l : List Json)
  | obj (l : List (Str × Json))

namespace Json

/-! ## Reading -/

def isWs (c : Char) : Bool := c = ' ' || c = '\t' || c = '\n' || c = '\r'

def skipWs : Str → Str
  | [] => []
  | c :: s => if isWs c then skipWs s else c :: s

def hexVal (c : Char) : Option Nat :=
  if '0' ≤ c ∧ c ≤ '9' then some (c.toNat - 48)
  else if 'a' ≤ c ∧ c ≤ 'f' then some (c.toNat - 87)
  else if 'A' ≤ c ∧ c ≤ 'F' then some (c.toNat - 55)
  else none

def hex4 (a b c d : Char) : Option Nat := do
  let a ← hexVal a
  let b ← hexVal b
  let c ← hexVal c
  let d ← hexVal d
  some (((a * 16 + b) * 16 + c) * 16 + d)

/-- `utf8.AppendRune`. -/
def appendRune (n : Nat) : Str :=
  if n < 0x80 then [Char.ofNat n]
  else if n < 0x800 then [Char.ofNat (0xC0 + n / 64), Char.ofNat (0x80 + n % 64)]
  else if n < 0x10000 then [Char.ofNat (0xE0 + n / 4096), Char.ofNat (0x80 + n / 64 % 64), Char.ofNat (0x80 + n % 64)]
  else [Char.ofNat (0xF0 + n / 262144), Char.ofNat (0x80 + n / 4096 % 64), Char.ofNat (0x80 + n / 64 % 64), Char.ofNat (0x80 + n % 64)]

/-- The escapes of one character. -/
def unescape (c : Char) : Option Char :=
  if c = '"' ∨ c = '\\' ∨ c = '/' then some c
  else if c = 'b' then some (Char.ofNat 8)
  else if c = 'f' then some (Char.ofNat 12)
  else if c = 'n' then some '\n'
  else if c = 'r' then some '\r'
  else if c = 't' then some '\t'
  else none

/-- What an escape `\uXXXX`, whose number is `n`, stands for, and what follows it: a surrogate
must be the first of a pair. -/
def unicode (n : Nat) (rest : Str) : Option (Str × Str) :=
  if n < 0xD800 ∨ 0xE000 ≤ n then some (appendRune n, rest)
  else if 0xDC00 ≤ n then none
  else match rest with
    | '\\' :: 'u' :: a :: b :: c :: d :: r =>
      match hex4 a b c d with
      | some m => if 0xDC00 ≤ m ∧ m < 0xE000 then some (appendRune (0x10000 + (n - 0xD800) * 1024 + (m - 0xDC00)), r) else none
      | none => none
    | _ => none

/-- The content of a string, after the opening quote, and what follows the closing one. -/
def readStr : Nat → Str → Option (Str × Str)
  | 0, _ => none
  | fuel + 1, s =>
    match s with
    | [] => none
    | c :: r =>
      if c = '"' then some ([], r)
      else if c = '\\' then
        match r with
        | [] => none
        | e :: r =>
          if e = 'u' then
            match r with
            | a :: b :: c :: d :: r =>
              ((hex4 a b c d).bind (unicode · r)).bind fun p => (readStr fuel p.2).map fun q => (p.1 ++ q.1, q.2)
            | _ => none
          else (unescape e).bind fun x => (readStr fuel r).map fun q => (x :: q.1, q.2)
      else if c.toNat < 0x20 then none
      else (readStr fuel r).map fun q => (c :: q.1, q.2)

/-- Characters that cannot follow a number or a literal. -/
def notDelim (c : Char) : Bool := c = '-' || c = '+' || c = '.' || c = '_' || c.isAlpha || c.isDigit

/-- `numberParts` of decode_number.go: sign, digits before the point, digits after it, exponent. -/
structure NumParts where
  neg : Bool
  int : Str
  frac : Str
  exp : Int

def natOf (s : Str) : Nat := Nat.ofDigitChars 10 s 0

/-- An optional minus sign. -/
def takeMinus : Str → Bool × Str
  | [] => (false, [])
  | c :: r => if c = '-' then (true, r) else (false, c :: r)

/-- An optional sign. -/
def takeSign : Str → Bool × Str
  | [] => (false, [])
  | c :: r => if c = '-' then (true, r) else if c = '+' then (false, r) else (false, c :: r)

/-- `[eE][+-]?[0-9]+` or nothing. -/
def readExp : Str → Option Int
  | [] => some 0
  | c :: s =>
    if c = 'e' ∨ c = 'E' then
      let p := takeSign s
      if p.2 ≠ [] ∧ p.2.all (·.isDigit) then some (if p.1 then -(natOf p.2 : Int) else natOf p.2) else none
    else none

/-- `parseNumberParts`: no leading zeros, digits on both sides of a point. -/
def numParts (s : Str) : Option NumParts :=
  let p := takeMinus s
  let i := p.2.takeWhile (·.isDigit)
  let r := p.2.dropWhile (·.isDigit)
  if i = [] ∨ (1 < i.length ∧ i.head? = some '0') then none
  else match r with
    | [] => some ⟨p.1, i, [], 0⟩
    | c :: r' =>
      if c = '.' then
        let f := r'.takeWhile (·.isDigit)
        if f = [] then none else (readExp (r'.dropWhile (·.isDigit))).map fun e => ⟨p.1, i, f, e⟩
      else (readExp r).map fun e => ⟨p.1, i, [], e⟩

def numberOk (s : Str) : Bool := (numParts s).isSome

/-- A literal or a number. -/
def readWord (s : Str) : Option (Json × Str) :=
  let w := s.takeWhile notDelim
  let r := s.dropWhile notDelim
  if w = "null".toList then some (.null, r)
  else if w = "true".toList then some (.bool true, r)
  else if w = "false".toList then some (.bool false, r)
  else if numberOk w then some (.num w, r)
  else none

mutual
def readValue : Nat → Str → Option (Json × Str)
  | 0, _ => none
  | fuel + 1, s =>
    match skipWs s with
    | [] => none
    | c :: r =>
      if c = '"' then (readStr (r.length + 1) r).map fun q => (.str q.1, q.2)
      else if c = '[' then
        match skipWs r with
        | [] => none
        | d :: r' => if d = ']' then some (.arr [], r') else (readElems fuel r).map fun q => (.arr q.1, q.2)
      else if c = '{' then
        match skipWs r with
        | [] => none
        | d :: r' => if d = '}' then some (.obj [], r') else (readMembers fuel r).map fun q => (.obj q.1, q.2)
      else readWord (c :: r)
def readElems : Nat → Str → Option (List Json × Str)
  | 0, _ => none
  | fuel + 1, s =>
    match readValue fuel s with
    | none => none
    | some (j, r) =>
      match skipWs r with
      | [] => none
      | c :: r =>
        if c = ',' then (readElems fuel r).map fun q => (j :: q.1, q.2)
        else if c = ']' then some ([j], r)
        else none
def readMembers : Nat → Str → Option (List (Str × Json) × Str)
  | 0, _ => none
  | fuel + 1, s =>
    match skipWs s with
    | [] => none
    | c :: r =>
      if c = '"' then
        match readStr (r.length + 1) r with
        | none => none
        | some (k, r) =>
          match skipWs r with
          | [] => none
          | c :: r =>
            if c = ':' then
              match readValue fuel r with
              | none => none
              | some (j, r) =>
                match skipWs r with
                | [] => none
                | c :: r =>
                  if c = ',' then (readMembers fuel r).map fun q => ((k, j) :: q.1, q.2)
                  else if c = '}' then some ([(k, j)], r)
                  else none
            else none
      else none
end

mutual
/-- Every string is UTF-8 (`readStr` refuses others). -/
def textOk : Json → Bool
  | .null => true
  | .bool _ => true
  | .num _ => true
  | .str s => Wire.utf8Valid s
  | .arr l => textOks l
  | .obj l => textOkm l
def textOks : List Json → Bool
  | [] => true
  | j :: l => textOk j && textOks l
def textOkm : List (Str × Json) → Bool
  | [] => true
  | (k, j) :: l => Wire.utf8Valid k && textOk j && textOkm l
end

/-- A text that holds one value. -/
def read (t : Str) : Option Json :=
  match readValue (t.length + 1) t with
  | some (j, r) => if skipWs r = [] ∧ textOk j then some j else none
  | none => none

/-- The first value of a text, whatever follows it (`json.Decoder`, then protojson's reader). -/
def readFirst (t : Str) : Option Json :=
  match readValue (t.length + 1) t with
  | some (j, _) => if textOk j then some j else none
  | none => none

/-! ## Writing -/

def hexDigit (n : Nat) : Char := if n < 10 then Char.ofNat (48 + n) else Char.ofNat (87 + n)

/-- `appendString`: quotes, backslashes and control characters are escaped; in streamed results
(`html`) also what `json.Marshal` escapes in a `RawMessage`: `<`, `>`, `&`; for more see `escapes`. -/
def escape (html : Bool) (c : Char) : Str :=
  if c = '"' then ['\\', '"']
  else if c = '\\' then ['\\', '\\']
  else if c.toNat = 8 then ['\\', 'b']
  else if c.toNat = 12 then ['\\', 'f']
  else if c.toNat = 10 then ['\\', 'n']
  else if c.toNat = 13 then ['\\', 'r']
  else if c.toNat = 9 then ['\\', 't']
  else if c.toNat < 0x20 ∨ (html ∧ (c = '<' ∨ c = '>' ∨ c = '&')) then
    ['\\', 'u', '0', '0', hexDigit (c.toNat / 16), hexDigit (c.toNat % 16)]
  else [c]

/-- `json.Marshal` also escapes the separators U+2028 and U+2029 (`compact` in encoding/json). -/
def escapes (html : Bool) : Str → Str
  | c :: a :: b :: s =>
    if html ∧ c.toNat = 0xE2 ∧ a.toNat = 0x80 ∧ (b.toNat = 0xA8 ∨ b.toNat = 0xA9) then
      '\\' :: 'u' :: '2' :: '0' :: '2' :: hexDigit (b.toNat % 16) :: escapes html s
    else escape html c ++ escapes html (a :: b :: s)
  | c :: s => escape html c ++ escapes html s
  | [] => []

def writeStr (html : Bool) (s : Str) : Str := '"' :: escapes html s ++ ['"']

mutual
/-- The text of a value.  `sep` follows every comma: a blank in some builds of protojson's writer,
nothing in others; `json.Marshal` removes it from streamed results. -/
def write (html : Bool) (sep : Str) : Json → Str
  | .null => "null".toList
  | .bool b => if b then "true".toList else "false".toList
  | .num t => t
  | .str s => writeStr html s
  | .arr l => '[' :: writeElems html sep l ++ [']']
  | .obj l => '{' :: writeMembers html sep l ++ ['}']
def writeElems (html : Bool) (sep : Str) : List Json → Str
  | [] => []
  | [j] => write html sep j
  | j :: l => write html sep j ++ ',' :: sep ++ writeElems html sep l
def writeMembers (html : Bool) (sep : Str) : List (Str × Json) → Str
  | [] => []
  | [(k, j)] => writeStr html k ++ ':' :: write html sep j
  | (k, j) :: l => writeStr html k ++ ':' :: write html sep j ++ ',' :: sep ++ writeMembers html sep l
end

end Json
end OM
